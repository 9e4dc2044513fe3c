import Verif.Model.Mpi.AddSubStore
import Verif.Lemmas.Mpi.AddSub
namespace Verif.Mpi

@[simp] theorem set_same (s : Store) (r : Nat) (o : Obj) : s.set r o r = o := by simp [Store.set]
theorem set_other (s : Store) {r p : Nat} (o : Obj) (h : p ≠ r) : s.set r o p = s p := by
  simp [Store.set, h]

@[simp] theorem seg_length (f : Nat → Nat) (i n : Nat) : (seg f i n).length = n := by
  induction n generalizing i with
  | zero => rfl
  | succ n ih => simp [seg, ih]

theorem seg_congr {f g : Nat → Nat} {i n : Nat} (h : ∀ j, i ≤ j → f j = g j) :
    seg f i n = seg g i n := by
  induction n generalizing i with
  | zero => rfl
  | succ n ih => simp only [seg]; rw [h i (Nat.le_refl _), ih (fun j hj => h j (by omega))]

/-- A digit written below position `i` does not affect what is read from `i` on. -/
theorem wr_data_above (s : Store) (r i v p j : Nat) (h : i < j) :
    ((s.wr r i v) p).data j = (s p).data j := by
  unfold Store.wr Store.set
  split
  next hp => subst hp; simp [Nat.ne_of_gt h]
  next => rfl

theorem wr_data_below (s : Store) (r i v p j : Nat) (h : j < i) :
    ((s.wr r i v) p).data j = (s p).data j := by
  unfold Store.wr Store.set
  split
  next hp => subst hp; simp [Nat.ne_of_lt h]
  next => rfl

@[simp] theorem wr_data_at (s : Store) (r i v : Nat) : ((s.wr r i v) r).data i = v := by
  simp [Store.wr]
@[simp] theorem wr_used (s : Store) (r i v p : Nat) : ((s.wr r i v) p).used = (s p).used := by
  unfold Store.wr Store.set; split
  next h => subst h; rfl
  next => rfl
@[simp] theorem wr_neg (s : Store) (r i v p : Nat) : ((s.wr r i v) p).neg = (s p).neg := by
  unfold Store.wr Store.set; split
  next h => subst h; rfl
  next => rfl
theorem wr_other (s : Store) {r p : Nat} (i v : Nat) (h : p ≠ r) : s.wr r i v p = s p :=
  set_other _ _ h

/-- Effect of writing the digits `L` into object `r` from position `i` on. -/
structure Wrote (s s' : Store) (r i : Nat) (L : List Nat) (du : Nat) : Prop where
  digits : seg (s' r).data i L.length = L
  below : ∀ j, j < i → (s' r).data j = (s r).data j
  above : ∀ j, i + L.length ≤ j → (s' r).data j = (s r).data j
  used : (s' r).used = (s r).used + du
  neg : (s' r).neg = (s r).neg
  frame : ∀ p, p ≠ r → s' p = s p

theorem Wrote.cons {s s' : Store} {r i d : Nat} {L : List Nat} {du : Nat}
    (h : Wrote (s.wr r i d) s' r (i + 1) L du) : Wrote s s' r i (d :: L) du where
  digits := by
    simp only [List.length_cons, seg]
    rw [h.digits, h.below i (by omega), wr_data_at]
  below j hj := by rw [h.below j (by omega), wr_data_below _ _ _ _ _ _ hj]
  above j hj := by
    rw [List.length_cons] at hj
    rw [h.above j (by omega), wr_data_above _ _ _ _ _ _ (by omega)]
  used := by rw [h.used, wr_used]
  neg := by rw [h.neg, wr_neg]
  frame p hp := by rw [h.frame p hp, wr_other _ _ _ hp]

theorem wrote_nil (s : Store) (r i : Nat) : Wrote s s r i [] 0 :=
  ⟨rfl, fun _ _ => rfl, fun _ _ => rfl, rfl, rfl, fun _ _ => rfl⟩

theorem seg_wr (s : Store) (r i v p n : Nat) :
    seg ((s.wr r i v) p).data (i + 1) n = seg (s p).data (i + 1) n :=
  seg_congr fun j hj => wr_data_above _ _ _ _ _ _ (by omega)

theorem copyS_spec (r x : Nat) : ∀ (n i : Nat) (s : Store),
    Wrote s (copyS r x n i s) r i (seg (s x).data i n) 0
  | 0, i, s => wrote_nil s r i
  | n + 1, i, s => by
    have := copyS_spec r x n (i + 1) (s.wr r i ((s x).data i))
    rw [seg_wr] at this
    exact this.cons

theorem carryS_spec (b r x : Nat) : ∀ (n i c : Nat) (s : Store),
    Wrote s (carryS b r x n i c s) r i (addCarry b (seg (s x).data i n) c)
      ((addCarry b (seg (s x).data i n) c).length - n)
  | 0, i, c, s => by
    unfold carryS seg addCarry
    split
    next =>
      have h : Wrote (s.wr r i 1) (carryS b r x 0 i 1 s) r (i + 1) [] 1 := by
        constructor
        · rfl
        · intro j hj; simp [carryS]
        · intro j hj; simp [carryS]
        · simp [carryS]
        · simp [carryS]
        · intro p hp; simp [carryS, set_other _ _ hp]
      have := h.cons
      simpa [carryS] using this
    next => exact wrote_nil s r i
  | n + 1, i, c, s => by
    unfold carryS seg addCarry
    split
    next =>
      have := carryS_spec b r x n (i + 1) (if ((s x).data i + 1) % b = 0 then 1 else 0)
        (s.wr r i (((s x).data i + 1) % b))
      rw [seg_wr] at this
      have := this.cons
      simpa only [List.length_cons, Nat.add_sub_add_right] using this
    next =>
      have := copyS_spec r x (n + 1) i s
      simpa [seg] using this

theorem addLoopS_spec (b r x y m : Nat) : ∀ (n i c : Nat) (s : Store),
    Wrote s (addLoopS b r x y m n i c s) r i
      (addLoop b (seg (s x).data i (n + m)) (seg (s y).data i n) c)
      ((addLoop b (seg (s x).data i (n + m)) (seg (s y).data i n) c).length - (n + m))
  | 0, i, c, s => by
    have := carryS_spec b r x m i c s
    have e : addLoop b (seg (s x).data i (0 + m)) (seg (s y).data i 0) c =
        addCarry b (seg (s x).data i m) c := by
      rw [Nat.zero_add]; cases m <;> simp [seg, addLoop]
    rw [e, Nat.zero_add]
    exact this
  | n + 1, i, c, s => by
    have e : n + 1 + m = (n + m) + 1 := by omega
    rw [e]
    simp only [addLoopS, seg, addLoop]
    have := addLoopS_spec b r x y m n (i + 1)
      ((if ((s x).data i + c) % b < c then 1 else 0) +
        (if (((s x).data i + c) % b + (s y).data i) % b < ((s x).data i + c) % b then 1 else 0))
      (s.wr r i ((((s x).data i + c) % b + (s y).data i) % b))
    rw [seg_wr, seg_wr] at this
    have := this.cons
    simpa only [List.length_cons, Nat.add_sub_add_right] using this

theorem borrowS_spec (b r x : Nat) : ∀ (n i c : Nat) (s : Store),
    match subBorrow b (seg (s x).data i n) c with
    | none => borrowS b r x n i c s = none
    | some L => ∃ s', borrowS b r x n i c s = some s' ∧ Wrote s s' r i L 0 ∧ L.length = n
  | 0, i, c, s => by
    unfold borrowS seg subBorrow
    split
    next h => split at h <;> simp_all
    next L h =>
      split at h
      · simp at h
      · obtain rfl : [] = L := by simpa using h
        rename_i hc
        exact ⟨s, by simp [hc], wrote_nil s r i, rfl⟩
  | n + 1, i, c, s => by
    unfold borrowS seg subBorrow
    by_cases hc : c ≠ 0
    · simp only [if_pos hc]
      have := borrowS_spec b r x n (i + 1) (if (s x).data i = 0 then 1 else 0)
        (s.wr r i (((s x).data i + b - 1) % b))
      rw [seg_wr] at this
      revert this
      cases subBorrow b (seg (s x).data (i + 1) n) (if (s x).data i = 0 then 1 else 0) with
      | none => intro h; exact h
      | some L =>
        rintro ⟨s', h1, h2, h3⟩
        exact ⟨s', h1, h2.cons, by simp [h3]⟩
    · simp only [if_neg hc]
      exact ⟨_, rfl, copyS_spec r x (n + 1) i s, by simp⟩

theorem subLoopS_spec (b r x y m : Nat) : ∀ (n i c : Nat) (s : Store),
    match subLoop b (seg (s x).data i (n + m)) (seg (s y).data i n) c with
    | none => subLoopS b r x y m n i c s = none
    | some L => ∃ s', subLoopS b r x y m n i c s = some s' ∧ Wrote s s' r i L 0 ∧ L.length = n + m
  | 0, i, c, s => by
    have := borrowS_spec b r x m i c s
    have e : subLoop b (seg (s x).data i (0 + m)) (seg (s y).data i 0) c =
        subBorrow b (seg (s x).data i m) c := by
      rw [Nat.zero_add]; cases m <;> simp [seg, subLoop]
    rw [e, Nat.zero_add]
    exact this
  | n + 1, i, c, s => by
    have e : n + 1 + m = (n + m) + 1 := by omega
    rw [e]
    simp only [subLoopS, seg, subLoop]
    have := subLoopS_spec b r x y m n (i + 1)
      (if (s x).data i ≠ (s y).data i then (if (s x).data i < (s y).data i then 1 else 0) else c)
      (s.wr r i (((s x).data i + 2 * b - (s y).data i - c) % b))
    rw [seg_wr, seg_wr] at this
    revert this
    cases subLoop b (seg (s x).data (i + 1) (n + m)) (seg (s y).data (i + 1) n)
      (if (s x).data i ≠ (s y).data i then (if (s x).data i < (s y).data i then 1 else 0) else c) with
    | none => intro h; exact h
    | some L =>
      rintro ⟨s', h1, h2, h3⟩
      exact ⟨s', h1, h2.cons, by simp [h3]⟩

theorem seg_succ_last (f : Nat → Nat) (i n : Nat) : seg f i (n + 1) = seg f i n ++ [f (i + n)] := by
  induction n generalizing i with
  | zero => rfl
  | succ n ih =>
    rw [seg, ih (i + 1), seg]; simp; congr 1; omega

theorem adjust_concat (xs : List Nat) (d : Nat) :
    adjust (xs ++ [d]) = if d = 0 then adjust xs else xs ++ [d] := by
  split
  next h =>
    subst h
    induction xs with
    | nil => simp [adjust]
    | cons x xs ih => simp only [List.cons_append, adjust, ih]
  next h =>
    apply adjust_of_top
    simp [TopNZ, h]

theorem adjustUsed_spec (f : Nat → Nat) (n : Nat) :
    seg f 0 (adjustUsed f n) = adjust (seg f 0 n) := by
  induction n with
  | zero => rfl
  | succ n ih =>
    rw [seg_succ_last, adjust_concat, Nat.zero_add]
    unfold adjustUsed
    split
    · exact ih
    · rw [seg_succ_last, Nat.zero_add]

/-- `r` holds the number `z`, nothing else changed. -/
def Became (s s' : Store) (r : Nat) (z : Mpi) : Prop :=
  (s' r).mpi = z ∧ ∀ p, p ≠ r → s' p = s p

/-- Digits of the array above `used` up to position `N` are zero (unless the number is zero, when
`cry_mpi_zero` may have left anything there). -/
def Clean (N : Nat) (o : Obj) : Prop := o.used = 0 ∨ ∀ j, o.used ≤ j → j ≤ N → o.data j = 0

theorem adjustUsed_zero (f : Nat → Nat) (n : Nat) :
    ∀ j, adjustUsed f n ≤ j → j < n → f j = 0 := by
  induction n with
  | zero => intro j _ h; omega
  | succ n ih =>
    intro j h1 h2
    unfold adjustUsed at h1
    split at h1
    next h =>
      by_cases hj : j = n
      · rw [hj]; exact h
      · exact ih j h1 (by omega)
    next h => omega

theorem set_hdr_data (s : Store) (r p u : Nat) (g : Bool) :
    ((s.set r { s r with used := u, neg := g }) p).data = (s p).data := by
  unfold Store.set; split
  next h => subst h; rfl
  next => rfl

theorem addAbsS_spec (b r x y : Nat) (s : Store) :
    Became s (addAbsS b r x y s) r (addAbs b (s x).mpi (s y).mpi) := by
  have main : ∀ x y, (s y).used ≤ (s x).used →
      Became s (addLoopS b r x y ((s x).used - (s y).used) (s y).used 0 0
        (s.set r { s r with used := (s x).used, neg := false })) r
        ⟨false, addLoop b (s x).mpi.digs (s y).mpi.digs 0⟩ := by
    intro x y h
    have := addLoopS_spec b r x y ((s x).used - (s y).used) (s y).used 0 0
        (s.set r { s r with used := (s x).used, neg := false })
    rw [show (s y).used + ((s x).used - (s y).used) = (s x).used by omega, set_hdr_data,
      set_hdr_data] at this
    constructor
    · have hu := this.used
      have hl := (@addLoop_length b (seg (s x).data 0 (s x).used) (seg (s y).data 0 (s y).used) 0).1
      rw [seg_length] at hl
      simp only [set_same] at hu
      rw [Nat.add_sub_cancel' hl] at hu
      have hn := this.neg
      simp only [set_same] at hn
      unfold Obj.mpi
      rw [hn, hu, this.digits]
    · intro p hp
      rw [this.frame p hp, set_other _ _ hp]
  unfold addAbsS addAbs
  have e : ∀ z, (s z).mpi.digs.length = (s z).used := fun z => by simp [Obj.mpi]
  rw [e, e]
  by_cases h : (s x).used < (s y).used
  · simp only [if_pos h]; exact main y x (by omega)
  · simp only [if_neg h]; exact main x y (by omega)

theorem subAbsS_spec {b : Nat} (hb : 1 < b) (r x y : Nat) (s : Store) (hx : Norm b (s x).mpi)
    (hy : Norm b (s y).mpi) (hle : val b (s y).mpi.digs ≤ val b (s x).mpi.digs) :
    ∃ s' z, subAbsS b r x y s = some s' ∧ subAbs b (s x).mpi (s y).mpi = some z ∧
      Became s s' r z ∧ ∀ N, (∀ j, max (s x).used (s y).used ≤ j → j ≤ N → (s r).data j = 0) →
        Clean N (s' r) := by
  have e : ∀ z, (s z).mpi.digs.length = (s z).used := fun z => by simp [Obj.mpi]
  have hlen : (s y).used ≤ (s x).used := by
    rw [← e, ← e]
    by_contra h
    have := val_lt_of_len (by omega) hx.digits hy.top (Nat.lt_of_not_le h)
    omega
  obtain ⟨L, hL, -, -, hLl⟩ := subLoop_spec hb _ _ 0 hx.digits hy.digits (by omega)
    (by omega) (by rw [e, e]; exact hlen)
  have hc := cmpAbs_spec (by omega) hx hy
  unfold subAbsS subAbs
  rw [if_neg (by omega), if_neg (by omega), hL]
  have := subLoopS_spec b r x y ((s x).used - (s y).used) (s y).used 0 0
        (s.set r { s r with used := (s x).used, neg := false })
  rw [show (s y).used + ((s x).used - (s y).used) = (s x).used by omega, set_hdr_data,
      set_hdr_data] at this
  have hL' : subLoop b (seg (s x).data 0 (s x).used) (seg (s y).data 0 (s y).used) 0 = some L := hL
  rw [hL'] at this
  obtain ⟨s', h1, h2, h3⟩ := this
  simp only
  rw [h1]
  refine ⟨_, _, rfl, rfl, ⟨?_, ?_⟩, ?_⟩
  · have hu := h2.used
    have hn := h2.neg
    simp only [set_same, Nat.add_zero] at hu hn
    simp only [set_same, Obj.mpi, hn]
    rw [adjustUsed_spec, hu, ← h3, h2.digits]
  · intro p hp
    show Store.set s' r _ p = s p
    rw [set_other _ _ hp, h2.frame p hp, set_other _ _ hp]
  · intro N hN
    right
    intro j hj hjN
    have hu := h2.used
    simp only [set_same, Nat.add_zero] at hu
    simp only [set_same] at hj ⊢
    by_cases hjx : j < (s x).used
    · exact adjustUsed_zero _ _ j hj (by rw [hu]; exact hjx)
    · rw [h2.above j (by omega), set_hdr_data]
      exact hN j (by omega) hjN

theorem Clean.setNeg {N r : Nat} {s : Store} (h : Clean N (s r)) (g : Bool) :
    Clean N (setNeg r g s r) := by
  unfold Verif.Mpi.setNeg
  rw [set_same]; exact h

theorem Became.setNeg {s s' : Store} {r : Nat} {z : Mpi} (h : Became s s' r z) (g : Bool) :
    Became s (setNeg r g s') r { z with neg := g } := by
  refine ⟨?_, fun p hp => ?_⟩
  · rw [← h.1]; simp [Verif.Mpi.setNeg, Obj.mpi]
  · rw [Verif.Mpi.setNeg, set_other _ _ hp, h.2 p hp]

theorem became_zero (s : Store) (r : Nat) :
    Became s (s.set r { s r with neg := false, used := 0 }) r ⟨false, []⟩ :=
  ⟨by simp [Obj.mpi, seg], fun p hp => set_other _ _ hp⟩

/-- Running `cry_mpi_add` on the store is the value-level addition, whatever objects
coincide. -/
theorem addS_refines {b : Nat} (hb : 1 < b) (r x y : Nat) (s : Store) (hx : Norm b (s x).mpi)
    (hy : Norm b (s y).mpi) :
    ∃ s' z, addS b r x y s = some s' ∧ add b (s x).mpi (s y).mpi = some z ∧ Became s s' r z ∧
      ((s x).neg ≠ (s y).neg → ∀ N, (∀ j, max (s x).used (s y).used ≤ j → j ≤ N → (s r).data j = 0) →
        Clean N (s' r)) := by
  unfold addS add
  have hn : ∀ z, (s z).mpi.neg = (s z).neg := fun _ => rfl
  rw [hn, hn]
  by_cases hs : (s x).neg = (s y).neg
  · rw [if_pos hs, if_pos hs]
    exact ⟨_, _, rfl, rfl, (addAbsS_spec b r x y s).setNeg _, fun h => absurd hs (by simpa using h)⟩
  · rw [if_neg hs, if_neg hs]
    have hc := cmpAbs_spec (by omega) hx hy
    rcases hc with ⟨h1, h2⟩ | ⟨h1, h2⟩ | ⟨h1, h2⟩
    · obtain ⟨s', z, e1, e2, e3, e4⟩ := subAbsS_spec hb r y x s hy hx (by omega)
      simp only [h1, e1, e2]
      exact ⟨_, _, rfl, rfl, e3.setNeg _, fun _ N hN => (e4 N fun j hj hjN => hN j (by omega) hjN).setNeg _⟩
    · simp only [h1]
      exact ⟨_, _, rfl, rfl, became_zero s r, fun _ _ _ => Or.inl (by rw [set_same])⟩
    · obtain ⟨s', z, e1, e2, e3, e4⟩ := subAbsS_spec hb r x y s hx hy (by omega)
      simp only [h1, e1, e2]
      exact ⟨_, _, rfl, rfl, e3.setNeg _, fun _ N hN => (e4 N fun j hj hjN => hN j (by omega) hjN).setNeg _⟩

/-- The same for `cry_mpi_sub`. -/
theorem subS_refines {b : Nat} (hb : 1 < b) (r x y : Nat) (s : Store) (hx : Norm b (s x).mpi)
    (hy : Norm b (s y).mpi) :
    ∃ s' z, subS b r x y s = some s' ∧ sub b (s x).mpi (s y).mpi = some z ∧ Became s s' r z ∧
      ((s x).neg = (s y).neg → ∀ N, (∀ j, max (s x).used (s y).used ≤ j → j ≤ N → (s r).data j = 0) →
        Clean N (s' r)) := by
  unfold subS sub
  have hn : ∀ z, (s z).mpi.neg = (s z).neg := fun _ => rfl
  rw [hn, hn]
  by_cases hs : (s x).neg ≠ (s y).neg
  · rw [if_pos hs, if_pos hs]
    exact ⟨_, _, rfl, rfl, (addAbsS_spec b r x y s).setNeg _, fun h => absurd hs (by simpa using h)⟩
  · rw [if_neg hs, if_neg hs]
    have hc := cmpAbs_spec (by omega) hx hy
    rcases hc with ⟨h1, h2⟩ | ⟨h1, h2⟩ | ⟨h1, h2⟩
    · obtain ⟨s', z, e1, e2, e3, e4⟩ := subAbsS_spec hb r y x s hy hx (by omega)
      simp only [h1, e1, e2]
      exact ⟨_, _, rfl, rfl, e3.setNeg _, fun _ N hN => (e4 N fun j hj hjN => hN j (by omega) hjN).setNeg _⟩
    · simp only [h1]
      exact ⟨_, _, rfl, rfl, became_zero s r, fun _ _ _ => Or.inl (by rw [set_same])⟩
    · obtain ⟨s', z, e1, e2, e3, e4⟩ := subAbsS_spec hb r x y s hx hy (by omega)
      simp only [h1, e1, e2]
      exact ⟨_, _, rfl, rfl, e3.setNeg _, fun _ N hN => (e4 N fun j hj hjN => hN j (by omega) hjN).setNeg _⟩

end Verif.Mpi
