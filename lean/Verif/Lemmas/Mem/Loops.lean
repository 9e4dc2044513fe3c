import Verif.Lemmas.Mem.Run
import Verif.Lemmas.Mpi.AddSubStore
/-! The digit loops of the memory model compute the digit lists of the value-level model. -/
namespace Verif.Mem
open Verif.Mpi (Mpi)

theorem adjust_prefix (xs : List Nat) : Mpi.adjust xs <+: xs := by
  induction xs using List.reverseRecOn with
  | nil => exact List.nil_prefix
  | append_singleton xs a ih =>
    rw [Mpi.adjust_concat]
    split
    · exact ih.trans (List.prefix_append _ _)
    · exact List.prefix_rfl

theorem adjustLoop_ok (r : Nat) : ∀ (xs : List Nat) (s : St) (h : Hdr), (s.obj r).hdr = some h →
    h.used = xs.length → Seg s r 0 xs →
    adjustLoop r xs.length s = .ok ((), s.upd r { h with used := (Mpi.adjust xs).length } (s.obj r).cells) := by
  intro xs
  induction xs using List.reverseRecOn with
  | nil =>
    intro s h hh hu _
    have : h = { h with used := (Mpi.adjust []).length } := by
      cases h; simp only [List.length_nil] at hu; subst hu; rfl
    rw [← this, upd_self hh]; rfl
  | append_singleton xs a ih =>
    intro s h hh hu hs
    have h1 : rd r xs.length s = .ok (a, s) := by
      have := hs.get (k := xs.length) (d := a) (by simp)
      rw [Nat.zero_add] at this
      exact rd_ok this
    have hs' : Seg s r 0 xs := by simpa using hs.take xs.length
    rw [List.length_append, List.length_singleton, adjustLoop, bind_ok h1, Mpi.adjust_concat]
    by_cases ha : a = 0
    · rw [if_pos ha, if_pos ha, bind_ok (setUsed_ok hh _),
        ih _ { h with used := xs.length } (by simp) rfl (hs'.hset r _), upd_upd, upd_obj_same, cells_upd rfl]
    · rw [if_neg ha, if_neg ha]
      have : h = { h with used := (xs ++ [a]).length } := by cases h; simp only at hu; subst hu; rfl
      rw [← this, upd_self hh]; rfl

theorem adjust_ok {r : Nat} {s : St} {h : Hdr} {xs : List Nat} (hh : (s.obj r).hdr = some h)
    (hu : h.used = xs.length) (hs : Seg s r 0 xs) :
    adjust r s = .ok ((), s.upd r { h with used := (Mpi.adjust xs).length } (s.obj r).cells) := by
  unfold adjust
  rw [bind_ok (hdr_ok hh), hu, adjustLoop_ok r xs s h hh hu hs]

theorem carryLoop_ok (b r x : Nat) : ∀ (xs : List Nat) (i c : Nat) (s : St) (h : Hdr), (s.obj r).hdr = some h →
    Seg s x i xs → i + xs.length + 1 ≤ (s.obj r).cells.length →
    carryLoop b r x xs.length i c s =
      .ok ((), s.upd r { h with used := h.used + ((Mpi.addCarry b xs c).length - xs.length) }
        (over (s.obj r).cells i (Mpi.addCarry b xs c)))
  | [], i, c, s, h, hh, hx, hc => by
    rw [List.length_nil] at hc
    simp only [carryLoop, Mpi.addCarry, List.length_nil]
    by_cases h0 : c ≠ 0
    · rw [if_pos h0, if_pos h0, bind_ok (wr_ok hh 1 (by omega)), bind_ok (hdr_ok (h := h) (by simp)),
        setUsed_ok (h := h) (by simp), upd_upd, upd_obj_same, cells_upd (by simp), ← over_cons (by omega), over_nil]
      rfl
    · rw [if_neg h0, if_neg h0, over_nil]
      show _ = Out.ok ((), s.upd r { h with used := h.used } _)
      rw [upd_self hh]; rfl
  | a :: xs, i, c, s, h, hh, hx, hc => by
    rw [List.length_cons] at hc
    simp only [carryLoop, Mpi.addCarry, List.length_cons]
    by_cases h0 : c ≠ 0
    · rw [if_pos h0, if_pos h0, bind_ok (rd_ok hx.head), bind_ok (wr_ok hh _ (by omega)),
        carryLoop_ok b r x xs (i + 1) _ _ h (by simp) (hx.tail.wr r i h _ (by omega))
          (by rw [upd_obj_same, cells_upd (by simp)]; simp; omega),
        upd_upd, upd_obj_same, cells_upd (by simp), over_cons (by omega)]
      simp only [List.length_cons, Nat.add_sub_add_right]
    · rw [if_neg h0, if_neg h0]
      have := copyLoop_ok r x h (a :: xs) i s hh hx (by rw [List.length_cons]; omega)
      rw [List.length_cons] at this
      rw [this]
      simp

theorem addLoop_ok (b r x y : Nat) : ∀ (ys xs : List Nat) (i c : Nat) (s : St) (h : Hdr),
    (s.obj r).hdr = some h → Seg s x i xs → Seg s y i ys → ys.length ≤ xs.length →
    i + xs.length + 1 ≤ (s.obj r).cells.length →
    addLoop b r x y (xs.length - ys.length) ys.length i c s =
      .ok ((), s.upd r { h with used := h.used + ((Mpi.addLoop b xs ys c).length - xs.length) }
        (over (s.obj r).cells i (Mpi.addLoop b xs ys c)))
  | [], xs, i, c, s, h, hh, hx, hy, hl, hc => by
    have e : Mpi.addLoop b xs [] c = Mpi.addCarry b xs c := by cases xs <;> rfl
    rw [e, List.length_nil, Nat.sub_zero, addLoop, carryLoop_ok b r x xs i c s h hh hx hc]
  | q :: ys, [], i, c, s, h, hh, hx, hy, hl, hc => by simp at hl
  | q :: ys, p :: xs, i, c, s, h, hh, hx, hy, hl, hc => by
    simp only [List.length_cons] at hl hc
    simp only [List.length_cons, Nat.add_sub_add_right, addLoop, Mpi.addLoop]
    rw [bind_ok (rd_ok hx.head), bind_ok (rd_ok hy.head), bind_ok (wr_ok hh _ (by omega)),
      addLoop_ok b r x y ys xs (i + 1) _ _ h (by simp) (hx.tail.wr r i h _ (by omega))
        (hy.tail.wr r i h _ (by omega)) (by omega) (by rw [upd_obj_same, cells_upd (by simp)]; simp; omega),
      upd_upd, upd_obj_same, cells_upd (by simp), over_cons (by omega)]

theorem borrowLoop_ok (b r x : Nat) : ∀ (xs : List Nat) (i c : Nat) (s : St) (h : Hdr) (L : List Nat),
    (s.obj r).hdr = some h → Seg s x i xs → i + xs.length ≤ (s.obj r).cells.length →
    Mpi.subBorrow b xs c = some L →
    borrowLoop b r x xs.length i c s = .ok (0, s.upd r h (over (s.obj r).cells i L)) ∧ L.length = xs.length
  | [], i, c, s, h, L, hh, hx, hc, hL => by
    unfold Mpi.subBorrow at hL
    by_cases h0 : c ≠ 0
    · rw [if_pos h0] at hL; cases hL
    · rw [if_neg h0] at hL
      obtain rfl : [] = L := by simpa using hL
      have : c = 0 := by omega
      subst this
      rw [over_nil, upd_self hh]
      exact ⟨rfl, rfl⟩
  | a :: xs, i, c, s, h, L, hh, hx, hc, hL => by
    rw [List.length_cons] at hc
    unfold Mpi.subBorrow at hL
    simp only [borrowLoop, List.length_cons]
    by_cases h0 : c ≠ 0
    · rw [if_pos h0] at hL ⊢
      obtain ⟨L', hL', rfl⟩ := Option.map_eq_some_iff.1 hL
      obtain ⟨e1, e2⟩ := borrowLoop_ok b r x xs (i + 1) _ (s.upd r h ((s.obj r).cells.set i (some ((a + b - 1) % b)))) h L'
        (by simp) (hx.tail.wr r i h _ (by omega)) (by rw [upd_obj_same, cells_upd (by simp)]; simp; omega) hL'
      rw [bind_ok (rd_ok hx.head), bind_ok (wr_ok hh _ (by omega)), e1,
        upd_upd, upd_obj_same, cells_upd (by simp), over_cons (by omega)]
      exact ⟨rfl, by simp [e2]⟩
    · rw [if_neg h0] at hL ⊢
      obtain rfl : a :: xs = L := by simpa using hL
      have := copyLoop_ok r x h (a :: xs) i s hh hx (by rw [List.length_cons]; omega)
      rw [List.length_cons] at this
      rw [bind_ok this]
      exact ⟨rfl, rfl⟩

theorem subLoop_ok (b r x y : Nat) : ∀ (ys xs : List Nat) (i c : Nat) (s : St) (h : Hdr) (L : List Nat),
    (s.obj r).hdr = some h → Seg s x i xs → Seg s y i ys → ys.length ≤ xs.length →
    i + xs.length ≤ (s.obj r).cells.length → Mpi.subLoop b xs ys c = some L →
    subLoop b r x y (xs.length - ys.length) ys.length i c s = .ok (0, s.upd r h (over (s.obj r).cells i L)) ∧
      L.length = xs.length
  | [], xs, i, c, s, h, L, hh, hx, hy, hl, hc, hL => by
    have e : Mpi.subLoop b xs [] c = Mpi.subBorrow b xs c := by cases xs <;> rfl
    rw [e] at hL
    rw [List.length_nil, Nat.sub_zero, subLoop]
    exact borrowLoop_ok b r x xs i c s h L hh hx hc hL
  | q :: ys, [], i, c, s, h, L, hh, hx, hy, hl, hc, hL => by simp at hl
  | q :: ys, p :: xs, i, c, s, h, L, hh, hx, hy, hl, hc, hL => by
    simp only [List.length_cons] at hl hc
    simp only [Mpi.subLoop] at hL
    obtain ⟨L', hL', rfl⟩ := Option.map_eq_some_iff.1 hL
    obtain ⟨e1, e2⟩ := subLoop_ok b r x y ys xs (i + 1) _ (s.upd r h ((s.obj r).cells.set i (some ((p + 2 * b - q - c) % b)))) h L'
      (by simp) (hx.tail.wr r i h _ (by omega)) (hy.tail.wr r i h _ (by omega)) (by omega)
      (by rw [upd_obj_same, cells_upd (by simp)]; simp; omega) hL'
    simp only [List.length_cons, Nat.add_sub_add_right, subLoop]
    rw [bind_ok (rd_ok hx.head), bind_ok (rd_ok hy.head), bind_ok (wr_ok hh _ (by omega)), e1,
      upd_upd, upd_obj_same, cells_upd (by simp), over_cons (by omega)]
    exact ⟨rfl, by simp [e2]⟩

/-! ### Shifts -/

theorem over_app {c : List (Option Nat)} {k d : Nat} {L : List Nat} (hk : k < c.length) :
    over (c.set k (some d)) (k + 1) L = over c k (d :: L) := over_cons hk

/-- Moving digits up, from the top: the digits that were there before end up `n` places higher. -/
theorem shldLoop_ok (a n : Nat) (h : Hdr) : ∀ (xs : List Nat) (s : St), (s.obj a).hdr = some h →
    Seg s a 0 xs → n + xs.length ≤ (s.obj a).cells.length → 0 < n →
    shldLoop a n xs.length s = .ok ((), s.upd a h (over (s.obj a).cells n xs)) := by
  intro xs
  induction xs using List.reverseRecOn with
  | nil => intro s hh _ _ _; rw [over_nil, upd_self hh]; rfl
  | append_singleton xs d ih =>
    intro s hh hs hc hn
    rw [List.length_append, List.length_singleton] at hc
    have h1 : rd a xs.length s = .ok (d, s) := by
      have := hs.get (k := xs.length) (d := d) (by simp)
      rw [Nat.zero_add] at this
      exact rd_ok this
    have hs' : Seg s a 0 xs := by simpa using hs.take xs.length
    have hs2 : Seg (s.upd a h ((s.obj a).cells.set (n + xs.length) (some d))) a 0 xs := by
      unfold Seg at hs' ⊢
      rw [upd_obj_same, cells_upd (by simp), List.drop_zero] at *
      obtain ⟨t, ht⟩ := hs'
      refine ⟨t.set n (some d), ?_⟩
      rw [← ht, List.set_append_right _ _ (by simp)]
      simp
    rw [List.length_append, List.length_singleton, shldLoop, bind_ok h1, bind_ok (wr_ok hh d (by omega)),
      ih _ (by simp) hs2 (by rw [upd_obj_same, cells_upd (by simp)]; simp; omega) hn, upd_upd, upd_obj_same,
      cells_upd (by simp)]
    congr 3
    unfold over
    rw [List.take_set_of_le (by omega), List.length_append, List.length_singleton, List.map_append,
      List.drop_set, if_neg (by omega), Nat.sub_self]
    have : ((s.obj a).cells.drop (n + xs.length)).set 0 (some d) = some d :: (s.obj a).cells.drop (n + (xs.length + 1)) := by
      rw [List.drop_eq_getElem_cons (by omega)]
      rfl
    rw [this]
    simp [List.append_assoc]

theorem shrdLoop_ok (a n : Nat) (h : Hdr) : ∀ (xs : List Nat) (i : Nat) (s : St), (s.obj a).hdr = some h →
    Seg s a (n + i) xs → i + xs.length ≤ (s.obj a).cells.length → 0 < n →
    shrdLoop a n xs.length i s = .ok ((), s.upd a h (over (s.obj a).cells i xs))
  | [], i, s, hh, _, _, _ => by rw [over_nil, upd_self hh]; rfl
  | d :: xs, i, s, hh, hs, hc, hn => by
    rw [List.length_cons] at hc ⊢
    have ht : Seg s a (n + (i + 1)) xs := hs.tail
    rw [shrdLoop, bind_ok (rd_ok hs.head), bind_ok (wr_ok hh d (by omega)),
      shrdLoop_ok a n h xs (i + 1) _ (by simp) (ht.wr a i h _ (by omega))
        (by rw [upd_obj_same, cells_upd (by simp)]; simp; omega) hn,
      upd_upd, upd_obj_same, cells_upd (by simp), over_cons (by omega)]

/-- The digits and the carry of the bit loop of `cry_mpi_shl`. -/
def shlRun (w d : Nat) : List Nat → Nat → List Nat × Nat
  | [], r => ([], r)
  | x :: xs, r =>
    let (ys, c) := shlRun w d xs ((x >>> (w - d)) &&& (1 <<< d - 1))
    ((((x <<< d) % 2 ^ w) ||| r) :: ys, c)

theorem shlRun_length (w d : Nat) : ∀ (xs : List Nat) (r : Nat), (shlRun w d xs r).1.length = xs.length
  | [], _ => rfl
  | x :: xs, r => by simp [shlRun, shlRun_length w d xs]

theorem shlRun_bits (w d : Nat) : ∀ (xs : List Nat) (r : Nat),
    Mpi.shlBits w d xs r = (shlRun w d xs r).1 ++ (if (shlRun w d xs r).2 ≠ 0 then [(shlRun w d xs r).2] else [])
  | [], r => rfl
  | x :: xs, r => by simp only [Mpi.shlBits, shlRun]; rw [shlRun_bits w d xs]; rfl

theorem shlLoop_ok (w d c : Nat) (h : Hdr) : ∀ (xs : List Nat) (i r : Nat) (s : St), (s.obj c).hdr = some h →
    Seg s c i xs → i + xs.length ≤ (s.obj c).cells.length →
    shlLoop w d c xs.length i r s = .ok ((shlRun w d xs r).2, s.upd c h (over (s.obj c).cells i (shlRun w d xs r).1))
  | [], i, r, s, hh, _, _ => by
    show Out.ok (r, s) = _
    simp only [shlRun]
    rw [over_nil, upd_self hh]
  | x :: xs, i, r, s, hh, hs, hc => by
    rw [List.length_cons] at hc ⊢
    rw [shlLoop, bind_ok (rd_ok hs.head), bind_ok (wr_ok hh _ (by omega)),
      shlLoop_ok w d c h xs (i + 1) _ _ (by simp) (hs.tail.wr c i h _ (by omega))
        (by rw [upd_obj_same, cells_upd (by simp)]; simp; omega),
      upd_upd, upd_obj_same, cells_upd (by simp), over_cons (by omega)]
    simp only [shlRun]

theorem shrBits_length (w d : Nat) : ∀ xs : List Nat, (Mpi.shrBits w d xs).1.length = xs.length
  | [] => rfl
  | x :: xs => by simp [Mpi.shrBits, shrBits_length w d xs]

/-- The bit loop of `cry_mpi_shr` with a carry coming in from above. -/
def shrRun (w d : Nat) : List Nat → Nat → List Nat × Nat
  | [], r => ([], r)
  | x :: xs, r =>
    let (ys, r') := shrRun w d xs r
    (((x >>> d) ||| ((r' <<< (w - d)) % 2 ^ w)) :: ys, x &&& (1 <<< d - 1))

theorem shrRun_zero (w d : Nat) : ∀ xs : List Nat, shrRun w d xs 0 = Mpi.shrBits w d xs
  | [] => rfl
  | x :: xs => by simp only [shrRun, Mpi.shrBits]; rw [shrRun_zero w d xs]

theorem shrRun_append (w d : Nat) : ∀ (xs : List Nat) (x r : Nat),
    shrRun w d (xs ++ [x]) r = ((shrRun w d xs (x &&& (1 <<< d - 1))).1 ++ [(x >>> d) ||| ((r <<< (w - d)) % 2 ^ w)],
      (shrRun w d xs (x &&& (1 <<< d - 1))).2)
  | [], x, r => rfl
  | a :: xs, x, r => by simp only [List.cons_append, shrRun]; rw [shrRun_append w d xs]

theorem shrRun_length (w d : Nat) : ∀ (xs : List Nat) (r : Nat), (shrRun w d xs r).1.length = xs.length
  | [], _ => rfl
  | x :: xs, r => by simp [shrRun, shrRun_length w d xs]

theorem shrLoop_ok (w d c : Nat) (h : Hdr) : ∀ (xs : List Nat) (r : Nat) (s : St), (s.obj c).hdr = some h →
    Seg s c 0 xs →
    shrLoop w d c xs.length r s = .ok ((), s.upd c h (over (s.obj c).cells 0 (shrRun w d xs r).1)) := by
  intro xs
  induction xs using List.reverseRecOn with
  | nil => intro r s hh _; simp only [shrRun]; rw [over_nil, upd_self hh]; rfl
  | append_singleton xs x ih =>
    intro r s hh hs
    have hc : xs.length + 1 ≤ (s.obj c).cells.length := by have := hs.len; simpa using this
    have h1 : rd c xs.length s = .ok (x, s) := by
      have := hs.get (k := xs.length) (d := x) (by simp)
      rw [Nat.zero_add] at this
      exact rd_ok this
    have hs' : Seg s c 0 xs := by simpa using hs.take xs.length
    have hs2 : ∀ v, Seg (s.upd c h ((s.obj c).cells.set xs.length (some v))) c 0 xs := by
      intro v
      unfold Seg at hs' ⊢
      rw [upd_obj_same, cells_upd (by simp), List.drop_zero] at *
      obtain ⟨t, ht⟩ := hs'
      refine ⟨t.set 0 (some v), ?_⟩
      rw [← ht, List.set_append_right _ _ (by simp)]
      simp
    rw [List.length_append, List.length_singleton, shrLoop, bind_ok h1, bind_ok (wr_ok hh _ (by omega)),
      ih _ _ (by simp) (hs2 _), upd_upd, upd_obj_same, cells_upd (by simp), shrRun_append]
    congr 3
    unfold over
    simp only [List.take_zero, List.nil_append, Nat.zero_add, List.map_append, List.length_append, List.map_cons, List.map_nil,
      List.length_singleton, shrRun_length, List.append_assoc]
    rw [List.drop_set, if_neg (by omega), Nat.sub_self, List.drop_eq_getElem_cons (by omega)]
    rfl

end Verif.Mem
