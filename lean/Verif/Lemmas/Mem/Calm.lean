import Verif.Lemmas.Mem.Inv
/-! Functions with numbers as locals, when no allocation fails. -/
namespace Verif.Mem
open Verif.Mpi

variable {w : Nat}

/-- `cry_mpi_set_int`. -/
theorem setInt_leaf (hw : DigitWidth w) {S a : Nat} {s : St} {z v : Int} (h : V w z 0 (s.obj a)) (hv : v.natAbs < 2 ^ 63) :
    Leaf S s a (setInt w a v) (V w v 0) (V w z 0) := by
  have hw0 : 0 < w := by have := hw.pos; omega
  obtain ⟨m, m1, m2, m3⟩ := h
  obtain ⟨r1, r2⟩ := setInt_room hw
  obtain ⟨st, s1, e1, h1⟩ := grow_run S m3.1 ((8 * 8 - 1) / w + 1)
  unfold setInt
  rcases h1 with ⟨rfl, h1⟩ | ⟨rfl, h1, h2, h3, h4, h5⟩
  · have hm := h1.holds m3.1
    unfold Leaf
    rw [chk_ok e1, if_neg (by intro h; subst h; revert hv; decide), bind_ok (setSign_ok hm.1 _), bind_ok (setUsed_ok (by rw [upd_obj_same]; rfl) _)]
    simp only [upd_upd, upd_obj_same, cells_upd rfl]
    have h2 : HoldsC ⟨decide (v < 0), []⟩ ((8 * 8 - 1) / w + 1) ((s1.upd a ⟨decide (v < 0), 0, (s1.obj a).cells.length⟩ (s1.obj a).cells).obj a) := by
      rw [upd_obj_same]
      exact ⟨holds_len_upd hm rfl (by simp) rfl, by rw [cells_upd rfl]; exact h1.room⟩
    obtain ⟨s', ds, e1, e2, e3, e4, e5, e6, e7⟩ := setIntLoop_run hw0 (S := S) ((8 * 8 - 1) / w + 1) v.natAbs [] _ h2 (by simp)
      (hv.trans_le (Nat.pow_le_pow_right (by omega) (by omega)))
    refine ⟨0, s', (bind_ok (show setIntLoop w a _ 0 _ _ = _ from e1)).trans rfl, h1.step.trans ((Step.upd S s1 a _ _).trans e2),
      Or.inl ⟨rfl, ⟨decide (v < 0), ds⟩, ⟨⟨e4, e5⟩, fun hd => ?_⟩, ?_, e3.1, Nat.zero_le _⟩⟩
    · dsimp only at hd ⊢
      subst hd
      have : v = 0 := by simpa using e6.symm
      subst this; decide
    · unfold Mpi.Mpi.toInt
      dsimp only
      rw [e6]
      by_cases hv0 : v < 0
      · rw [if_pos (by simpa using hv0)]; omega
      · rw [if_neg (by simpa using hv0)]; omega
  · unfold Leaf
    rw [chk_fail e1 (by decide)]
    exact ⟨-1, s1, rfl, ⟨fun v _ _ => by rw [h2], by rw [h2, h3], h4, h5⟩, Or.inr ⟨rfl, h1, by rw [h2]; exact ⟨m, m1, m2, m3⟩⟩⟩

theorem V.nonneg_sign {z : Int} {n : Nat} {o : Obj} {m : Mpi} (hw : 0 < w) (h1 : WF (2 ^ w) m) (h2 : m.toInt (2 ^ w) = z) (hz : 0 ≤ z) :
    m.neg = false := by
  cases e : m.neg with
  | false => rfl
  | true =>
    have h3 : Mpi.toInt (2 ^ w) m = -(val (2 ^ w) m.digs : Int) := by simp [Mpi.Mpi.toInt, e]
    have h4 : m.toInt (2 ^ w) = 0 := by omega
    have h5 := (Mpi.toInt_eq_zero_iff (Nat.two_pow_pos w) h1.toNorm).1 h4
    rw [h1.2 h5] at e
    cases e

theorem sqr_leaf_v (hw : 8 ≤ w) {sp r x : Nat} {s : St} {zr zx : Int} (hr : V w zr 0 (s.obj r)) (hz : 0 ≤ zr ∨ r = x)
    (hx : (s.obj x).Shows w zx) (hrs : r < sp) (hxs : x < sp) :
    Leaf sp s r (sqr w sp r x) (V w (zx * zx) 0) (AnyR w) := by
  obtain ⟨m, m1, m2, m3⟩ := hr
  refine (sqr_leaf hw ⟨m1.toNorm, m2⟩ m3 (shows_rs hx) hrs hxs (Or.inl rfl)).mono (fun o h => ?_) (fun o h => h)
  have : (if r = x then false else m.neg) = false := by
    rcases hz with hz | hz
    · rw [V.nonneg_sign (n := 0) (o := s.obj r) (by omega) m1 m2 hz]; simp
    · rw [if_pos hz]
  rw [this] at h
  exact h.v

/-- Locals that hold numbers. -/
abbrev NV (w sp : Nat) (A : Env) (L : List Int) : Env := Nums (fun z => V w z 0) sp A L

theorem NV.lo {sp v : Nat} {A : Env} {L : List Int} (h : v < sp) : NV w sp A L v = A v := if_pos h
theorem NV.hi {sp i : Nat} {A : Env} {L : List Int} : NV w sp A L (sp + i) = V w (L.getD i 0) 0 := Nums.hi

/-- The object at `x` can be read as `z`. -/
structure Src (w sp N : Nat) (A : Env) (L : List Int) (x : Nat) (z : Int) : Prop where
  lt : x < sp + N
  sh : ∀ o, NV w sp A L x o → o.Shows w z

section
variable {K : Ctx} {A : Env} {sp N : Nat} {s : St} {L L' : List Int} {i x y m : Nat} {z zx zy zm : Int}

theorem Src.loc {j : Nat} (hx : x = sp + j) (hj : j < N) : Src w sp N A L x (L.getD j 0) :=
  ⟨by omega, fun o h => by subst hx; rw [NV.hi] at h; exact h.shows⟩
theorem Src.arg (hx : x < sp) (h : ∀ o, A x o → o.Shows w z) : Src w sp N A L x z :=
  ⟨by omega, fun o ho => h o (by rwa [NV.lo hx] at ho)⟩
theorem Src.get (h : Src w sp N A L x z) (hs : At K (NV w sp A L) (sp + N) s) : (s.obj x).Shows w z := h.sh _ (hs.objs x h.lt)

/-- A call that writes to a local. -/
theorem cn_leaf {c : M Int} {bad : Obj → Prop} (hK : K.Calm) (h : At K (NV w sp A L) (sp + N) s) (hi : i < N) (hL : L.length = N)
    (hl : Leaf (sp + N) s (sp + i) c (V w z 0) bad) (hL' : L' = L.set i z) :
    ∃ s', c s = .ok (0, s') ∧ At K (NV w sp A L') (sp + N) s' := by
  obtain ⟨s', e, h'⟩ := calm_leaf hK h (by omega) hl
  exact ⟨s', e, by rw [hL']; exact h'.le (Nums.set (Q := fun z => V w z 0) (by omega))⟩

variable {r : Nat}

theorem cn_setInt (hw : DigitWidth w) (hK : K.Calm) (h : At K (NV w sp A L) (sp + N) s) (hL : L.length = N) (hr : r = sp + i) (hi : i < N)
    (hv : z.natAbs < 2 ^ 63) (hL' : L' = L.set i z) : ∃ s', setInt w r z s = .ok (0, s') ∧ At K (NV w sp A L') (sp + N) s' := by
  subst hr
  exact cn_leaf hK h hi hL (setInt_leaf hw (Nums.val h hi) hv) hL'

theorem cn_add (hw : DigitWidth w) (hK : K.Calm) (h : At K (NV w sp A L) (sp + N) s) (hL : L.length = N) (hr : r = sp + i) (hi : i < N)
    (hx : Src w sp N A L x zx) (hy : Src w sp N A L y zy) (hz : z = zx + zy) (hL' : L' = L.set i z) :
    ∃ s', add (2 ^ w) r x y s = .ok (0, s') ∧ At K (NV w sp A L') (sp + N) s' := by
  subst hr hz
  have hw0 : 0 < w := by have := hw.pos; omega
  exact cn_leaf hK h hi hL (add_leaf hw0 (Nums.val h hi) (hx.get h) (hy.get h)) hL'

theorem cn_sub (hw : DigitWidth w) (hK : K.Calm) (h : At K (NV w sp A L) (sp + N) s) (hL : L.length = N) (hr : r = sp + i) (hi : i < N)
    (hx : Src w sp N A L x zx) (hy : Src w sp N A L y zy) (hz : z = zx - zy) (hL' : L' = L.set i z) :
    ∃ s', sub (2 ^ w) r x y s = .ok (0, s') ∧ At K (NV w sp A L') (sp + N) s' := by
  subst hr hz
  have hw0 : 0 < w := by have := hw.pos; omega
  exact cn_leaf hK h hi hL (sub_leaf hw0 (Nums.val h hi) (hx.get h) (hy.get h)) hL'

theorem cn_mul {S : Nat} (hS : S = sp + N) (hw : DigitWidth w) (hK : K.Calm) (h : At K (NV w sp A L) (sp + N) s) (hL : L.length = N) (hr : r = sp + i) (hi : i < N)
    (hx : Src w sp N A L x zx) (hy : Src w sp N A L y zy) (hz : z = zx * zy) (hL' : L' = L.set i z) :
    ∃ s', mul w S r x y s = .ok (0, s') ∧ At K (NV w sp A L') (sp + N) s' := by
  subst hr hz hS
  exact cn_leaf hK h hi hL (mul_leaf hw.pos (Nums.val h hi).r (shows_rs (hx.get h)) (shows_rs (hy.get h)) (by omega) hx.lt hy.lt
    (Or.inl rfl)) hL'

theorem cn_sqr {S : Nat} (hS : S = sp + N) (hw : DigitWidth w) (hK : K.Calm) (h : At K (NV w sp A L) (sp + N) s) (hL : L.length = N) (hr : r = sp + i) (hi : i < N)
    (hd : 0 ≤ L.getD i 0) (hx : Src w sp N A L x zx) (hz : z = zx * zx) (hL' : L' = L.set i z) :
    ∃ s', sqr w S r x s = .ok (0, s') ∧ At K (NV w sp A L') (sp + N) s' := by
  subst hr hz hS
  exact cn_leaf hK h hi hL (sqr_leaf_v hw.pos (Nums.val h hi) (Or.inl hd) (hx.get h) (by omega) hx.lt) hL'

theorem cn_mod {S : Nat} (hS : S = sp + N) (hw : DigitWidth w) (hK : K.Calm) (h : At K (NV w sp A L) (sp + N) s) (hL : L.length = N) (hr : r = sp + i) (hi : i < N)
    (hx : Src w sp N A L x zx) (hm : Src w sp N A L m zm) (hm0 : 0 < zm) (hmr : m ≠ r) (hz : z = zx % zm) (hL' : L' = L.set i z) :
    ∃ s', mod w S r x m s = .ok (0, s') ∧ At K (NV w sp A L') (sp + N) s' := by
  subst hr hz hS
  exact cn_leaf hK h hi hL (mod_leaf hw (hx.get h) (hm.get h) hx.lt hm.lt hm0 (by omega) (Nums.val h hi).any (Or.inr hmr)) hL'

theorem Ctx.Calm.fails (hK : K.Calm) {E : Env} {S : Nat} (h : At K E S s) (k : Nat) : s.fails k = false := by rw [h.orc]; exact hK k

theorem cn_inv {S : Nat} (hS : S = sp + N) (hw : DigitWidth w) (hK : K.Calm) (h : At K (NV w sp A L) (sp + N) s) (hL : L.length = N) (hr : r = sp + i) (hi : i < N)
    (hx : Src w sp N A L x zx) (hm : Src w sp N A L m zm) (hm0 : 0 < zm) (hmr : m ≠ r) :
    (Int.gcd zx zm = 1 → ∃ s' z, inv w S r x m s = .ok (0, s') ∧ (0 ≤ z ∧ z < zm ∧ zx * z ≡ 1 [ZMOD zm]) ∧
      At K (NV w sp A (L.set i z)) (sp + N) s') ∧
    (Int.gcd zx zm ≠ 1 → ∃ s', inv w S r x m s = .ok (-1, s') ∧ At K (NV w sp A L) (sp + N) s') := by
  subst hr hS
  obtain ⟨st, s', e, h1, h2⟩ := inv_run hw (hK.fails h) (Nums.val h hi).any (hx.get h) (hm.get h) hm0 (by omega) hx.lt hm.lt (Ne.symm hmr)
  constructor
  · intro hg
    obtain ⟨rfl, h3, z, h4, h5, h6, h7⟩ := h1 hg
    exact ⟨s', z, e, ⟨h5, h6, h7⟩, (step_at h (by omega) h3 h4).le (Nums.set (Q := fun z => V w z 0) (by omega))⟩
  · intro hg
    obtain ⟨rfl, h3, h4⟩ := h2 hg
    refine ⟨s', e, (step_at (P := V w (L.getD i 0) 0) h (by omega) h3 (by rw [h4]; exact Nums.val h hi)).le fun v hv o ho => ?_⟩
    by_cases hv : v = sp + i
    · subst hv; rw [Function.update_self] at ho; rw [NV.hi]; exact ho
    · rwa [Function.update_of_ne hv] at ho

/-- The test `cry_mpi_is_zero`. -/
theorem shows_used {o : Obj} (h : o.Shows w z) : ∃ hd, o.hdr = some hd ∧ (hd.used = 0 ↔ z = 0) := by
  obtain ⟨m, h1, h2, h3⟩ := h
  obtain ⟨al, h4, -⟩ := h3
  refine ⟨_, h4, ?_⟩
  rw [← h2, Mpi.toInt_eq_zero_iff (Nat.two_pow_pos w) h1.toNorm]
  exact List.length_eq_zero_iff

/-- Exchange of an argument with a local. -/
theorem cn_swap (h : At K (NV w sp A L) (sp + N) s) (hL : L.length = N) (hr : r < sp) (hA : ∀ o, A r o → Any w o) (hx : x = sp + i) (hi : i < N) :
    ∃ s' zr, swap r x s = .ok ((), s') ∧ At K (NV w sp (Function.update A r (V w (L.getD i 0) 0)) (L.set i zr)) (sp + N) s' := by
  subst hx
  obtain ⟨zr, hz⟩ := hA _ (Nums.arg h hr)
  have h0 : At K (Function.update (NV w sp A L) r (V w zr 0)) (sp + N) s :=
    step_at h (by omega) (Step.refl _ _ _) hz
  obtain ⟨u, s', e, h'⟩ := swap_at h0 (a := r) (b := sp + i) (by omega) (by omega)
  refine ⟨s', zr, e, h'.le fun v hv o ho => ?_⟩
  rw [Function.update_self, Function.update_of_ne (show sp + i ≠ r by omega), NV.hi] at ho
  unfold NV Nums
  by_cases h1 : v = sp + i
  · subst h1
    rw [Function.update_self] at ho
    rw [if_neg (by omega), Nat.add_sub_cancel_left, List.getD_eq_getElem?_getD, List.getElem?_set_self (by omega)]; exact ho
  · rw [Function.update_of_ne h1] at ho
    by_cases h2 : v = r
    · subst h2
      rw [Function.update_self] at ho
      rw [if_pos hr, Function.update_self]; exact ho
    · rw [Function.update_of_ne h2, Function.update_of_ne h2] at ho
      rw [Function.update_of_ne h2]
      unfold NV Nums at ho
      by_cases h3 : v < sp
      · rw [if_pos h3] at *; exact ho
      · rw [if_neg h3] at *
        rw [List.getD_eq_getElem?_getD, List.getElem?_set_ne (by omega), ← List.getD_eq_getElem?_getD]; exact ho

/-- Locals after further locals. -/
theorem NV.append {S : Nat} {L1 L2 : List Int} : Le S (NV w (sp + L1.length) (NV w sp A L1) L2) (NV w sp A (L1 ++ L2)) := by
  intro v _ o ho
  unfold NV Nums at *
  by_cases h : v < sp
  · rw [if_pos (by omega), if_pos h] at ho; rw [if_pos h]; exact ho
  · rw [if_neg h]
    by_cases h' : v < sp + L1.length
    · rw [if_pos h', if_neg h] at ho
      rw [List.getD_eq_getElem?_getD, List.getElem?_append_left (by omega), ← List.getD_eq_getElem?_getD]; exact ho
    · rw [if_neg h'] at ho
      rw [List.getD_eq_getElem?_getD, List.getElem?_append_right (by omega), Nat.sub_sub, ← List.getD_eq_getElem?_getD]; exact ho

theorem NV.split {S : Nat} {L1 L2 : List Int} : Le S (NV w sp A (L1 ++ L2)) (NV w (sp + L1.length) (NV w sp A L1) L2) := by
  intro v _ o ho
  unfold NV Nums at *
  by_cases h : v < sp
  · rw [if_pos (by omega), if_pos h]; rw [if_pos h] at ho; exact ho
  · rw [if_neg h] at ho
    by_cases h' : v < sp + L1.length
    · rw [if_pos h', if_neg h]
      rw [List.getD_eq_getElem?_getD, List.getElem?_append_left (by omega), ← List.getD_eq_getElem?_getD] at ho; exact ho
    · rw [if_neg h']
      rw [List.getD_eq_getElem?_getD, List.getElem?_append_right (by omega), Nat.sub_sub, ← List.getD_eq_getElem?_getD] at ho; exact ho

/-- Initialisation of fresh locals. -/
theorem initList_calm (hw : 0 < w) (hK : K.Calm) {as : List Nat} (h : At K (Locals sp A (· = Obj.fresh)) (sp + N) s)
    (has : ∀ v, v ∈ as ↔ sp ≤ v ∧ v < sp + N) (hn : as.Nodup) :
    ∃ s', initList as s = .ok (0, s') ∧ At K (NV w sp A (List.replicate N 0)) (sp + N) s' := by
  obtain ⟨st, s', e, h'⟩ := initListLoop_at (w := w) hw as [] s (E := Locals sp A (· = Obj.fresh))
    (h.le fun v _ o ho => by unfold Sets; rw [if_neg (by simp)]; exact ho)
    (by intro a ha; exact ((has a).1 (by simpa using ha)).2) (by simpa using hn) (by
      intro a ha o ho
      rw [Locals.hi ((has a).1 ha).1] at ho
      rw [ho]; rfl)
  obtain ⟨rfl, h2⟩ := h'.calm hK
  refine ⟨s', e, h2.le fun v hv o ho => ?_⟩
  rw [List.nil_append] at ho
  unfold Sets at ho
  by_cases hvs : v < sp
  · rw [if_neg (by rw [has]; omega), Locals.lo hvs] at ho
    rw [NV.lo hvs]; exact ho
  · rw [if_pos (by rw [has]; omega)] at ho
    unfold NV Nums
    rw [if_neg hvs, List.getD_eq_getElem?_getD, List.getElem?_replicate]
    split <;> exact ho.weak (Nat.zero_le _)

/-- The end of the locals. -/
theorem clearList_calm {as : List Nat} (h : At K (NV w sp A L) (sp + N) s) (has : ∀ v, v ∈ as ↔ sp ≤ v ∧ v < sp + N) :
    ∃ s', clearList as s = .ok ((), s') ∧ At K A sp s' := by
  obtain ⟨s', e, h', -⟩ := clearList_at as _ s h (fun a ha => ((has a).1 ha).2) (fun a ha o ho => by
    obtain ⟨j, rfl⟩ := Nat.exists_eq_add_of_le ((has a).1 ha).1
    rw [NV.hi] at ho
    exact ho.any.clr)
  refine ⟨s', e, (exit_at h' fun v h1 h2 o ho => ?_).le fun v hv o ho => ?_⟩
  · unfold Sets at ho
    rw [if_pos ((has v).2 ⟨h1, h2⟩)] at ho
    rw [ho]; rfl
  · unfold Sets at ho
    rw [if_neg (by rw [has]; omega), NV.lo hv] at ho
    exact ho

/-- The block between `cry_mpi_init_list` and `cry_mpi_clear_list`. -/
theorem locals_calm (hw : 0 < w) (hK : K.Calm) {A' : Env} {as : List Nat} {body : M Int} {st : Int} (h : At K (Locals sp A (· = Obj.fresh)) (sp + N) s)
    (has : ∀ v, v ∈ as ↔ sp ≤ v ∧ v < sp + N) (hn : as.Nodup)
    (hb : ∀ s1, At K (NV w sp A (List.replicate N 0)) (sp + N) s1 → ∃ s2 L, body s1 = .ok (st, s2) ∧ At K (NV w sp A' L) (sp + N) s2) :
    ∃ s', chk (initList as) (do let st ← body; clearList as; pure st) s = .ok (st, s') ∧ At K A' sp s' := by
  obtain ⟨s1, e1, h1⟩ := initList_calm hw hK h has hn
  obtain ⟨s2, L, e2, h2⟩ := hb s1 h1
  obtain ⟨s3, e3, h3⟩ := clearList_calm h2 has
  exact ⟨s3, by rw [chk_ok e1, bind_ok e2, bind_ok e3]; rfl, h3⟩

end

end Verif.Mem
