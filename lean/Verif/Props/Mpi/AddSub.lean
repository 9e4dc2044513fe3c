import Verif.Lemmas.Mpi.AddSubStore
namespace Verif.Mpi

/-- C01 (addition): `cry_mpi_add(r, x, y)` succeeds and leaves in `r` the exact integer sum,
in well-formed representation, for any digit base, any lengths and signs, and whichever of
the three objects coincide; no other object changes. -/
theorem add_correct {b : Nat} (hb : 1 < b) (s : Store) (r x y : Nat)
    (hx : WF b (s x).mpi) (hy : WF b (s y).mpi) :
    ∃ s', addS b r x y s = some s' ∧
      (s' r).mpi.toInt b = (s x).mpi.toInt b + (s y).mpi.toInt b ∧ WF b (s' r).mpi ∧
      ∀ p, p ≠ r → s' p = s p := by
  obtain ⟨s', z, h1, h2, ⟨h3, h4⟩, -⟩ := addS_refines hb r x y s hx.toNorm hy.toNorm
  obtain ⟨z', e1, e2, e3, e4⟩ := add_norm hb hx.toNorm hy.toNorm
  obtain rfl : z' = z := by rw [h2] at e1; exact (Option.some.inj e1).symm
  refine ⟨s', h1, by rw [h3, e2], ?_, h4⟩
  rw [h3]
  refine ⟨e3, fun h0 => ?_⟩
  cases hn : z'.neg with
  | false => rfl
  | true =>
    obtain ⟨a1, a2, -⟩ := e4 h0 hn
    rw [hx.zero_nonneg a2] at a1; simp at a1

/-- C01 (subtraction). -/
theorem sub_correct {b : Nat} (hb : 1 < b) (s : Store) (r x y : Nat)
    (hx : WF b (s x).mpi) (hy : WF b (s y).mpi) :
    ∃ s', subS b r x y s = some s' ∧
      (s' r).mpi.toInt b = (s x).mpi.toInt b - (s y).mpi.toInt b ∧ WF b (s' r).mpi ∧
      ∀ p, p ≠ r → s' p = s p := by
  obtain ⟨s', z, h1, h2, ⟨h3, h4⟩, -⟩ := subS_refines hb r x y s hx.toNorm hy.toNorm
  obtain ⟨z', e1, e2, e3, e4⟩ := sub_norm hb hx.toNorm hy.toNorm
  obtain rfl : z' = z := by rw [h2] at e1; exact (Option.some.inj e1).symm
  refine ⟨s', h1, by rw [h3, e2], ?_, h4⟩
  rw [h3]
  refine ⟨e3, fun h0 => ?_⟩
  cases hn : z'.neg with
  | false => rfl
  | true =>
    obtain ⟨a1, a2, -⟩ := e4 h0 hn
    rw [hx.zero_nonneg a2] at a1; simp at a1

/-- A well-formed number with a carry chain, used to show that the hypotheses are met. -/
example : WF 256 ⟨true, [255, 255, 1]⟩ :=
  ⟨⟨by unfold Digits; decide, by unfold TopNZ; decide⟩, by decide⟩
example : add 256 ⟨false, [255, 255]⟩ ⟨false, [1]⟩ = some ⟨false, [0, 0, 1]⟩ := by decide
example : add 256 ⟨true, [0, 0, 1]⟩ ⟨false, [1]⟩ = some ⟨true, [255, 255]⟩ := by decide
/-- In place: object 0 holds 65535, `cry_mpi_add(x, x, x)`. -/
example : ((addS 256 0 0 0 (fun _ => ⟨false, 2, fun _ => 255⟩)).map fun s => (s 0).mpi)
    = some ⟨false, [254, 255, 1]⟩ := by decide

/-- C02 (signed): on well-formed numbers `cry_mpi_cmp` is the order of the integers. -/
theorem cmp_correct {b : Nat} (hb : 0 < b) (x y : Mpi) (hx : WF b x) (hy : WF b y) :
    (cmp x y = -1 ↔ x.toInt b < y.toInt b) ∧ (cmp x y = 0 ↔ x.toInt b = y.toInt b) ∧
    (cmp x y = 1 ↔ x.toInt b > y.toInt b) := by
  have hc := cmpAbs_spec hb hx.toNorm hy.toNorm
  have px : x.neg = true → 0 < val b x.digs := by
    intro h
    rcases Nat.eq_zero_or_pos (val b x.digs) with h0 | h0
    · have := hx.zero_nonneg ((val_eq_zero_iff hb hx.top).1 h0)
      rw [h] at this; simp at this
    · exact h0
  have py : y.neg = true → 0 < val b y.digs := by
    intro h
    rcases Nat.eq_zero_or_pos (val b y.digs) with h0 | h0
    · have := hy.zero_nonneg ((val_eq_zero_iff hb hy.top).1 h0)
      rw [h] at this; simp at this
    · exact h0
  unfold cmp Mpi.toInt
  cases hxn : x.neg <;> cases hyn : y.neg <;>
    simp only [hxn, hyn] at px py ⊢ <;> simp at px py ⊢ <;> omega

/-- C02 (magnitudes): `cry_mpi_cmp_abs` is the order of the absolute values. -/
theorem cmpAbs_correct {b : Nat} (hb : 0 < b) (x y : Mpi) (hx : WF b x) (hy : WF b y) :
    (cmpAbs x y = -1 ↔ (x.toInt b).natAbs < (y.toInt b).natAbs) ∧
    (cmpAbs x y = 0 ↔ (x.toInt b).natAbs = (y.toInt b).natAbs) ∧
    (cmpAbs x y = 1 ↔ (x.toInt b).natAbs > (y.toInt b).natAbs) := by
  have hc := cmpAbs_spec hb hx.toNorm hy.toNorm
  have h : ∀ z : Mpi, (z.toInt b).natAbs = val b z.digs := by
    intro z; unfold Mpi.toInt; split <;> simp
  rw [h, h]
  omega

/-- Comparison decides equality of representations: equal integers have the same digits
and the same sign. -/
theorem cmp_zero_iff_eq {b : Nat} (hb : 0 < b) (x y : Mpi) (hx : WF b x) (hy : WF b y) :
    cmp x y = 0 ↔ x = y := by
  constructor
  · intro h
    unfold cmp at h
    have hc := cmpAbs_spec hb hx.toNorm hy.toNorm
    have hd : val b x.digs = val b y.digs → x.digs = y.digs :=
      val_inj hb hx.digits hy.digits hx.top hy.top
    have hn : x.neg = y.neg := by
      revert h; cases x.neg <;> cases y.neg <;> simp
    have h0 : cmpAbs x y = 0 := by
      rw [hn] at h
      revert h; cases y.neg <;> simp
    have : x.digs = y.digs := hd (by omega)
    cases x; cases y; simp_all
  · rintro rfl
    exact (cmp_correct hb x x hx hx).2.1.2 rfl

example : cmp ⟨true, [0, 1]⟩ ⟨true, [255]⟩ = -1 := by decide
/-- Why well-formedness is needed: a negative zero compares below zero. -/
theorem cmp_negative_zero : cmp ⟨true, []⟩ ⟨false, []⟩ = -1 := by decide

end Verif.Mpi
