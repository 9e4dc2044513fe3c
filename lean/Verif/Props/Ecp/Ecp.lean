import Verif.Lemmas.Ecp.Mul
import Mathlib.Tactic.NormNum.Prime
/-!
# C55, C56: addition, doubling and scalar multiplication of points

The specification is Mathlib's group of nonsingular points of `y² = x³ + a x + b` over the integers modulo `p`
(`Verif.Spec.Ecp`).  `PtRep w q P` says that the object `q` denotes the point `P`, `PtRed w p q` that it is in standard
form, `GrpRep` that the group object carries `p` and `a` (Lemmas/Ecp/Group.lean).
-/
namespace Verif.Ecp
open Verif.Mpi WeierstrassCurve WeierstrassCurve.Affine

variable {w p : Nat} {a b : ZMod p} [Fact p.Prime] {g : Grp}

/-- C55.  Full statement: `cry_ecp_dbl` computes `P + P` for every point.  Proved: it does for every point that is not of
order two, the coordinates of the result are reduced when the point is finite, and infinity is passed on.  Missing,
because false: points of order two (`ecp_dbl_order_two_fails`). -/
theorem ecp_dbl_partial (hw : DigitWidth w) (hg : GrpRep w p a g) {q : Pt} {P : (curve p a b).Point} (h : PtRep w q P)
    (h2 : P = 0 ∨ P + P ≠ 0) :
    ∃ r, dbl w q g = some r ∧ PtRep w r (P + P) ∧ (P ≠ 0 → PtRed w p r) ∧ (PtRed w p q → PtRed w p r) := by
  obtain ⟨r, h1, h2, h3⟩ := (dbl_spec hw hg h).1 h2
  refine ⟨r, h1, h2, fun h0 => h3.resolve_left fun h => h0 h.1, fun hq => ?_⟩
  rcases h3 with ⟨-, rfl⟩ | h3
  · exact hq
  · exact h3

/-- Doubling a point of order two is reported as an error instead of giving infinity. -/
theorem ecp_dbl_order_two_fails (hw : DigitWidth w) (hg : GrpRep w p a g) {q : Pt} {P : (curve p a b).Point}
    (h : PtRep w q P) (h0 : P ≠ 0) (h2 : P + P = 0) : dbl w q g = none :=
  (dbl_spec hw hg h).2 ⟨h0, h2⟩

/-- C55.  Full statement: `cry_ecp_add` computes `P + Q` for every pair of points.  Proved: it does, with reduced
coordinates, except when both are the same point of order two.  Missing, because false: that case
(`ecp_add_order_two_fails`). -/
theorem ecp_add_partial (hw : DigitWidth w) (hg : GrpRep w p a g) {q1 q2 : Pt} {P Q : (curve p a b).Point}
    (h1 : PtRep w q1 P) (h2 : PtRep w q2 Q) (h : ¬ (P = Q ∧ P ≠ 0 ∧ P + P = 0)) :
    ∃ r, add w q1 q2 g = some r ∧ PtRep w r (P + Q) ∧ (P ≠ 0 → Q ≠ 0 → PtRed w p r) ∧
      (PtRed w p q1 → PtRed w p q2 → PtRed w p r) := by
  obtain ⟨r, c1, c2, c3⟩ := (add_spec hw hg h1 h2).1 h
  refine ⟨r, c1, c2, fun hP hQ => ?_, fun r1 r2 => ?_⟩
  · rcases c3 with c3 | c3 | c3
    · exact absurd c3.1 hP
    · exact absurd c3.1 hQ
    · exact c3
  · rcases c3 with ⟨-, rfl⟩ | ⟨-, rfl⟩ | c3
    exacts [r2, r1, c3]

/-- Adding a point of order two to itself is reported as an error. -/
theorem ecp_add_order_two_fails (hw : DigitWidth w) (hg : GrpRep w p a g) {q1 q2 : Pt} {P : (curve p a b).Point}
    (h1 : PtRep w q1 P) (h2 : PtRep w q2 P) (h0 : P ≠ 0) (h : P + P = 0) : add w q1 q2 g = none :=
  (add_spec hw hg h1 h2).2 ⟨rfl, h0, h⟩

/-- C56.  Full statement: `cry_ecp_mul` computes `k` times `P` for every point and every scalar.  Proved: it does, with
the absolute value of the scalar, for every point of odd order, scalars of any length.  Missing, because false: points
of even order (`ecp_mul_even_fails`) and negative scalars (`ecp_mul_sign`). -/
theorem ecp_mul_partial (hw : DigitWidth w) (hg : GrpRep w p a g) {q : Pt} {P : (curve p a b).Point} (h : PtRep w q P)
    (hodd : Odd (addOrderOf P)) {k : Mpi} (hk : Digits (2 ^ w) k.digs) :
    ∃ r, mulPt w q k g = .ok r ∧ PtRep w r ((k.toInt (2 ^ w)).natAbs • P) ∧ (PtRed w p q → PtRed w p r) := by
  rw [natAbs_toInt]
  rcases mulPt_spec hw hg h False (Or.inr fun k => nsmul_two_torsion hodd k) hk with ⟨h, -⟩ | h
  · exact h.elim
  · exact h

/-- C56 for points of any order: the loops end, no digit or table entry outside the arrays is read, and a result that is
returned without error is the right one. -/
theorem ecp_mul_sound (hw : DigitWidth w) (hg : GrpRep w p a g) {q : Pt} {P : (curve p a b).Point} (h : PtRep w q P)
    {k : Mpi} (hk : Digits (2 ^ w) k.digs) :
    mulPt w q k g = .fail ∨
    ∃ r, mulPt w q k g = .ok r ∧ PtRep w r ((k.toInt (2 ^ w)).natAbs • P) ∧ (PtRed w p q → PtRed w p r) := by
  rw [natAbs_toInt]
  rcases mulPt_spec hw hg h True (Or.inl trivial) hk with ⟨-, h⟩ | h
  · exact Or.inl h
  · exact Or.inr h

/-- For a point of order two, four or eight every multiplication fails, even by 0 and 1. -/
theorem ecp_mul_even_fails (hw : DigitWidth w) (hg : GrpRep w p a g) {q : Pt} {P : (curve p a b).Point} (h : PtRep w q P)
    (h0 : P ≠ 0) (h8 : 8 • P = 0) (k : Mpi) : mulPt w q k g = .fail :=
  mulPt_fail hw hg h h0 h8 k

/-- The sign of the scalar has no influence. -/
theorem ecp_mul_sign (q : Pt) (s : Bool) (ds : List Nat) : mulPt w q ⟨s, ds⟩ g = mulPt w q ⟨false, ds⟩ g := rfl

/-! ## Example: the curve y² = x³ + 2x + 2 modulo 17, a group of order 19 -/

/-- The group with base point (5, 1). -/
def toyG : Grp := ⟨⟨false, [17]⟩, ⟨false, [2]⟩, ⟨false, [2]⟩, ⟨⟨false, [5]⟩, ⟨false, [1]⟩, ⟨false, [1]⟩⟩, ⟨false, [19]⟩⟩

instance fact17 : Fact (Nat.Prime 17) := ⟨by norm_num⟩

theorem toyG_rep : GrpRep 8 17 2 toyG :=
  have h : NatRep 8 ⟨false, [2]⟩ 2 := NatRep.digit (by omega) (by omega) (by omega)
  ⟨NatRep.digit (by omega) (by omega) (by omega), Or.inl ⟨h.wf, by rw [show toyG.a = ⟨false, [2]⟩ from rfl, h.toInt]; rfl⟩⟩

theorem toyG_ns : (curve 17 2 2).Nonsingular 5 1 := by
  rw [nonsingular_iff, equation_iff]
  decide

/-- The base point as an element of the group. -/
def toyPt : (curve 17 2 2).Point := .some 5 1 toyG_ns

theorem toyPt_rep : PtRep 8 toyG.g toyPt := by
  have h5 : NatRep 8 ⟨false, [5]⟩ 5 := NatRep.digit (by omega) (by omega) (by omega)
  have h1 : NatRep 8 ⟨false, [1]⟩ 1 := NatRep.digit (by omega) (by omega) (by omega)
  exact ⟨by simp [toyG], ⟨h5.wf, by rw [show toyG.g.x = ⟨false, [5]⟩ from rfl, h5.toInt]; rfl⟩,
    ⟨h1.wf, by rw [show toyG.g.y = ⟨false, [1]⟩ from rfl, h1.toInt]; rfl⟩⟩

theorem toyPt_red : PtRed 8 17 toyG.g :=
  Or.inr ⟨5, 1, NatRep.digit (by omega) (by omega) (by omega), by omega, NatRep.digit (by omega) (by omega) (by omega),
    by omega, NatRep.digit (by omega) (by omega) (by omega)⟩

/-- Its order, found with the model itself: 19 times the point is infinity. -/
theorem toyPt_order : addOrderOf toyPt = 19 := by
  have : Fact (Nat.Prime 19) := ⟨by norm_num⟩
  refine addOrderOf_eq_prime ?_ (Point.some_ne_zero _)
  have hk : Digits (2 ^ 8) [19] := by simp [Digits]
  have e : mulPt 8 toyG.g ⟨false, [19]⟩ toyG = .ok ⟨⟨false, [1]⟩, ⟨false, [1]⟩, ⟨false, []⟩⟩ := by decide +kernel
  rcases ecp_mul_sound (k := ⟨false, [19]⟩) (by simp [DigitWidth]) toyG_rep toyPt_rep hk with h | ⟨r, h, h2, -⟩
  · rw [e] at h; cases h
  · rw [e] at h
    cases h
    have := (ptRep_isZero h2).1 rfl
    rwa [natAbs_toInt] at this

/-- The hypotheses of `ecp_dbl_partial`, `ecp_add_partial` and `ecp_mul_partial` are met, and the results are not
trivial: 2 P = (6, 3), 2 P + P = (10, 6), 7 P = (0, 6). -/
example : (toyPt = 0 ∨ toyPt + toyPt ≠ 0) ∧ Odd (addOrderOf toyPt) ∧
    dbl 8 toyG.g toyG = some ⟨⟨false, [6]⟩, ⟨false, [3]⟩, ⟨false, [1]⟩⟩ ∧
    add 8 ⟨⟨false, [6]⟩, ⟨false, [3]⟩, ⟨false, [1]⟩⟩ toyG.g toyG = some ⟨⟨false, [10]⟩, ⟨false, [6]⟩, ⟨false, [1]⟩⟩ ∧
    mulPt 8 toyG.g ⟨false, [7]⟩ toyG = .ok ⟨⟨false, []⟩, ⟨false, [6]⟩, ⟨false, [1]⟩⟩ := by
  refine ⟨Or.inr ?_, by rw [toyPt_order]; decide, by decide +kernel, by decide +kernel, by decide +kernel⟩
  rw [Ne, toyPt, point_add_self_zero]
  decide

/-- A scalar of two digits, and the opposite scalar: -7 is treated as 7. -/
example : mulPt 8 toyG.g ⟨false, [3, 1]⟩ toyG = mulPt 8 toyG.g ⟨false, [12]⟩ toyG ∧
    mulPt 8 toyG.g ⟨true, [7]⟩ toyG = .ok ⟨⟨false, []⟩, ⟨false, [6]⟩, ⟨false, [1]⟩⟩ ∧
    mulPt 8 toyG.g ⟨false, [12]⟩ toyG = .ok ⟨⟨false, []⟩, ⟨false, [11]⟩, ⟨false, [1]⟩⟩ := by decide +kernel

/-- On y² = x³ + 2x modulo 17 the point (0, 0) has order two: doubling it, adding it to itself and multiplying it by 1
fail. -/
theorem ecp_order_two_example :
    let q : Pt := ⟨⟨false, []⟩, ⟨false, []⟩, ⟨false, [1]⟩⟩
    (∃ h, PtRep 8 q (Point.some 0 0 h : (curve 17 2 0).Point) ∧
      (Point.some 0 0 h : (curve 17 2 0).Point) + Point.some 0 0 h = 0) ∧
    dbl 8 q toyG = none ∧ add 8 q q toyG = none ∧ mulPt 8 q ⟨false, [1]⟩ toyG = .fail := by
  refine ⟨?_, by decide +kernel, by decide +kernel, by decide +kernel⟩
  have h : (curve 17 2 0).Nonsingular 0 0 := by
    rw [nonsingular_iff, equation_iff]; decide
  have z : ZRep 8 17 ⟨false, []⟩ 0 := ⟨(NatRep.zero 8).wf, by rw [(NatRep.zero 8).toInt]; rfl⟩
  exact ⟨h, ⟨by simp, z, z⟩, by rw [point_add_self_zero]; decide⟩

end Verif.Ecp
