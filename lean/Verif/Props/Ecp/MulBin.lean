import Verif.Lemmas.Ecp.MulBin
import Verif.Props.Ecp.Ecp
/-!
# C98: scalar multiplication of points under the other build options

`mulBin` is `cry_ecp_mul` when no window option is defined.  The specification is Mathlib's group of points, as in
Props/Ecp/Ecp.lean.
-/
namespace Verif.Ecp
open Verif.Mpi WeierstrassCurve WeierstrassCurve.Affine

variable {w p : Nat} {a b : ZMod p} [Fact p.Prime] {g : Grp}

/-- C98 (points).  Full statement: `cry_ecp_mul` computes `k` times `P` for every point and every scalar.  Proved: double
and add computes it, with the absolute value of the scalar, for every point of odd order, and so does the sliding window:
both objects denote the same point, reduced when the operand is.  Missing, because false: points of even order
(`ecp_mul_bin_even_fails`) and negative scalars. -/
theorem ecp_mul_bin_partial (hw : DigitWidth w) (hg : GrpRep w p a g) {q : Pt} {P : (curve p a b).Point} (h : PtRep w q P)
    (hodd : Odd (addOrderOf P)) {k : Mpi} (hk : Norm (2 ^ w) k) :
    ∃ r r', mulBin w q k g = some r ∧ mulPt w q k g = .ok r' ∧ PtRep w r ((k.toInt (2 ^ w)).natAbs • P) ∧
      PtRep w r' ((k.toInt (2 ^ w)).natAbs • P) ∧ (PtRed w p q → PtRed w p r ∧ PtRed w p r') := by
  obtain ⟨r', h1, h2, h3⟩ := ecp_mul_partial hw hg h hodd hk.digits
  rcases mulBin_spec hw hg h False (Or.inr fun k => nsmul_two_torsion hodd k) hk with ⟨h, -⟩ | ⟨r, e1, e2, e3⟩
  · exact h.elim
  · rw [← natAbs_toInt] at e2
    exact ⟨r, r', e1, h1, e2, h2, fun hq => ⟨e3 hq, h3 hq⟩⟩

/-- C98 (points) for points of any order: a result that is returned without error is the right one. -/
theorem ecp_mul_bin_sound (hw : DigitWidth w) (hg : GrpRep w p a g) {q : Pt} {P : (curve p a b).Point} (h : PtRep w q P)
    {k : Mpi} (hk : Norm (2 ^ w) k) :
    mulBin w q k g = none ∨
    ∃ r, mulBin w q k g = some r ∧ PtRep w r ((k.toInt (2 ^ w)).natAbs • P) ∧ (PtRed w p q → PtRed w p r) := by
  rw [natAbs_toInt]
  rcases mulBin_spec hw hg h True (Or.inl trivial) hk with ⟨-, h⟩ | h
  · exact Or.inl h
  · exact Or.inr h

/-- The base point of the group of 19 points: 7 P = (0, 6) both ways, and infinity for 19 and 0. -/
example : mulBin 8 toyG.g ⟨false, [7]⟩ toyG = some ⟨⟨false, []⟩, ⟨false, [6]⟩, ⟨false, [1]⟩⟩ ∧
    mulPt 8 toyG.g ⟨false, [7]⟩ toyG = .ok ⟨⟨false, []⟩, ⟨false, [6]⟩, ⟨false, [1]⟩⟩ ∧
    (mulBin 8 toyG.g ⟨false, [3, 1]⟩ toyG).map isZeroPt = some false ∧
    (mulBin 8 toyG.g ⟨false, [19]⟩ toyG).map isZeroPt = some true ∧
    (mulBin 8 toyG.g ⟨false, []⟩ toyG).map isZeroPt = some true ∧ Odd (addOrderOf toyPt) := by
  refine ⟨by decide +kernel, by decide +kernel, by decide +kernel, by decide +kernel, by decide +kernel, ?_⟩
  rw [toyPt_order]; decide

/-- The point (0, 0) of order two on y² = x³ + 2x modulo 17: 1 times the point is right here, where the window version
fails; 2 times the point fails instead of giving infinity. -/
theorem ecp_mul_bin_even_fails :
    let q : Pt := ⟨⟨false, []⟩, ⟨false, []⟩, ⟨false, [1]⟩⟩
    (∃ h, PtRep 8 q (Point.some 0 0 h : (curve 17 2 0).Point) ∧
      (Point.some 0 0 h : (curve 17 2 0).Point) + Point.some 0 0 h = 0) ∧
    mulBin 8 q ⟨false, [1]⟩ toyG = some q ∧ mulPt 8 q ⟨false, [1]⟩ toyG = .fail ∧
    mulBin 8 q ⟨false, [2]⟩ toyG = none := by
  refine ⟨ecp_order_two_example.1, by decide +kernel, by decide +kernel, by decide +kernel⟩

end Verif.Ecp
