import Mathlib.AlgebraicGeometry.EllipticCurve.Affine.Point
import Mathlib.Data.ZMod.Basic
import Mathlib.FieldTheory.Finite.Basic
/-! Specification of elliptic-curve arithmetic: Mathlib's group of nonsingular points of a Weierstrass curve. -/
namespace Verif.Ecp

/-- The curve `y² = x³ + a x + b` over the integers modulo `p`. -/
abbrev curve (p : Nat) (a b : ZMod p) : WeierstrassCurve.Affine (ZMod p) := ⟨0, 0, 0, a, b⟩

/-- The abscissa of a point as a number from 0 to `p - 1`.  Infinity has none; the 1 stands for the object `(1, 1, 0)` by
which the library represents it. -/
def ptX {p : Nat} {a b : ZMod p} : (curve p a b).Point → Nat
  | .zero => 1
  | .some X _ _ => X.val

end Verif.Ecp
