import Verif.Model.MemXor
import Mathlib.Algebra.Polynomial.Div
import Mathlib.Data.ZMod.Basic
/-!
# GF(2^128) in the bit order of GCM (NIST SP 800-38D, 6.3)

The first (most significant) bit of the first byte is the coefficient of `X^0`.
-/
namespace Verif.Gf
open Polynomial

/-- The polynomial whose coefficient of `X^j` is bit `j` of `v`, counted from the most significant. -/
noncomputable def bpoly {w : Nat} (v : BitVec w) : (ZMod 2)[X] :=
  ∑ j ∈ Finset.range w, if v.getMsbD j then X ^ j else 0

/-- The polynomial of a byte string. -/
noncomputable def gpoly : List Byte → (ZMod 2)[X]
  | [] => 0
  | b :: l => bpoly b + X ^ 8 * gpoly l

/-- The modulus of GCM. -/
noncomputable def gcmMod : (ZMod 2)[X] := X ^ 128 + (X ^ 7 + X ^ 2 + X + 1)

/-- A multiplication of blocks of 16 bytes is that of GF(2^128): the product represents the remainder
of the product of the polynomials. There is exactly one such multiplication, since different blocks
represent different polynomials. -/
def IsGcmMul (mul : List Byte → List Byte → List Byte) : Prop :=
  ∀ x y, x.length = 16 → y.length = 16 →
    (mul x y).length = 16 ∧ gpoly (mul x y) = (gpoly x * gpoly y) %ₘ gcmMod

end Verif.Gf
