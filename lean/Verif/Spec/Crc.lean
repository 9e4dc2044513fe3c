import Verif.Model.MemXor
import Mathlib.Algebra.Field.ZMod
import Mathlib.Algebra.Polynomial.Div
/-!
# Cyclic redundancy checks as remainders of polynomials over GF(2)

The first bit sent has the highest power; bytes are sent lowest bit first.
-/
namespace Verif.CrcS
open Polynomial

abbrev Pol := (ZMod 2)[X]

def bit (b : Bool) : ZMod 2 := if b then 1 else 0

/-- The polynomial of a sequence of bits, highest power first. -/
noncomputable def pol : List Bool → Pol
  | [] => 0
  | b :: t => C (bit b) * X ^ t.length + pol t

/-- The bits of a message in the order they are sent. -/
def bits (msg : List Byte) : List Bool := msg.flatMap fun b => (List.range 8).map b.getLsbD

/-- The polynomial held by a register of `n` bits; the lowest bit is sent first. -/
noncomputable def reg {n : Nat} (v : BitVec n) : Pol := ∑ i ∈ Finset.range n, C (bit (v.getLsbD i)) * X ^ (n - 1 - i)

/-- `x^16 + x^12 + x^5 + 1` (include/cry/crc.h, CRC-16-CCITT). -/
noncomputable def gCcitt : Pol := X ^ 16 + X ^ 12 + X ^ 5 + 1
/-- `x^16 + x^15 + x^2 + 1` (CRC-16-IBM). -/
noncomputable def gIbm : Pol := X ^ 16 + X ^ 15 + X ^ 2 + 1
/-- `x^16 + x^13 + x^12 + x^11 + x^10 + x^8 + x^6 + x^5 + x^2 + 1` (CRC-16-DNP). -/
noncomputable def gDnp : Pol := X ^ 16 + X ^ 13 + X ^ 12 + X ^ 11 + X ^ 10 + X ^ 8 + X ^ 6 + X ^ 5 + X ^ 2 + 1
/-- The polynomial of CRC-32-ETH. -/
noncomputable def gEth : Pol := X ^ 32 + X ^ 26 + X ^ 23 + X ^ 22 + X ^ 16 + X ^ 12 + X ^ 11 + X ^ 10 + X ^ 8 + X ^ 7 +
  X ^ 5 + X ^ 4 + X ^ 2 + X ^ 1 + 1

/-- The remainder a CRC with generator `g` of degree `n` and start value `start` leaves for a message: the
message times `x^n`, with the start value added to the first `n` bits, modulo `g`. -/
noncomputable def remainder {n : Nat} (g : Pol) (start : BitVec n) (msg : List Byte) : Pol :=
  (X ^ (8 * msg.length) * reg start + X ^ n * pol (bits msg)) %ₘ g

end Verif.CrcS
