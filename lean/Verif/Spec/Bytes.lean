import Verif.Model.MemXor
/-!
# Values of byte strings
-/
namespace Verif

/-- Big-endian value of a byte string. -/
def beVal : List Byte → Nat
  | [] => 0
  | b :: bs => b.toNat * 256 ^ bs.length + beVal bs

end Verif
