import Verif.Spec.Mac
/-! # HMAC (RFC 2104) for a hash function with blocks of `B` bytes -/
namespace Verif.Modes

/-- RFC 2104, 2: `H (K xor opad, H (K xor ipad, text))`, the key filled up with zeros to `B` bytes, or hashed first. -/
def hmacB (B : Nat) (H : List Byte → List Byte) (key msg : List Byte) : List Byte :=
  let k := if key.length ≤ B then key else H key
  let k := k ++ List.replicate (B - k.length) 0
  H (xorB k (List.replicate B 0x5c) ++ H (xorB k (List.replicate B 0x36) ++ msg))

end Verif.Modes
