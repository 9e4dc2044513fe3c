import Verif.Spec.Gcm
/-!
# CMAC (RFC 4493) and HMAC (RFC 2104)
-/
namespace Verif.Modes

/-- Subkey step: shift left, and xor 0x87 when the top bit was set (RFC 4493, 2.3). -/
def cmacSub (l : List Byte) : List Byte :=
  let s := encodeBE 16 (2 * beVal l)
  if 2 ^ 127 ≤ beVal l then xorB s (List.replicate 15 0 ++ [0x87]) else s

/-- AES-CMAC of RFC 4493, 2.4, over any 16-byte block cipher. -/
def cmacS (E : List Byte → List Byte) (m : List Byte) : List Byte :=
  let k1 := cmacSub (E (List.replicate 16 0))
  let k2 := cmacSub k1
  let n := (m.length - 1) / 16
  let last := m.drop (16 * n)
  let mlast :=
    if last.length = 16 then xorB last k1
    else xorB (last ++ [0x80] ++ List.replicate (15 - last.length) 0) k2
  let x := (cut16 (m.take (16 * n))).foldl (fun x b => E (xorB x b)) (List.replicate 16 0)
  E (xorB x mlast)

/-- HMAC of RFC 2104 for a hash function `H` with 64-byte blocks. -/
def hmacS (H : List Byte → List Byte) (key msg : List Byte) : List Byte :=
  let k := if key.length ≤ 64 then key else H key
  let k := k ++ List.replicate (64 - k.length) 0
  H (xorB k (List.replicate 64 0x5c) ++ H (xorB k (List.replicate 64 0x36) ++ msg))

end Verif.Modes
