import Verif.Model.MemXor
/-!
# Model of Base64 (src/crypt/base64.c)

Characters are bytes; `char` is signed, so a byte of 128 or more is negative (src/crypt/base64.c:72). The
index arithmetic is done on 8 bits: every intermediate value is below 256.
-/
namespace Verif.Base64

/-- The string `base64` (src/crypt/base64.c:3-4). -/
def base64 : List Byte := ([
  'A', 'B', 'C', 'D', 'E', 'F', 'G', 'H', 'I', 'J', 'K', 'L', 'M', 'N', 'O', 'P',
  'Q', 'R', 'S', 'T', 'U', 'V', 'W', 'X', 'Y', 'Z', 'a', 'b', 'c', 'd', 'e', 'f',
  'g', 'h', 'i', 'j', 'k', 'l', 'm', 'n', 'o', 'p', 'q', 'r', 's', 't', 'u', 'v',
  'w', 'x', 'y', 'z', '0', '1', '2', '3', '4', '5', '6', '7', '8', '9', '+', '/'] : List Char).map (fun c => BitVec.ofNat 8 c.toNat)

/-- The table `unbase64` (src/crypt/base64.c:43-60). -/
def unbase64 : List Byte := [
  255, 255, 255, 255, 255, 255, 255, 255, 255, 255, 255, 255, 255, 255, 255, 255,
  255, 255, 255, 255, 255, 255, 255, 255, 255, 255, 255, 255, 255, 255, 255, 255,
  255, 255, 255, 255, 255, 255, 255, 255, 255, 255, 255, 62, 255, 255, 255, 63,
  52, 53, 54, 55, 56, 57, 58, 59, 60, 61, 255, 255, 255, 0, 255, 255,
  255, 0, 1, 2, 3, 4, 5, 6, 7, 8, 9, 10, 11, 12, 13, 14,
  15, 16, 17, 18, 19, 20, 21, 22, 23, 24, 25, 255, 255, 255, 255, 255,
  255, 26, 27, 28, 29, 30, 31, 32, 33, 34, 35, 36, 37, 38, 39, 40,
  41, 42, 43, 44, 45, 46, 47, 48, 49, 50, 51, 255, 255, 255, 255, 255]

/-- `base64[i]`; all indices used are below 64. -/
def b64 (i : Byte) : Byte := base64.getD i.toNat 0
/-- `unbase64[c]`; only used for `c` below 128. -/
def unb (c : Byte) : Byte := unbase64.getD c.toNat 0

/-- `'='`. -/
def pad : Byte := 61

/-- `cry_base64_encode` (src/crypt/base64.c:6-41): the characters written. The `do` loop reads a byte even if
there is none (`none`). -/
def encode : List Byte → Option (List Byte)
  | [] => none
  | [a] => some [b64 ((a &&& 0xFC) >>> 2), b64 ((a &&& 0x03) <<< 4), pad, pad]
  | [a, b] => some [b64 ((a &&& 0xFC) >>> 2), b64 ((a &&& 0x03) <<< 4 ||| (b &&& 0xF0) >>> 4),
      b64 ((b &&& 0x0F) <<< 2), pad]
  | a :: b :: c :: rest =>
    let out := [b64 ((a &&& 0xFC) >>> 2), b64 ((a &&& 0x03) <<< 4 ||| (b &&& 0xF0) >>> 4),
      b64 ((b &&& 0x0F) <<< 2 ||| (c &&& 0xC0) >>> 6), b64 (c &&& 0x3F)]
    if rest = [] then some out else (encode rest).map (out ++ ·)

/-- The character test (src/crypt/base64.c:72). -/
def illegal (c : Byte) : Bool := 128 ≤ c.toNat || unb c = 255

/-- The loop of `cry_base64_decode` (src/crypt/base64.c:69-94). Outer `none`: read beyond the text; inner
`none`: the result is -1. -/
def decodeLoop : List Byte → Option (Option (List Byte))
  | a :: b :: c :: d :: rest =>
    if illegal a || illegal b || illegal c || illegal d then some none
    else
      let out := [unb a <<< 2 ||| (unb b &&& 0x30) >>> 4] ++
        (if c ≠ pad then [(unb b &&& 0x0F) <<< 4 ||| (unb c &&& 0x3C) >>> 2] else []) ++
        (if d ≠ pad then [(unb c &&& 0x03) <<< 6 ||| unb d] else [])
      if rest = [] then some (some out) else (decodeLoop rest).map (·.map (out ++ ·))
  | _ => none

/-- `cry_base64_decode` (src/crypt/base64.c:62-96). -/
def decode (inp : List Byte) : Option (Option (List Byte)) :=
  if inp.length % 4 ≠ 0 then some none else decodeLoop inp

end Verif.Base64
