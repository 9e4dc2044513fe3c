import Verif.Model.Ram.Core
import Verif.Model.Crypt.Base64
/-!
# Base64 on buffers in memory (src/crypt/base64.c)

Every access in the order of the program.
-/
namespace Verif.Ram
open Verif.Base64

/-- `cry_base64_encode` (src/crypt/base64.c:6-41): memory and result.  With length 0 the loop reads on until the length, which
wraps around, is used up: undefined. -/
def b64Encode (R : Ram) (out inp : Nat) : Nat → Option (Ram × Nat)
  | 0 => none
  | 1 =>
    (load R inp).bind fun a => (store R out (b64 ((a &&& 0xFC) >>> 2))).bind fun R =>
    (load R inp).bind fun a => (store R (out + 1) (b64 ((a &&& 0x03) <<< 4))).bind fun R =>
    (store R (out + 2) pad).bind fun R => (store R (out + 3) pad).bind fun R => some (R, 4)
  | 2 =>
    (load R inp).bind fun a => (store R out (b64 ((a &&& 0xFC) >>> 2))).bind fun R =>
    (load R inp).bind fun a => (load R (inp + 1)).bind fun b =>
    (store R (out + 1) (b64 ((a &&& 0x03) <<< 4 ||| (b &&& 0xF0) >>> 4))).bind fun R =>
    (load R (inp + 1)).bind fun b => (store R (out + 2) (b64 ((b &&& 0x0F) <<< 2))).bind fun R =>
    (store R (out + 3) pad).bind fun R => some (R, 4)
  | n + 3 =>
    (load R inp).bind fun a => (store R out (b64 ((a &&& 0xFC) >>> 2))).bind fun R =>
    (load R inp).bind fun a => (load R (inp + 1)).bind fun b =>
    (store R (out + 1) (b64 ((a &&& 0x03) <<< 4 ||| (b &&& 0xF0) >>> 4))).bind fun R =>
    (load R (inp + 1)).bind fun b => (load R (inp + 2)).bind fun c =>
    (store R (out + 2) (b64 ((b &&& 0x0F) <<< 2 ||| (c &&& 0xC0) >>> 6))).bind fun R =>
    (load R (inp + 2)).bind fun c => (store R (out + 3) (b64 (c &&& 0x3F))).bind fun R =>
    if n = 0 then some (R, 4) else (b64Encode R (out + 4) (inp + 3) n).map fun r => (r.1, r.2 + 4)

/-- The test for illegal characters (src/crypt/base64.c:70-74), from character `4 - k` on. -/
def b64Check (R : Ram) (inp : Nat) : Nat → Option Bool
  | 0 => some true
  | k + 1 => (load R inp).bind fun c => if illegal c then some false else b64Check R (inp + 1) k

/-- `unbase64[(int)*a]`.  A character overwritten since the test may be any byte; for one of 128 or more the index is negative:
undefined. -/
def unbAt (R : Ram) (a : Nat) : Option Byte := (load R a).bind fun c => if c.toNat < 128 then some (unb c) else none

/-- The output of one group (src/crypt/base64.c:76-90): memory and the output pointer after it.  Characters are read again for
every use. -/
def b64Group (R : Ram) (out inp : Nat) : Option (Ram × Nat) :=
  (unbAt R inp).bind fun a => (unbAt R (inp + 1)).bind fun b => (store R out (a <<< 2 ||| (b &&& 0x30) >>> 4)).bind fun R =>
  (load R (inp + 2)).bind fun c => (if c ≠ pad then (unbAt R (inp + 1)).bind fun b => (unbAt R (inp + 2)).bind fun c =>
      (store R (out + 1) ((b &&& 0x0F) <<< 4 ||| (c &&& 0x3C) >>> 2)).map fun R => (R, out + 2)
    else some (R, out + 1)).bind fun r =>
  (load r.1 (inp + 3)).bind fun d => if d ≠ pad then (unbAt r.1 (inp + 2)).bind fun c => (unbAt r.1 (inp + 3)).bind fun d =>
      (store r.1 r.2 ((c &&& 0x03) <<< 6 ||| d)).map fun R => (R, r.2 + 1)
    else some r

/-- The loop of `cry_base64_decode` (src/crypt/base64.c:69-94) over `q + 1` groups of four characters: memory and the number of
bytes written, `none` for the result -1. -/
def b64DecodeLoop : Nat → Ram → Nat → Nat → Option (Ram × Option Nat)
  | q, R, out, inp => (b64Check R inp 4).bind fun ok =>
    if ok then (b64Group R out inp).bind fun r =>
      match q with
      | 0 => some (r.1, some (r.2 - out))
      | q + 1 => (b64DecodeLoop q r.1 r.2 (inp + 4)).map fun t => (t.1, t.2.map (· + (r.2 - out)))
    else some (R, none)

/-- `cry_base64_decode` (src/crypt/base64.c:62-96).  With length 0 the loop reads on, as for encoding. -/
def b64Decode (R : Ram) (out inp len : Nat) : Option (Ram × Option Nat) :=
  if len % 4 ≠ 0 then some (R, none) else
  match len / 4 with
  | 0 => none
  | q + 1 => b64DecodeLoop q R out inp

end Verif.Ram
