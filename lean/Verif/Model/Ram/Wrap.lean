import Verif.Model.Ram.Core
import Verif.Model.Crypt.Aes
/-!
# AES key wrap on buffers in memory (src/utils/aes_wrap.c)

The input, the output and the key lie in the flat memory; the local arrays `a` (of the unwrapping), `b` and the AES
context do not, as nobody else can reach them.
-/
namespace Verif.Ram

/-- The number of key bytes that `cry_aes_key_set` reads for a key said to have `n` bytes (src/crypt/aes.c:387-399). -/
def keyRead (n : Nat) : Nat := if 32 ≤ n then 32 else if 24 ≤ n then 24 else 16

/-- `cry_aes_key_set(&aes, key, keylen)` (src/crypt/aes.c:376-409) with the key in memory. -/
def aesKeySet (R : Ram) (key keylen : Nat) : Option Aes.Ctx :=
  if R.Owned key (keyRead keylen) then Aes.keySet (R.bytes key (keyRead keylen)) else none

/-- One turn of the inner loop of `cry_aes_wrap` (src/utils/aes_wrap.c:40-45): `t` is `blks * i + j`. -/
def wrapTurn (c : Aes.Ctx) (R : Ram) (a r t : Nat) : Option (Ram × Aes.Ctx) :=
  if R.Owned a 8 ∧ R.Owned r 8 then
    let s := Aes.encrypt c (R.bytes a 8 ++ R.bytes r 8)
    let R := R.put a (s.1.take 8)
    let R := R.put (a + 7) [R.mem (a + 7) ^^^ BitVec.ofNat 8 t]
    some (R.put r (s.1.drop 8), s.2)
  else none

/-- The inner loop (src/utils/aes_wrap.c:39-47), `k` turns left. -/
def wrapTurns (a blks i : Nat) : Nat → Nat → Aes.Ctx → Ram → Nat → Option (Ram × Aes.Ctx)
  | 0, _, c, R, _ => some (R, c)
  | k + 1, j, c, R, r => (wrapTurn c R a r (blks * i + j)).bind fun s => wrapTurns a blks i k (j + 1) s.2 s.1 (r + 8)

/-- The outer loop (src/utils/aes_wrap.c:37-48) for the values `is` of the counter. -/
def wrapPasses (out blks : Nat) : List Nat → Aes.Ctx → Ram → Option (Ram × Aes.Ctx)
  | [], c, R => some (R, c)
  | i :: is, c, R => (wrapTurns out blks i blks 1 c R (out + 8)).bind fun s => wrapPasses out blks is s.2 s.1

/-- `cry_aes_wrap` (src/utils/aes_wrap.c:20-50); the result is always 0. -/
def aesWrapRam (R : Ram) (out inp len key keylen : Nat) : Option (Int × Ram) :=
  if R.Owned out 8 then
    (memcpy (R.put out (List.replicate 8 0xA6)) (out + 8) inp len).bind fun R =>
    (aesKeySet R key keylen).bind fun c =>
    (wrapPasses out (len / 8) [0, 1, 2, 3, 4, 5] c R).map fun s => (0, s.1)
  else none

/-- The inner loop of `cry_aes_unwrap` (src/utils/aes_wrap.c:71-79), counting `j` down to 1; `r` is `out + (j-1)*8`.
The state is the memory, the AES context, `a`, and `b` (`none` as long as nothing was written to it). -/
def unwrapTurns (out blks i : Nat) : Nat → Ram → Aes.Ctx → List Byte → Option (List Byte) →
    Option (Ram × Aes.Ctx × List Byte × Option (List Byte))
  | 0, R, c, a, b => some (R, c, a, b)
  | k + 1, R, c, a, _ =>
    if R.Owned (out + 8 * k) 8 then
      let s := Aes.decrypt c (a.modify 7 (· ^^^ BitVec.ofNat 8 (blks * i + (k + 1))) ++ R.bytes (out + 8 * k) 8)
      unwrapTurns out blks i k (R.put (out + 8 * k) (s.1.drop 8)) s.2 (s.1.take 8) (some s.1)
    else none

/-- The outer loop (src/utils/aes_wrap.c:68-80). -/
def unwrapPasses (out blks : Nat) : List Nat → Ram → Aes.Ctx → List Byte → Option (List Byte) →
    Option (Ram × Option (List Byte))
  | [], R, _, _, b => some (R, b)
  | i :: is, R, c, a, b =>
    (unwrapTurns out blks i blks R c a b).bind fun s => unwrapPasses out blks is s.1 s.2.1 s.2.2.1 s.2.2.2

/-- `cry_aes_unwrap` (src/utils/aes_wrap.c:52-90): result and memory. -/
def aesUnwrapRam (R : Ram) (out inp len key keylen : Nat) : Option (Int × Ram) :=
  if R.Owned inp 8 then
    (memcpy R out (inp + 8) len).bind fun R' =>
    (aesKeySet R' key keylen).bind fun c =>
    (unwrapPasses out (len / 8) [5, 4, 3, 2, 1, 0] R' c (R.bytes inp 8) none).bind fun s =>
    s.2.bind fun b =>
    if b.take 8 = List.replicate 8 0xA6 then some (0, s.1) else some (-1, s.1.put out (List.replicate len 0))
  else none

end Verif.Ram
