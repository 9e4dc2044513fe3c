import Verif.Model.Ram.Core
import Verif.Model.Modes.Ctr
/-!
# CBC, CFB and CTR on buffers in memory (src/crypt/cbc.c, cfb.c, ctr.c)

`ctx` is the address of the chaining value (`ctx->ctr`, `ctx->v`), its length `c` (`ctx->ctrlen`, `ctx->vlen`) is an
argument; local arrays are given by their addresses.  The block size of the cipher is taken to be `c`.  Accesses
outside a local array are checked where the code could make them.
-/
namespace Verif.Ram
open Verif.Modes (maskSize incBE)

/-- Subtraction of `size_t` values. -/
def sub64 (a b : Nat) : Nat := (a + (2 ^ 64 - b % 2 ^ 64)) % 2 ^ 64

/-- Loop of `cry_cbc_encrypt` (src/crypt/cbc.c:51-59); the first number bounds the turns. -/
def cbcEncLoop (E : List Byte → List Byte) (c ctx : Nat) : Nat → Ram → Nat → Nat → Nat → Option Ram
  | _, R, _, _, 0 => some R
  | 0, _, _, _, _ + 1 => none
  | k + 1, R, dst, src, size =>
    (xor1 R ctx src c).bind fun R => (cipher E c 1 R dst ctx).bind fun R => (memcpy R ctx dst c).bind fun R =>
    cbcEncLoop E c ctx k R (dst + c) (src + c) (sub64 size c)

/-- `cry_cbc_encrypt` (src/crypt/cbc.c:43-60). -/
def cbcEncrypt (E : List Byte → List Byte) (c ctx : Nat) (R : Ram) (dst src size : Nat) : Option Ram :=
  let size := maskSize size c
  cbcEncLoop E c ctx size R dst src size

/-- `cry_cbc_decrypt`, `src != dst` (src/crypt/cbc.c:73-76), with the masked size. -/
def cbcDecOut (D : List Byte → List Byte) (c ctx : Nat) (R : Ram) (dst src size : Nat) : Option Ram :=
  (cipher D c (size / c) R dst src).bind fun R => (xor1 R dst ctx c).bind fun R =>
  (xor1 R (dst + c) src (sub64 size c)).bind fun R => memcpy R ctx (src + size - c) c

/-- One pass of the in-place branch over `n` bytes (src/crypt/cbc.c:95-100, 106-114). -/
def cbcInPass (D : List Byte → List Byte) (c ctx buf iv : Nat) (R : Ram) (dst src n : Nat) : Option Ram :=
  (cipher D c (n / c) R buf src).bind fun R => (memcpy R iv ctx c).bind fun R =>
  (memcpy R ctx (src + n - c) c).bind fun R => (xor2 R (dst + c) (buf + c) src (sub64 n c)).bind fun R =>
  xor2 R dst buf iv c

/-- Loop of the in-place branch and the final pass (src/crypt/cbc.c:94-114); the first number bounds the turns. -/
def cbcInLoop (D : List Byte → List Byte) (c ctx buf iv bufsiz : Nat) : Nat → Ram → Nat → Nat → Nat → Option Ram
  | k, R, dst, src, size =>
    if size > bufsiz then
      match k with
      | 0 => none
      | k + 1 => (cbcInPass D c ctx buf iv R dst src bufsiz).bind fun R =>
        cbcInLoop D c ctx buf iv bufsiz k R (dst + bufsiz) (src + bufsiz) (size - bufsiz)
    else cbcInPass D c ctx buf iv R dst src size

/-- Make a range accessible (`malloc`) or inaccessible (`free`). -/
def Ram.setOwn (R : Ram) (a n : Nat) (v : Bool) : Ram :=
  { R with own := fun x => if a ≤ x ∧ x < a + n then v else R.own x }

/-- `cry_cbc_decrypt` (src/crypt/cbc.c:64-119).  `heap` is the address returned by `malloc`, if it succeeds; `fb` and
`iv` are the addresses of the local arrays `fallback` and `init_iv`. -/
def cbcDecrypt (D : List Byte → List Byte) (c ctx : Nat) (heap : Option Nat) (fb iv : Nat) (R : Ram)
    (dst src size : Nat) : Option Ram :=
  let size := maskSize size c
  if src ≠ dst then cbcDecOut D c ctx R dst src size
  else
    let n := min size 512
    match heap with
    | some buf => (cbcInLoop D c ctx buf iv n size (R.setOwn buf n true) dst src size).map fun R => R.setOwn buf n false
    | none => cbcInLoop D c ctx fb iv 16 size R dst src size

/-- `cry_cfb_crypt` (src/crypt/cfb.c:40-60), also used for decryption (include/cry/cfb.h); the first number bounds the
turns. -/
def cfbLoop (E : List Byte → List Byte) (c ctx : Nat) : Nat → Ram → Nat → Nat → Nat → Option Ram
  | 0, _, _, _, _ => none
  | k + 1, R, dst, src, n =>
    if c ≤ n then
      (cipher E c 1 R ctx ctx).bind fun R => (xor2 R dst src ctx c).bind fun R => (memcpy R ctx dst c).bind fun R =>
      cfbLoop E c ctx k R (dst + c) (src + c) (n - c)
    else if n ≠ 0 then
      (cipher E c 1 R ctx ctx).bind fun R => (xor2 R dst src ctx n).bind fun R => memcpy R ctx dst c
    else some R

@[inherit_doc cfbLoop]
def cfbCrypt (E : List Byte → List Byte) (c ctx : Nat) (R : Ram) (dst src len : Nat) : Option Ram :=
  cfbLoop E c ctx (len + 1) R dst src len

/-- Loop of `cry_cfb8_encrypt` (src/crypt/cfb.c:72-82) with the final copy. -/
def cfb8EncLoop (E : List Byte → List Byte) (c ctx buf : Nat) : Nat → Ram → Nat → Nat → Nat → Option Ram
  | 0, R, pos, _, _ => memcpy R ctx (buf + pos) c
  | len + 1, R, pos, dst, src =>
    (if pos = c then memcpy R buf (buf + c) c else some R).bind fun R =>
    let pos := if pos = c then 0 else pos
    (cipher E c 1 R ctx (buf + pos)).bind fun R => (load R src).bind fun p => (load R ctx).bind fun v =>
    (store R dst (p ^^^ v)).bind fun R => (store R (buf + (pos + c)) (p ^^^ v)).bind fun R =>
    cfb8EncLoop E c ctx buf len R (pos + 1) (dst + 1) (src + 1)

/-- `cry_cfb8_encrypt` (src/crypt/cfb.c:62-83). -/
def cfb8Encrypt (E : List Byte → List Byte) (c ctx buf : Nat) (R : Ram) (dst src len : Nat) : Option Ram :=
  (memcpy R buf ctx c).bind fun R => cfb8EncLoop E c ctx buf len R 0 dst src

/-- The inner loop of `cry_cfb8_decrypt` (src/crypt/cfb.c:98-99), `n` turns from `i`. -/
def cfb8Inner (E : List Byte → List Byte) (c buf obuf : Nat) : Nat → Nat → Ram → Option Ram
  | 0, _, R => some R
  | n + 1, i, R => (cipher E c 1 R (obuf + i) (buf + i)).bind fun R => cfb8Inner E c buf obuf n (i + 1) R

/-- Outer loop of `cry_cfb8_decrypt` (src/crypt/cfb.c:97-107) with the final copy; the first number bounds the turns,
`i` is left from the previous turn. -/
def cfb8DecLoop (E : List Byte → List Byte) (c ctx buf obuf : Nat) : Nat → Ram → Nat → Nat → Nat → Nat → Option Ram
  | k, R, i, dst, src, len =>
    if len ≠ 0 then
      match k with
      | 0 => none
      | k + 1 =>
        let i := min len c
        (cfb8Inner E c buf obuf i 0 R).bind fun R => (xor2 R dst src obuf i).bind fun R =>
        (memcpy R buf (buf + c) c).bind fun R => (memcpy R (buf + c) (src + i) (min (len - i) c)).bind fun R =>
        cfb8DecLoop E c ctx buf obuf k R i (dst + i) (src + i) (len - i)
    else memcpy R ctx (buf + i) c

/-- `cry_cfb8_decrypt` (src/crypt/cfb.c:85-108). -/
def cfb8Decrypt (E : List Byte → List Byte) (c ctx buf obuf : Nat) (R : Ram) (dst src len : Nat) : Option Ram :=
  (memcpy R buf ctx c).bind fun R => (memcpy R (buf + c) src (min len c)).bind fun R =>
  cfb8DecLoop E c ctx buf obuf len R 0 dst src len

/-- `CRY_INCREMENT_BE(ctx->ctr, ctrlen)` (src/misc.h:28-32). -/
def incr (R : Ram) (ctx c : Nat) : Option Ram :=
  if R.Owned ctx c then (incBE (R.bytes ctx c) c).map fun v => R.put ctx v else none

/-- The loop of src/crypt/ctr.c:54-58; the first number bounds the turns.  Also gives the rest of `n`. -/
def ctrFillDown (c ctx : Nat) : Nat → Ram → Nat → Nat → Option (Ram × Nat)
  | k, R, p, n =>
    if n ≥ c then
      match k with
      | 0 => none
      | k + 1 => (memcpy R p ctx c).bind fun R => (incr R ctx c).bind fun R => ctrFillDown c ctx k R (p + c) (n - c)
    else some (R, n)

/-- `cry_ctr_encrypt`, `src != dst` (src/crypt/ctr.c:53-67). -/
def ctrOut (E : List Byte → List Byte) (c ctx buf : Nat) (R : Ram) (dst src len : Nat) : Option Ram :=
  (ctrFillDown c ctx len R dst len).bind fun (R, n) =>
  (cipher E c ((len - n) / c) R dst dst).bind fun R => (xor1 R dst src (len - n)).bind fun R =>
  if n ≠ 0 then
    (cipher E c 1 R buf ctx).bind fun R => (incr R ctx c).bind fun R => xor2 R (dst + len - n) (src + len - n) buf n
  else some R

/-- The loop of src/crypt/ctr.c:71-75 (the first number counts the turns); writing behind the 64 bytes of `buf` is
undefined. -/
def ctrFill (c ctx buf : Nat) : Nat → Ram → Nat → Option Ram
  | 0, R, _ => some R
  | k + 1, R, p =>
    if p + c > buf + 64 then none
    else (memcpy R p ctx c).bind fun R => (incr R ctx c).bind fun R => ctrFill c ctx buf k R (p + c)

/-- The loop of src/crypt/ctr.c:85-89; the first number bounds the turns.  Also gives the final `n`. -/
def ctrFillUp (c ctx buf len : Nat) : Nat → Ram → Nat → Nat → Option (Ram × Nat)
  | k, R, p, n =>
    if n < len then
      match k with
      | 0 => none
      | k + 1 =>
        if p + c > buf + 64 then none
        else (memcpy R p ctx c).bind fun R => (incr R ctx c).bind fun R => ctrFillUp c ctx buf len k R (p + c) (n + c)
    else some (R, n)

/-- `cry_ctr_encrypt`, `src == dst` (src/crypt/ctr.c:69-93); the first number bounds the turns.  The cipher is called on
64 bytes, which must be whole blocks. -/
def ctrIn (E : List Byte → List Byte) (c ctx buf : Nat) : Nat → Ram → Nat → Nat → Nat → Option Ram
  | k, R, dst, src, len =>
    if len ≥ 64 then
      match k with
      | 0 => none
      | k + 1 =>
        (ctrFill c ctx buf 4 R buf).bind fun R =>
        if ¬ c ∣ 64 then none
        else (cipher E c (64 / c) R buf buf).bind fun R => (xor2 R dst src buf 64).bind fun R =>
          ctrIn E c ctx buf k R (dst + 64) (src + 64) (len - 64)
    else if len ≠ 0 then
      (ctrFillUp c ctx buf len len R buf 0).bind fun (R, n) => (cipher E c (n / c) R buf buf).bind fun R =>
      xor2 R dst src buf len
    else some R

/-- `cry_ctr_encrypt` (src/crypt/ctr.c:43-94), also used for decryption; `buf` is the address of the local array. -/
def ctrCrypt (E : List Byte → List Byte) (c ctx buf : Nat) (R : Ram) (dst src len : Nat) : Option Ram :=
  if src ≠ dst then ctrOut E c ctx buf R dst src len else ctrIn E c ctx buf len R dst src len

end Verif.Ram
