import Verif.Model.Ram.Hash
/-!
# CMAC on buffers in memory (src/crypt/cmac.c)

The members `blk` and `mac` of the context and the local arrays, 16 bytes each, lie in the flat memory with the messages and
the tag; `blklen` does not.  `E` is the encryption of one block of 16 bytes.
-/
namespace Verif.RamCmac
open Verif.Ram
open Verif.RamHash (fill)

/-- Where the arrays of the context (`blk`, `mac`), of `cry_cmac_update` (`block`), of `cry_cmac_digest` (`k1`, `k2`, `last`) and
of `cbc_compute_subkeys` (`blank`) lie. -/
structure Arrays where
  blk : Nat
  mac : Nat
  block : Nat
  k1 : Nat
  k2 : Nat
  last : Nat
  blank : Nat

/-- `xor_128(o, a, b)` (src/crypt/cmac.c:6-13) from byte `i` on, `n` turns. -/
def xor128 (R : Ram) (o a b i : Nat) : Nat → Option Ram
  | 0 => some R
  | n + 1 =>
    (load R (a + i)).bind fun x => (load R (b + i)).bind fun y => (store R (o + i) (x ^^^ y)).bind fun R =>
      xor128 R o a b (i + 1) n

/-- The shift loops (src/crypt/cmac.c:26-30 with `o = k`, 35-39) from byte `i` on, `n` turns. -/
def shift (R : Ram) (o k i : Nat) : Nat → Option Ram
  | 0 => some R
  | n + 1 =>
    (load R (k + i)).bind fun x => (store R (o + i) (x <<< 1)).bind fun R =>
    (if i < 15 then
      (load R (k + (i + 1))).bind fun y =>
        if y &&& 0x80 ≠ 0 then (load R (o + i)).bind fun z => store R (o + i) (z ||| 1) else some R
    else some R).bind fun R => shift R o k (i + 1) n

/-- One subkey (src/crypt/cmac.c:25-32 with `o = k`, 34-41). -/
def sub (R : Ram) (o k : Nat) : Option Ram :=
  (load R k).bind fun msb => (shift R o k 0 16).bind fun R =>
    if msb &&& 0x80 ≠ 0 then (load R (o + 15)).bind fun z => store R (o + 15) (z ^^^ 0x87) else some R

/-- `cbc_compute_subkeys` (src/crypt/cmac.c:15-42). -/
def subkeys (E : List Byte → List Byte) (A : Arrays) (R : Ram) : Option Ram :=
  (fill R A.blank 0 16).bind fun R => (cipher E 16 1 R A.k1 A.blank).bind fun R =>
    (sub R A.k1 A.k1).bind fun R => sub R A.k2 A.k1

/-- `cry_cmac_init` (src/crypt/cmac.c:44-52): the arrays are cleared, `blklen` is 0; the key goes to the cipher. -/
def init (A : Arrays) (R : Ram) : Option (Ram × Nat) :=
  (fill R A.blk 0 16).bind fun R => (fill R A.mac 0 16).map fun R => (R, 0)

/-- `xor_128(block, ctx->mac, p)` and the encryption to `ctx->mac` (src/crypt/cmac.c:69-71, 81-83). -/
def turn (E : List Byte → List Byte) (A : Arrays) (R : Ram) (p : Nat) : Option Ram :=
  (xor128 R A.block A.mac p 0 16).bind fun R => cipher E 16 1 R A.mac A.block

/-- The loop (src/crypt/cmac.c:80-84), `n` turns. -/
def loop (E : List Byte → List Byte) (A : Arrays) (R : Ram) (p : Nat) : Nat → Option Ram
  | 0 => some R
  | n + 1 => (turn E A R p).bind fun R => loop E A R (p + 16) n

/-- The part after the pending block (src/crypt/cmac.c:74-91); the memory and `blklen`.  The sum in the number of rounds does not
wrap around, as no object is that long. -/
def rest (E : List Byte → List Byte) (A : Arrays) (R : Ram) (blklen p len : Nat) : Option (Ram × Nat) :=
  let n := (len + 15) / 16
  if n = 0 then some (R, blklen)
  else
    (loop E A R p (n - 1)).bind fun R =>
      let bl := if len % 16 = 0 then 16 else len % 16
      (memcpy R A.blk (p + 16 * (n - 1)) bl).map fun R => (R, bl)

/-- `cry_cmac_update` (src/crypt/cmac.c:54-91). -/
def update (E : List Byte → List Byte) (A : Arrays) (R : Ram) (blklen p len : Nat) : Option (Ram × Nat) :=
  if blklen > 0 then
    let n := min len (16 - blklen)
    (RamHash.copyIn 16 A.blk R blklen p n).bind fun R =>
      if blklen + n < 16 ∨ len - n = 0 then some (R, blklen + n)
      else (turn E A R A.blk).bind fun R => rest E A R (blklen + n) (p + n) (len - n)
  else rest E A R blklen p len

/-- The loop of `pad` (src/crypt/cmac.c:98-99), `n` turns left. -/
def zeros (R : Ram) (b i : Nat) : Nat → Option Ram
  | 0 => some R
  | n + 1 => (RamHash.storeIn 16 b R i 0).bind fun R => zeros R b (i + 1) n

/-- `pad` (src/crypt/cmac.c:93-100). -/
def pad (R : Ram) (b size : Nat) : Option Ram :=
  (RamHash.storeIn 16 b R size 0x80).bind fun R => zeros R b (size + 1) (16 - (size + 1))

/-- `cry_cmac_digest` (src/crypt/cmac.c:102-121). -/
def digest (E : List Byte → List Byte) (A : Arrays) (R : Ram) (blklen out : Nat) : Option Ram :=
  (subkeys E A R).bind fun R =>
  (if blklen = 16 then xor128 R A.last A.blk A.k1 0 16
    else (pad R A.blk blklen).bind fun R => xor128 R A.last A.blk A.k2 0 16).bind fun R =>
  (xor128 R A.blk A.mac A.last 0 16).bind fun R =>
  (cipher E 16 1 R A.mac A.blk).bind fun R => memcpy R out A.mac 16

/-- The updates with the given buffers. -/
def updates (E : List Byte → List Byte) (A : Arrays) (R : Ram) (blklen : Nat) : List (Nat × Nat) → Option (Ram × Nat)
  | [] => some (R, blklen)
  | q :: qs => (update E A R blklen q.1 q.2).bind fun r => updates E A r.1 r.2 qs

/-- `cry_cmac_init`, `cry_cmac_update` with the given buffers, `cry_cmac_digest`. -/
def cmac (E : List Byte → List Byte) (A : Arrays) (R : Ram) (calls : List (Nat × Nat)) (out : Nat) : Option Ram :=
  (init A R).bind fun r => (updates E A r.1 r.2 calls).bind fun r => digest E A r.1 r.2 out

end Verif.RamCmac
