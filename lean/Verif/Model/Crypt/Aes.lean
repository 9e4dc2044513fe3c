import Verif.Model.Bytes
import Verif.Model.Crypt.AesTables
/-!
# Model of AES (src/crypt/aes.c)

Simplifications: `ctx->nr` is split into the number of rounds and the flag `DECRYPT_STATE`; of the array
`keys[60]` only the `4*(nr+1)` words in use are kept; source and destination are equal or disjoint (each block
is read before it is written).
-/
namespace Verif.Aes

/-- A table entry. All tables have 256 entries (`tables_length`), so the default is never used. -/
def look {n : Nat} (t : List (BitVec n)) (b : Byte) : BitVec n := t.getD b.toNat 0

/-- `I0` .. `I3` (src/crypt/aes.c:325-328). -/
def i0 (x : BitVec 32) : Byte := (x &&& 0xff#32).setWidth 8
def i1 (x : BitVec 32) : Byte := (x >>> 8 &&& 0xff#32).setWidth 8
def i2 (x : BitVec 32) : Byte := (x >>> 16 &&& 0xff#32).setWidth 8
def i3 (x : BitVec 32) : Byte := (x >>> 24 &&& 0xff#32).setWidth 8

/-- `CRY_ROTL32` (src/misc.h:142-143, 149). -/
def rotl32 (x : BitVec 32) (n : Nat) : BitVec 32 := x <<< n ||| x >>> (32 - n)

/-- `ftab[k]` / `rtab[k]` (src/crypt/aes.c:117-130, 240-253): the entries of the macro with the two-digit
groups rotated. -/
def tabK (t : List (BitVec 32)) (k : Nat) (b : Byte) : BitVec 32 := rotl32 (look t b) (8 * k)

/-- `SBOX` and `FINAL` (src/crypt/aes.c:330-334, 342-346). -/
def final (sbox : List Byte) (w0 w1 w2 w3 : BitVec 32) : BitVec 32 :=
  (look sbox (i0 w0)).setWidth 32 ||| (look sbox (i1 w1)).setWidth 32 <<< 8 |||
    (look sbox (i2 w2)).setWidth 32 <<< 16 ||| (look sbox (i3 w3)).setWidth 32 <<< 24

/-- `ROUND` (src/crypt/aes.c:336-340). -/
def round (t : List (BitVec 32)) (w0 w1 w2 w3 : BitVec 32) : BitVec 32 :=
  look t (i0 w0) ^^^ tabK t 1 (i1 w1) ^^^ tabK t 2 (i2 w2) ^^^ tabK t 3 (i3 w3)

structure Ctx where
  keys : List (BitVec 32)
  nr : Nat
  dec : Bool
deriving DecidableEq

/-- `ctx->keys[i]`; the theorems show that all indices used are below `4*(nr+1)`. -/
def Ctx.key (c : Ctx) (i : Nat) : BitVec 32 := c.keys.getD i 0

/-- A word of the key schedule in `key_invert` (src/crypt/aes.c:361-372). -/
def invWord (key : BitVec 32) : BitVec 32 :=
  look mtab ((key &&& 0xff#32).setWidth 8) ^^^
  rotl32 (look mtab ((key >>> 8 &&& 0xff#32).setWidth 8)) 8 ^^^
  rotl32 (look mtab ((key >>> 8 >>> 8 &&& 0xff#32).setWidth 8)) 16 ^^^
  rotl32 (look mtab ((key >>> 8 >>> 8 >>> 8 &&& 0xff#32).setWidth 8)) 24

/-- The swap loop of `key_invert` (src/crypt/aes.c:355-358): round keys `i/4` and `j/4` change places, from
both ends, while `i < j`. -/
def swapLoop (keys : List (BitVec 32)) (i j : Nat) : List (BitVec 32) :=
  if i < j then
    let sw (keys : List (BitVec 32)) (k : Nat) :=
      let x := keys.getD (i + k) 0
      let y := keys.getD (j + k) 0
      (keys.set (i + k) y).set (j + k) x
    swapLoop ((List.range 4).foldl sw keys) (i + 4) (j - 4)
  else keys
termination_by j - i

/-- `key_invert` (src/crypt/aes.c:349-374). -/
def keyInvert (c : Ctx) : Ctx :=
  let keys := swapLoop c.keys 0 (c.nr * 4)
  { c with keys := keys.mapIdx (fun i k => if 4 ≤ i ∧ i < 4 * c.nr then invWord k else k) }

/-- `rcon` (src/crypt/aes.c:378-381). -/
def rconTab : List Byte := [0x01, 0x02, 0x04, 0x08, 0x10, 0x20, 0x40, 0x80, 0x1b, 0x36]

/-- The expansion loop of `cry_aes_key_set` (src/crypt/aes.c:401-408), `n` turns left, `i` the number of words
so far, `rp` the rest of `rcon`. -/
def expandLoop (nk : Nat) : Nat → List (BitVec 32) → List Byte → List (BitVec 32)
  | 0, keys, _ => keys
  | n + 1, keys, rp =>
    let i := keys.length
    let tmp := keys.getD (i - 1) 0
    if i % nk = 0 then
      let x := rotl32 tmp 24
      let tmp := final fsbox x x x x ^^^ (rp.headD 0).setWidth 32
      expandLoop nk n (keys ++ [keys.getD (i - nk) 0 ^^^ tmp]) rp.tail
    else if nk = 8 ∧ i % nk = 4 then
      let tmp := final fsbox tmp tmp tmp tmp
      expandLoop nk n (keys ++ [keys.getD (i - nk) 0 ^^^ tmp]) rp
    else expandLoop nk n (keys ++ [keys.getD (i - nk) 0 ^^^ tmp]) rp

/-- The word of four bytes from position `p` (`CRY_READ32_LE`). -/
def word (l : List Byte) (p : Nat) : BitVec 32 :=
  read32le (l.getD p 0) (l.getD (p + 1) 0) (l.getD (p + 2) 0) (l.getD (p + 3) 0)

/-- `cry_aes_key_set` (src/crypt/aes.c:376-409) for a key of at least 16 bytes (a shorter one is read out of
bounds). -/
def keySet (key : List Byte) : Option Ctx :=
  if key.length < 16 then none
  else
    let nk := if 32 ≤ key.length then 8 else if 24 ≤ key.length then 6 else 4
    let nr := nk + 6
    let lk := 4 * (nr + 1)
    let first := (List.range nk).map (fun i => word key (i * 4))
    some ⟨expandLoop nk (lk - nk) first rconTab, nr, false⟩

/-- The four words of a block. -/
@[ext] structure W where
  w0 : BitVec 32
  w1 : BitVec 32
  w2 : BitVec 32
  w3 : BitVec 32
deriving DecidableEq

/-- The round loop of `cry_aes_encrypt` (src/crypt/aes.c:434-443), `n` turns left. -/
def encRounds (c : Ctx) : Nat → Nat → W → W
  | 0, _, w => w
  | n + 1, i, w => encRounds c n (i + 1)
    ⟨round ftabC w.w0 w.w1 w.w2 w.w3 ^^^ c.key (4 * i),
     round ftabC w.w1 w.w2 w.w3 w.w0 ^^^ c.key (4 * i + 1),
     round ftabC w.w2 w.w3 w.w0 w.w1 ^^^ c.key (4 * i + 2),
     round ftabC w.w3 w.w0 w.w1 w.w2 ^^^ c.key (4 * i + 3)⟩

/-- One block of `cry_aes_encrypt` (src/crypt/aes.c:424-453). -/
def encBlock (c : Ctx) (src : List Byte) : List Byte :=
  let w : W := ⟨word src 0 ^^^ c.key 0, word src 4 ^^^ c.key 1, word src 8 ^^^ c.key 2, word src 12 ^^^ c.key 3⟩
  let w := encRounds c (c.nr - 1) 1 w
  let i := c.nr
  write32le (final fsbox w.w0 w.w1 w.w2 w.w3 ^^^ c.key (4 * i)) ++
  write32le (final fsbox w.w1 w.w2 w.w3 w.w0 ^^^ c.key (4 * i + 1)) ++
  write32le (final fsbox w.w2 w.w3 w.w0 w.w1 ^^^ c.key (4 * i + 2)) ++
  write32le (final fsbox w.w3 w.w0 w.w1 w.w2 ^^^ c.key (4 * i + 3))

/-- The round loop of `cry_aes_decrypt` (src/crypt/aes.c:484-493). -/
def decRounds (c : Ctx) : Nat → Nat → W → W
  | 0, _, w => w
  | n + 1, i, w => decRounds c n (i + 1)
    ⟨round rtabC w.w0 w.w3 w.w2 w.w1 ^^^ c.key (4 * i),
     round rtabC w.w1 w.w0 w.w3 w.w2 ^^^ c.key (4 * i + 1),
     round rtabC w.w2 w.w1 w.w0 w.w3 ^^^ c.key (4 * i + 2),
     round rtabC w.w3 w.w2 w.w1 w.w0 ^^^ c.key (4 * i + 3)⟩

/-- One block of `cry_aes_decrypt` (src/crypt/aes.c:474-503). -/
def decBlock (c : Ctx) (src : List Byte) : List Byte :=
  let w : W := ⟨word src 0 ^^^ c.key 0, word src 4 ^^^ c.key 1, word src 8 ^^^ c.key 2, word src 12 ^^^ c.key 3⟩
  let w := decRounds c (c.nr - 1) 1 w
  let i := c.nr
  write32le (final rsbox w.w0 w.w3 w.w2 w.w1 ^^^ c.key (4 * i)) ++
  write32le (final rsbox w.w1 w.w0 w.w3 w.w2 ^^^ c.key (4 * i + 1)) ++
  write32le (final rsbox w.w2 w.w1 w.w0 w.w3 ^^^ c.key (4 * i + 2)) ++
  write32le (final rsbox w.w3 w.w2 w.w1 w.w0 ^^^ c.key (4 * i + 3))

/-- The block loop `while (size >= 16)` (src/crypt/aes.c:423-458, 473-508): the bytes written. -/
def blockLoop (f : List Byte → List Byte) (src : List Byte) : List Byte :=
  if 16 ≤ src.length then f (src.take 16) ++ blockLoop f (src.drop 16) else []
termination_by src.length
decreasing_by simp; omega

/-- `cry_aes_encrypt` (src/crypt/aes.c:411-459): the bytes written and the context. -/
def encrypt (c : Ctx) (src : List Byte) : List Byte × Ctx :=
  let c := if c.dec then { keyInvert c with dec := false } else c
  (blockLoop (encBlock c) src, c)

/-- `cry_aes_decrypt` (src/crypt/aes.c:461-509). -/
def decrypt (c : Ctx) (src : List Byte) : List Byte × Ctx :=
  let c := if c.dec then c else { keyInvert c with dec := true }
  (blockLoop (decBlock c) src, c)

end Verif.Aes
