import Verif.Model.Hash.Block
import Verif.Model.Hash.Tables
import Verif.Spec.HashTypes
/-!
# Model of SHA-512 and SHA-384 (src/hash/sha512.c)
-/
namespace Verif.Hash.Sha512
open Verif.HashS (Regs)

/-- `CRY_ROTR64` (src/misc.h:146-147, 152). -/
def rotr (a : BitVec 64) (b : Nat) : BitVec 64 := (a >>> b) ||| (a <<< (64 - b))
/-- `S0` (src/hash/sha512.c:6). -/
def S0 (x : BitVec 64) : BitVec 64 := rotr x 1 ^^^ rotr x 8 ^^^ (x >>> 7)
/-- `S1` (src/hash/sha512.c:7). -/
def S1 (x : BitVec 64) : BitVec 64 := rotr x 19 ^^^ rotr x 61 ^^^ (x >>> 6)
/-- `S2` (src/hash/sha512.c:9). -/
def S2 (x : BitVec 64) : BitVec 64 := rotr x 28 ^^^ rotr x 34 ^^^ rotr x 39
/-- `S3` (src/hash/sha512.c:10). -/
def S3 (x : BitVec 64) : BitVec 64 := rotr x 14 ^^^ rotr x 18 ^^^ rotr x 41
/-- `F0` (src/hash/sha512.c:12). -/
def F0 (x y z : BitVec 64) : BitVec 64 := (x &&& y) ||| (z &&& (x ||| y))
/-- `F1` (src/hash/sha512.c:13). -/
def F1 (x y z : BitVec 64) : BitVec 64 := z ^^^ (x &&& (y ^^^ z))

/-- The macro `P` (src/hash/sha512.c:15-20): the new `d` and `h`. -/
def P (a b c d e f g h x K : BitVec 64) : BitVec 64 × BitVec 64 :=
  let t1 := h + S3 e + F1 e f g + K + x
  let t2 := S2 a + F0 a b c
  (d + t1, t1 + t2)

/-- The first loop of `sha512_process` (src/hash/sha512.c:83-84). -/
def load (data : List Byte) : List (BitVec 64) := (List.range 16).map fun i =>
  read64be (data.getD (8 * i) 0) (data.getD (8 * i + 1) 0) (data.getD (8 * i + 2) 0) (data.getD (8 * i + 3) 0)
    (data.getD (8 * i + 4) 0) (data.getD (8 * i + 5) 0) (data.getD (8 * i + 6) 0) (data.getD (8 * i + 7) 0)

/-- The second loop (src/hash/sha512.c:85-86), `n` turns left. -/
def extend : Nat → List (BitVec 64) → List (BitVec 64)
  | 0, W => W
  | n + 1, W =>
    let i := W.length
    extend n (W ++ [S1 (W.getD (i - 2) 0) + W.getD (i - 7) 0 + S0 (W.getD (i - 15) 0) + W.getD (i - 16) 0])

/-- The body of the loop over the rounds (src/hash/sha512.c:99-114). -/
def eight (W : List (BitVec 64)) (i : Nat) : Regs 64 → Regs 64
  | ⟨a, b, c, d, e, f, g, h⟩ =>
    let p := P a b c d e f g h (W.getD i 0) (k512.getD i 0)
    let d := p.1; let h := p.2
    let p := P h a b c d e f g (W.getD (i + 1) 0) (k512.getD (i + 1) 0)
    let c := p.1; let g := p.2
    let p := P g h a b c d e f (W.getD (i + 2) 0) (k512.getD (i + 2) 0)
    let b := p.1; let f := p.2
    let p := P f g h a b c d e (W.getD (i + 3) 0) (k512.getD (i + 3) 0)
    let a := p.1; let e := p.2
    let p := P e f g h a b c d (W.getD (i + 4) 0) (k512.getD (i + 4) 0)
    let h := p.1; let d := p.2
    let p := P d e f g h a b c (W.getD (i + 5) 0) (k512.getD (i + 5) 0)
    let g := p.1; let c := p.2
    let p := P c d e f g h a b (W.getD (i + 6) 0) (k512.getD (i + 6) 0)
    let f := p.1; let b := p.2
    let p := P b c d e f g h a (W.getD (i + 7) 0) (k512.getD (i + 7) 0)
    let e := p.1; let a := p.2
    ⟨a, b, c, d, e, f, g, h⟩

/-- The `do ... while (i < 80)` loop (src/hash/sha512.c:97-115): ten turns. -/
def rounds (W : List (BitVec 64)) : Nat → Nat → Regs 64 → Regs 64
  | 0, _, r => r
  | n + 1, i, r => rounds W n (i + 8) (eight W i r)

/-- `sha512_process` (src/hash/sha512.c:76-125). -/
def process (s : Regs 64) (data : List Byte) : Regs 64 :=
  let W := extend 64 (load data)
  let r := rounds W 10 0 s
  ⟨s.a + r.a, s.b + r.b, s.c + r.c, s.d + r.d, s.e + r.e, s.f + r.f, s.g + r.g, s.h + r.h⟩

/-- The context; `is384` is passed separately. -/
abbrev Ctx := Blk.Ctx 64 (Regs 64)

/-- `cry_sha512_init` (src/hash/sha512.c:128-156). -/
def init (is384 : Bool) : Ctx := ⟨List.replicate 128 0, 0, 0,
  if is384 = false then
    ⟨0x6A09E667F3BCC908, 0xBB67AE8584CAA73B, 0x3C6EF372FE94F82B, 0xA54FF53A5F1D36F1,
     0x510E527FADE682D1, 0x9B05688C2B3E6C1F, 0x1F83D9ABFB41BD6B, 0x5BE0CD19137E2179⟩
  else
    ⟨0xCBBB9D5DC1059ED8, 0x629A292A367CD507, 0x9159015A3070DD17, 0x152FECD8F70E5939,
     0x67332667FFC00B31, 0x8EB44A8768581511, 0xDB0C2E0D64F98FA7, 0x47B5481DBEFA4FA4⟩⟩

/-- `cry_sha512_update` (src/hash/sha512.c:163-195). -/
def update (c : Ctx) (d : List Byte) : Ctx := Blk.update 128 process c d

/-- `cry_sha512_digest` (src/hash/sha512.c:197-229). -/
def digest (is384 : Bool) (c : Ctx) : List Byte :=
  let hi := (c.len0 >>> 61) ||| (c.len1 <<< 3)
  let lo := c.len0 <<< 3
  let msglen := write64be hi ++ write64be lo
  let last := (c.len0 &&& 0x7F#64).toNat
  let padlen := if last < 112 then 112 - last else 128 - last
  let pad := 0x80#8 :: List.replicate 127 0
  let c := update c (pad.take padlen)
  let c := update c msglen
  let out := write64be c.state.a ++ write64be c.state.b ++ write64be c.state.c ++ write64be c.state.d ++
    write64be c.state.e ++ write64be c.state.f
  if is384 = false then out ++ write64be c.state.g ++ write64be c.state.h else out

/-- `cry_sha512` and `cry_sha384` (src/hash/sha512.c:231-249). -/
def hash (is384 : Bool) (data : List Byte) : List Byte := digest is384 (update (init is384) data)

end Verif.Hash.Sha512
