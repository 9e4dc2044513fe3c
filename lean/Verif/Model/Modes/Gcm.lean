import Verif.Model.Modes.Ctr
import Verif.Model.Bytes
/-!
# Model of GCM (src/crypt/gcm.c)
-/
namespace Verif.Modes

/-- Four 32-bit words. -/
structure W4 where
  w0 : BitVec 32
  w1 : BitVec 32
  w2 : BitVec 32
  w3 : BitVec 32
deriving DecidableEq

/-- `Z ^= V` (src/crypt/gcm.c:28-31). -/
def W4.xor (a b : W4) : W4 := ⟨a.w0 ^^^ b.w0, a.w1 ^^^ b.w1, a.w2 ^^^ b.w2, a.w3 ^^^ b.w3⟩

/-- The "double" of src/crypt/gcm.c:34-38; the new `V[3]`, `V[2]`, `V[1]` use the old lower words. -/
def W4.dbl (v : W4) : W4 :=
  let mask := ~~~(v.w3 &&& 1) + 1
  let v3 := (v.w3 >>> 1) ||| ((v.w2 &&& 1) <<< 31)
  let v2 := (v.w2 >>> 1) ||| ((v.w1 &&& 1) <<< 31)
  let v1 := (v.w1 >>> 1) ||| ((v.w0 &&& 1) <<< 31)
  let v0 := (v.w0 >>> 1) ^^^ (mask &&& (0xE1#32 <<< 24))
  ⟨v0, v1, v2, v3⟩

/-- Inner loop (src/crypt/gcm.c:25-39), `k` turns left. -/
def gfBits : Nat → Byte → W4 → W4 → W4 × W4
  | 0, _, v, z => (v, z)
  | k + 1, b, v, z =>
    let z := if b &&& 0x80 ≠ 0 then z.xor v else z
    gfBits k (b <<< 1) v.dbl z

/-- Outer loop (src/crypt/gcm.c:23-40). -/
def gfBytes : List Byte → W4 → W4 → W4
  | [], _, z => z
  | b :: y, v, z => let r := gfBits 8 b v z; gfBytes y r.1 r.2

/-- Reading a block into words (src/crypt/gcm.c:19-22); `none` if it is not 16 bytes long. -/
def readW4 : List Byte → Option W4
  | [a0, a1, a2, a3, b0, b1, b2, b3, c0, c1, c2, c3, d0, d1, d2, d3] =>
    some ⟨read32be a0 a1 a2 a3, read32be b0 b1 b2 b3, read32be c0 c1 c2 c3, read32be d0 d1 d2 d3⟩
  | _ => none

/-- Writing the result (src/crypt/gcm.c:41-44). -/
def writeW4 (z : W4) : List Byte :=
  write32be z.w0 ++ write32be z.w1 ++ write32be z.w2 ++ write32be z.w3

/-- `gcm_gf_mul` (src/crypt/gcm.c:10-45), the new content of `x`; blocks that are not 16 bytes long
(which cannot occur in C) give the empty list. -/
def gfMul (x y : List Byte) : List Byte :=
  match readW4 x with
  | none => []
  | some v => writeW4 (gfBytes y v ⟨0, 0, 0, 0⟩)

/-- `cry_memxor(dst, data, len)` on the first bytes of a buffer. -/
def xorInto (dst data : List Byte) : List Byte := mxor dst data ++ dst.drop data.length

/-- `gcm_hash` (src/crypt/gcm.c:47-60); `k` bounds the turns. -/
def gcmHashLoop (key : List Byte) : Nat → List Byte → List Byte → List Byte
  | 0, h, _ => h
  | k + 1, h, data =>
    if data.length ≥ 16 then gcmHashLoop key k (gfMul (xorInto h (data.take 16)) key) (data.drop 16)
    else if data.length > 0 then gfMul (xorInto h data) key
    else h

def gcmHash (h key data : List Byte) : List Byte := gcmHashLoop key (data.length + 1) h data

/-- `gcm_hash_sizes` (src/crypt/gcm.c:62-74); sizes are 64-bit, shifted and cut to 32 bits. -/
def gcmHashSizes (h key : List Byte) (a c : BitVec 64) : List Byte :=
  gcmHash h key (List.replicate 4 0#8 ++ write32be ((a <<< 3).setWidth 32) ++
    List.replicate 4 0#8 ++ write32be ((c <<< 3).setWidth 32))

/-- `struct cry_gcm_ctx` (include/cry/gcm.h:21-38) without the cipher. -/
structure Gcm where
  iv : List Byte
  ctr : List Byte
  hs : List Byte
  key : List Byte
  authLen : BitVec 64
  ciphLen : BitVec 64
deriving DecidableEq

/-- `cry_gcm_key_set` (src/crypt/gcm.c:95-114), `E` being the cipher under the new key. -/
def gcmKeySet (E : List Byte → List Byte) : Gcm :=
  let z := List.replicate 16 0#8
  ⟨z, z, z, E z, 0, 0⟩

/-- `CRY_INCREMENT_BE(&ctr[12], 4)`. -/
def inc32 (ctr : List Byte) : List Byte := ctr.take 12 ++ (incBE (ctr.drop 12) 4).getD []

/-- `cry_gcm_iv_set` (src/crypt/gcm.c:117-136). -/
def gcmIvSet (g : Gcm) (iv : List Byte) : Gcm :=
  let iv' :=
    if iv.length = 12 then iv ++ [0, 0, 0, 1]
    else gcmHashSizes (gcmHash (List.replicate 16 0) g.key iv) g.key 0 (BitVec.ofNat 64 iv.length)
  { g with iv := iv', ctr := inc32 iv', hs := List.replicate 16 0, authLen := 0, ciphLen := 0 }

/-- `gcm_operate` (src/crypt/gcm.c:138-168); `inPlace` tells whether `src == dst`, `k` bounds the turns. -/
def gcmOperateLoop (E : List Byte → List Byte) (inPlace : Bool) :
    Nat → List Byte → List Byte → List Byte × List Byte
  | 0, ctr, _ => ([], ctr)
  | k + 1, ctr, src =>
    if src.length ≥ 16 then
      let y := if inPlace then mxor (src.take 16) (E ctr) else mxor (E ctr) (src.take 16)
      let r := gcmOperateLoop E inPlace k (inc32 ctr) (src.drop 16)
      (y ++ r.1, r.2)
    else if src.length > 0 then (mxor src (E ctr), inc32 ctr)
    else ([], ctr)

def gcmOperate (E : List Byte → List Byte) (inPlace : Bool) (ctr src : List Byte) :
    List Byte × List Byte :=
  gcmOperateLoop E inPlace (src.length + 1) ctr src

/-- `cry_gcm_encrypt` (src/crypt/gcm.c:170-176). -/
def gcmEncrypt (E : List Byte → List Byte) (inPlace : Bool) (g : Gcm) (src : List Byte) :
    List Byte × Gcm :=
  let r := gcmOperate E inPlace g.ctr src
  (r.1, { g with ctr := r.2, hs := gcmHash g.hs g.key r.1,
                 ciphLen := g.ciphLen + BitVec.ofNat 64 src.length })

/-- `cry_gcm_decrypt` (src/crypt/gcm.c:178-184). -/
def gcmDecrypt (E : List Byte → List Byte) (inPlace : Bool) (g : Gcm) (src : List Byte) :
    List Byte × Gcm :=
  let hs := gcmHash g.hs g.key src
  let r := gcmOperate E inPlace g.ctr src
  (r.1, { g with ctr := r.2, hs := hs, ciphLen := g.ciphLen + BitVec.ofNat 64 src.length })

/-- `cry_gcm_update` (src/crypt/gcm.c:186-191). -/
def gcmUpdate (g : Gcm) (aad : List Byte) : Gcm :=
  { g with hs := gcmHash g.hs g.key aad, authLen := g.authLen + BitVec.ofNat 64 aad.length }

/-- `cry_gcm_digest` (src/crypt/gcm.c:193-203): tag and context; more than 16 bytes are read outside the
hash state (`none`). -/
def gcmDigest (E : List Byte → List Byte) (g : Gcm) (size : Nat) : Option (List Byte × Gcm) :=
  if size > 16 then none
  else
    let hs := gcmHashSizes g.hs g.key g.authLen g.ciphLen
    some (mxor (hs.take size) (E g.iv), { g with hs := hs })

end Verif.Modes
