import Verif.Model.Ram.Modes
import Verif.Model.Modes.Gcm
/-!
# GCM on buffers in memory (src/crypt/gcm.c)

The context is at `g`: `iv`, `ctr`, `hs` and `key` of 16 bytes each, one behind the other (include/cry/gcm.h:21-38); the two
lengths are values of the state.  Local arrays are given by their addresses.
-/
namespace Verif.Ram
open Verif.Modes (gfMul)

/-- Memory with the two lengths of the context. -/
structure GcmSt where
  R : Ram
  authLen : BitVec 64
  ciphLen : BitVec 64

/-- `memset(a, v, n)`. -/
def fill (R : Ram) (a : Nat) (v : Byte) (n : Nat) : Option Ram :=
  if R.Owned a n then some (R.put a (List.replicate n v)) else none

/-- `gcm_gf_mul` (src/crypt/gcm.c:10-45): `x` is read first and written last. -/
def gcmMul (R : Ram) (x y : Nat) : Option Ram :=
  if R.Owned x 16 ∧ R.Owned y 16 then some (R.put x (gfMul (R.bytes x 16) (R.bytes y 16))) else none

/-- `gcm_hash` (src/crypt/gcm.c:47-60); the first number bounds the turns. -/
def gcmHashLoop (hs key : Nat) : Nat → Ram → Nat → Nat → Option Ram
  | 0, _, _, _ => none
  | k + 1, R, data, len =>
    if 16 ≤ len then
      (xor1 R hs data 16).bind fun R => (gcmMul R hs key).bind fun R => gcmHashLoop hs key k R (data + 16) (len - 16)
    else if 0 < len then (xor1 R hs data len).bind fun R => gcmMul R hs key
    else some R

@[inherit_doc gcmHashLoop]
def gcmHash (hs key : Nat) (R : Ram) (data len : Nat) : Option Ram := gcmHashLoop hs key (len + 1) R data len

/-- `gcm_hash_sizes` (src/crypt/gcm.c:62-74); `buf` is the local array. -/
def gcmHashSizes (hs key buf : Nat) (R : Ram) (a c : BitVec 64) : Option Ram :=
  (fill R buf 0 16).bind fun R =>
  gcmHash hs key ((R.put (buf + 4) (write32be ((a <<< 3).setWidth 32))).put (buf + 12) (write32be ((c <<< 3).setWidth 32))) buf 16

/-- `cry_gcm_key_set` (src/crypt/gcm.c:95-114), `E` being the cipher under the new key. -/
def gcmKeySet (E : List Byte → List Byte) (g : Nat) (R : Ram) : Option GcmSt :=
  (fill R (g + 32) 0 16).bind fun R => (fill R (g + 16) 0 16).bind fun R => (fill R g 0 16).bind fun R =>
  (fill R (g + 48) 0 16).bind fun R => (fill R (g + 48) 0 16).bind fun R =>
  (cipher E 16 1 R (g + 48) (g + 48)).map fun R => ⟨R, 0, 0⟩

/-- `cry_gcm_iv_set` (src/crypt/gcm.c:117-136). -/
def gcmIvSet (g buf : Nat) (R : Ram) (iv size : Nat) : Option GcmSt :=
  (if size = 12 then
    (memcpy R g iv 12).bind fun R => (store R (g + 12) 0).bind fun R => (store R (g + 13) 0).bind fun R =>
    (store R (g + 14) 0).bind fun R => store R (g + 15) 1
  else
    (fill R g 0 16).bind fun R => (gcmHash g (g + 48) R iv size).bind fun R =>
    gcmHashSizes g (g + 48) buf R 0 (BitVec.ofNat 64 size)).bind fun R =>
  (memcpy R (g + 16) g 16).bind fun R => (incr R (g + 28) 4).bind fun R =>
  (fill R (g + 32) 0 16).map fun R => ⟨R, 0, 0⟩

/-- The loops of `gcm_operate` (src/crypt/gcm.c:145-167); `ip` tells whether `src == dst`, the first number bounds the turns. -/
def gcmOperateLoop (E : List Byte → List Byte) (ctr buf : Nat) (ip : Bool) : Nat → Ram → Nat → Nat → Nat → Option Ram
  | 0, _, _, _, _ => none
  | k + 1, R, dst, src, size =>
    if 16 ≤ size then
      (if ip then (cipher E 16 1 R buf ctr).bind fun R => xor2 R dst src buf 16
        else (cipher E 16 1 R dst ctr).bind fun R => xor1 R dst src 16).bind fun R =>
      (incr R (ctr + 12) 4).bind fun R => gcmOperateLoop E ctr buf ip k R (dst + 16) (src + 16) (size - 16)
    else if 0 < size then
      (cipher E 16 1 R buf ctr).bind fun R => (xor2 R dst src buf size).bind fun R => incr R (ctr + 12) 4
    else some R

/-- `gcm_operate` (src/crypt/gcm.c:138-168). -/
def gcmOperate (E : List Byte → List Byte) (ctr buf : Nat) (R : Ram) (dst src size : Nat) : Option Ram :=
  gcmOperateLoop E ctr buf (src == dst) (size + 1) R dst src size

/-- `cry_gcm_encrypt` (src/crypt/gcm.c:170-176). -/
def gcmEncrypt (E : List Byte → List Byte) (g buf : Nat) (G : GcmSt) (dst src size : Nat) : Option GcmSt :=
  (gcmOperate E (g + 16) buf G.R dst src size).bind fun R => (gcmHash (g + 32) (g + 48) R dst size).map fun R =>
  ⟨R, G.authLen, G.ciphLen + BitVec.ofNat 64 size⟩

/-- `cry_gcm_decrypt` (src/crypt/gcm.c:178-184). -/
def gcmDecrypt (E : List Byte → List Byte) (g buf : Nat) (G : GcmSt) (dst src size : Nat) : Option GcmSt :=
  (gcmHash (g + 32) (g + 48) G.R src size).bind fun R => (gcmOperate E (g + 16) buf R dst src size).map fun R =>
  ⟨R, G.authLen, G.ciphLen + BitVec.ofNat 64 size⟩

/-- `cry_gcm_update` (src/crypt/gcm.c:186-191). -/
def gcmUpdate (g : Nat) (G : GcmSt) (aad size : Nat) : Option GcmSt :=
  (gcmHash (g + 32) (g + 48) G.R aad size).map fun R => ⟨R, G.authLen + BitVec.ofNat 64 size, G.ciphLen⟩

/-- `cry_gcm_digest` (src/crypt/gcm.c:193-203); `buf` is the array of `gcm_hash_sizes`, `buf'` the one of this function.
Reading behind either array of 16 bytes is undefined. -/
def gcmDigest (E : List Byte → List Byte) (g buf buf' : Nat) (G : GcmSt) (mac size : Nat) : Option GcmSt :=
  (gcmHashSizes (g + 32) (g + 48) buf G.R G.authLen G.ciphLen).bind fun R => (cipher E 16 1 R buf' g).bind fun R =>
  if size > 16 then none else (xor2 R mac (g + 32) buf' size).map fun R => ⟨R, G.authLen, G.ciphLen⟩

end Verif.Ram
