import Verif.Model.Ram.Hash
/-!
# HMAC on buffers in memory (src/crypt/hmac.c)

The member `key` of the context (64 bytes, at `key`), the local array `pad` of `cry_hmac_init` and `cry_hmac_digest` (64
bytes, at `pad`), the caller's key, the messages, the code and the array of the hash context lie in the flat memory.  The
interface has `init` and `clear`.
-/
namespace Verif.RamHash
open Verif.Ram

/-- `struct cry_hmac_ctx` (include/cry/hmac.h:13-19) without the key. -/
structure HmacC (κ : Type) where
  hash : κ
  hashLen : Nat
  keyLen : Nat

/-- `for (; i < ctx->key_len; i++) pad[i] ^= ctx->key[i]` (src/crypt/hmac.c:31-32, 54-55), `n` turns left.  Both arrays have
64 bytes. -/
def padLoop (key pad : Nat) (R : Ram) (i : Nat) : Nat → Option Ram
  | 0 => some R
  | n + 1 =>
    if i < 64 then
      (load R (pad + i)).bind fun x => (load R (key + i)).bind fun k => (store R (pad + i) (x ^^^ k)).bind fun R =>
        padLoop key pad R (i + 1) n
    else none

/-- The key is brought into the context (src/crypt/hmac.c:17-28): the memory and `key_len`. -/
def hmacKey {κ} (H : Itf κ) (key : Nat) (R : Ram) (hashLen k klen : Nat) : Option (Ram × Nat) :=
  if klen ≤ 64 then (memcpy R key k klen).map fun R => (R, klen)
  else
    (H.init R).bind fun r => (H.update r.1 r.2 k klen).bind fun r => (H.digest r.1 r.2 key).bind fun r =>
      (H.clear r.1 r.2).map fun r => (r.1, hashLen)

/-- The padded key is hashed in a fresh context (src/crypt/hmac.c:30-35, 53-58). -/
def hmacStart {κ} (H : Itf κ) (key pad : Nat) (R : Ram) (v : Byte) (keyLen : Nat) : Option (Ram × κ) :=
  (fill R pad v 64).bind fun R => (padLoop key pad R 0 keyLen).bind fun R => (H.init R).bind fun r =>
    H.update r.1 r.2 pad 64

/-- `cry_hmac_init` (src/crypt/hmac.c:6-36). -/
def hmacInit {κ} (H : Itf κ) (key pad : Nat) (R : Ram) (hashLen k klen : Nat) : Option (Ram × HmacC κ) :=
  (hmacKey H key R hashLen k klen).bind fun r =>
    (hmacStart H key pad r.1 0x36 r.2).map fun s => (s.1, ⟨s.2, hashLen, r.2⟩)

/-- `cry_hmac_digest` (src/crypt/hmac.c:43-63). -/
def hmacDigest {κ} (H : Itf κ) (key pad : Nat) (R : Ram) (c : HmacC κ) (mac : Nat) : Option (Ram × HmacC κ) :=
  (H.digest R c.hash mac).bind fun r => (H.clear r.1 r.2).bind fun r =>
    (hmacStart H key pad r.1 0x5c c.keyLen).bind fun r => (H.update r.1 r.2 mac c.hashLen).bind fun r =>
      (H.digest r.1 r.2 mac).bind fun r => (H.clear r.1 r.2).map fun r => (r.1, { c with hash := r.2 })

/-- `cry_hmac_init`, `cry_hmac_update` (src/crypt/hmac.c:38-41) with the given buffers, `cry_hmac_digest`. -/
def hmac {κ} (H : Itf κ) (key pad : Nat) (R : Ram) (hashLen k klen : Nat) (calls : List (Nat × Nat)) (mac : Nat) :
    Option Ram :=
  (hmacInit H key pad R hashLen k klen).bind fun r => (updates H r.1 r.2.hash calls).bind fun s =>
    (hmacDigest H key pad s.1 { r.2 with hash := s.2 } mac).map fun t => t.1

end Verif.RamHash
