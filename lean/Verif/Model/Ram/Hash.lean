import Verif.Model.Ram.Core
import Verif.Model.Hash.Md5
import Verif.Model.Hash.Sha1
import Verif.Model.Hash.Sha256
import Verif.Model.Hash.Sha512
/-!
# Hash functions on buffers in memory (src/hash/*.c)

The message, the digest, the member `data` of the context and the local arrays whose address is passed on lie in the flat
memory; `dat` is the address of the member `data`.  The other members of the context (counters and state) and the local
variables of the compression functions do not lie in it.  An access to `data` outside of the array is undefined even where
the memory beyond it may be accessed.
-/
namespace Verif.RamHash
open Verif.Ram Verif.Hash
open Verif.HashS (Regs Regs4 Regs5)

/-- `memset(p, v, n)`, also `cry_memset` (src/misc.h:174-179) and the initialisation of an array. -/
def fill (R : Ram) (p : Nat) (v : Byte) (n : Nat) : Option Ram :=
  if R.Owned p n then some (R.put p (List.replicate n v)) else none

/-- Stores of several bytes one after the other that do not depend on the memory: the macros `CRY_WRITE32_BE`,
`CRY_WRITE64_BE` (src/misc.h:66-71, 100-109) and the loops writing the digest (src/hash/sha256.c:143-152,
src/hash/md5.c:226-231), whose order does not matter. -/
def stores (R : Ram) (p : Nat) (l : List Byte) : Option Ram := if R.Owned p l.length then some (R.put p l) else none

/-- `memcpy(data + i, p, n)` into the array `data` of `B` bytes. -/
def copyIn (B dat : Nat) (R : Ram) (i p n : Nat) : Option Ram := if i + n ≤ B then memcpy R (dat + i) p n else none

/-- `data[i] = v` in the array `data` of `B` bytes. -/
def storeIn (B dat : Nat) (R : Ram) (i : Nat) (v : Byte) : Option Ram := if i < B then store R (dat + i) v else none

/-- `cry_sha1_process(ctx, p)` (src/hash/sha1.c:19-151), `sha512_process(ctx, p)` (src/hash/sha512.c:76-125),
`cry_sha256_transform(ctx, p)` (src/hash/sha256.c:34-76): the `B` bytes at `p` are read before the state changes. -/
def proc {σ} (f : σ → List Byte → σ) (B : Nat) (R : Ram) (st : σ) (p : Nat) : Option σ :=
  if R.Owned p B then some (f st (R.bytes p B)) else none

/-! ### SHA-1 and SHA-512 -/

/-- The counters and the state of `struct cry_sha1_ctx` (include/cry/sha1.h:14-18) and `struct cry_sha512_ctx`
(include/cry/sha512.h:16-21). -/
structure Fields (w : Nat) (σ : Type) where
  len0 : BitVec w
  len1 : BitVec w
  state : σ

/-- The loop over whole blocks (src/hash/sha1.c:195-199, src/hash/sha512.c:187-191): state, pointer and bytes left.  The
blocks are read where the caller has them.  The first argument bounds the number of turns as in `Blk.whole`. -/
def whole {σ} (f : σ → List Byte → σ) (B : Nat) (R : Ram) : Nat → σ → Nat → Nat → Option (σ × Nat × Nat)
  | 0, st, p, len => some (st, p, len)
  | n + 1, st, p, len =>
    if B ≤ len then (proc f B R st p).bind fun st => whole f B R n st (p + B) (len - B) else some (st, p, len)

/-- The end of the update (src/hash/sha1.c:195-202, src/hash/sha512.c:187-194). -/
def tail {σ} (f : σ → List Byte → σ) (B dat : Nat) (R : Ram) (n : Nat) (st : σ) (left p len : Nat) : Option (Ram × σ) :=
  (whole f B R n st p len).bind fun r =>
    (if 0 < r.2.2 then copyIn B dat R left r.2.1 r.2.2 else some R).map fun R => (R, r.1)

/-- `cry_sha1_update` (src/hash/sha1.c:172-203) with `B = 64`, `w = 32`, `cry_sha512_update`
(src/hash/sha512.c:163-195) with `B = 128`, `w = 64`. -/
def update {w σ} (B : Nat) (f : σ → List Byte → σ) (dat : Nat) (R : Ram) (c : Fields w σ) (p len : Nat) :
    Option (Ram × Fields w σ) :=
  if len = 0 then some (R, c) else
  let left := (c.len0 &&& BitVec.ofNat w (B - 1)).toNat
  let fill := B - left
  let l : BitVec w := BitVec.ofNat w (len % 2 ^ 32)
  let len0 := c.len0 + l
  let len1 := if len0 < l then c.len1 + 1 else c.len1
  if left ≠ 0 ∧ fill ≤ len then
    (copyIn B dat R left p fill).bind fun R =>
    (proc f B R c.state dat).bind fun st =>
    (tail f B dat R len st 0 (p + fill) (len - fill)).map fun r => (r.1, ⟨len0, len1, r.2⟩)
  else
    (tail f B dat R len c.state left p len).map fun r => (r.1, ⟨len0, len1, r.2⟩)

/-- `cry_sha1_init` (src/hash/sha1.c:154-163). -/
def sha1Init (dat : Nat) (R : Ram) : Option (Ram × Fields 32 Regs5) :=
  (fill R dat 0 64).map fun R => (R, ⟨0, 0, ⟨0x67452301, 0xEFCDAB89, 0x98BADCFE, 0x10325476, 0xC3D2E1F0⟩⟩)

/-- `cry_sha1_clear` (src/hash/sha1.c:166-169). -/
def sha1Clear (dat : Nat) (R : Ram) (_ : Fields 32 Regs5) : Option (Ram × Fields 32 Regs5) :=
  (fill R dat 0 64).map fun R => (R, ⟨0, 0, ⟨0, 0, 0, 0, 0⟩⟩)

/-- `cry_sha1_digest` (src/hash/sha1.c:206-233); the local arrays `pad` and `msglen` lie at `pad` and `msg`. -/
def sha1Digest (dat pad msg : Nat) (R : Ram) (c : Fields 32 Regs5) (out : Nat) : Option (Ram × Fields 32 Regs5) :=
  (fill R pad 0 64).bind fun R =>
  let hi := (c.len0 >>> 29) ||| (c.len1 <<< 3)
  let lo := c.len0 <<< 3
  (stores R msg (write32be hi)).bind fun R =>
  (stores R (msg + 4) (write32be lo)).bind fun R =>
  let last := (c.len0 &&& 0x3F#32).toNat
  let padlen := if last < 56 then 56 - last else 120 - last
  (store R pad 0x80).bind fun R =>
  (update 64 Sha1.process dat R c pad padlen).bind fun r =>
  (update 64 Sha1.process dat r.1 r.2 msg 8).bind fun r =>
  (stores r.1 out (write32be r.2.state.a ++ write32be r.2.state.b ++ write32be r.2.state.c ++ write32be r.2.state.d ++
    write32be r.2.state.e)).map fun R => (R, r.2)

/-- `cry_sha512_init` (src/hash/sha512.c:128-156). -/
def sha512Init (is384 : Bool) (dat : Nat) (R : Ram) : Option (Ram × Fields 64 (Regs 64)) :=
  (fill R dat 0 128).map fun R => (R, ⟨0, 0, (Sha512.init is384).state⟩)

/-- `cry_sha512_clear` (src/hash/sha512.c:158-161). -/
def sha512Clear (dat : Nat) (R : Ram) (_ : Fields 64 (Regs 64)) : Option (Ram × Fields 64 (Regs 64)) :=
  (fill R dat 0 128).map fun R => (R, ⟨0, 0, ⟨0, 0, 0, 0, 0, 0, 0, 0⟩⟩)

/-- `cry_sha512_digest` (src/hash/sha512.c:197-229); the local arrays `pad` and `msglen` lie at `pad` and `msg`. -/
def sha512Digest (is384 : Bool) (dat pad msg : Nat) (R : Ram) (c : Fields 64 (Regs 64)) (out : Nat) :
    Option (Ram × Fields 64 (Regs 64)) :=
  (fill R pad 0 128).bind fun R =>
  let hi := (c.len0 >>> 61) ||| (c.len1 <<< 3)
  let lo := c.len0 <<< 3
  (stores R msg (write64be hi)).bind fun R =>
  (stores R (msg + 8) (write64be lo)).bind fun R =>
  let last := (c.len0 &&& 0x7F#64).toNat
  let padlen := if last < 112 then 112 - last else 128 - last
  (store R pad 0x80).bind fun R =>
  (update 128 Sha512.process dat R c pad padlen).bind fun r =>
  (update 128 Sha512.process dat r.1 r.2 msg 16).bind fun r =>
  let s := r.2.state
  (stores r.1 out (write64be s.a ++ write64be s.b ++ write64be s.c ++ write64be s.d ++ write64be s.e ++
    write64be s.f)).bind fun R =>
  (if is384 = false then stores R (out + 48) (write64be s.g ++ write64be s.h) else some R).map fun R => (R, r.2)

/-! ### SHA-256 -/

/-- `datalen`, `bitlen` and `state` of `struct cry_sha256_ctx` (include/cry/sha256.h:16-21). -/
structure Fields256 where
  datalen : Nat
  bitlen : BitVec 64
  state : Regs 32

/-- `cry_sha256_init` (src/hash/sha256.c:78-90). -/
def sha256Init (dat : Nat) (R : Ram) : Option (Ram × Fields256) :=
  (fill R dat 0 64).map fun R => (R, ⟨0, 0,
    ⟨0x6a09e667, 0xbb67ae85, 0x3c6ef372, 0xa54ff53a, 0x510e527f, 0x9b05688c, 0x1f83d9ab, 0x5be0cd19⟩⟩)

/-- `cry_sha256_clear` (src/hash/sha256.c:92-95). -/
def sha256Clear (dat : Nat) (R : Ram) (_ : Fields256) : Option (Ram × Fields256) :=
  (fill R dat 0 64).map fun R => (R, ⟨0, 0, ⟨0, 0, 0, 0, 0, 0, 0, 0⟩⟩)

/-- `cry_sha256_update` (src/hash/sha256.c:97-111): `size` turns. -/
def sha256Update (dat : Nat) (R : Ram) (c : Fields256) (p : Nat) : Nat → Option (Ram × Fields256)
  | 0 => some (R, c)
  | n + 1 =>
    (load R p).bind fun x =>
    (storeIn 64 dat R c.datalen x).bind fun R =>
    if c.datalen + 1 = 64 then
      (proc Sha256.transform 64 R c.state dat).bind fun st => sha256Update dat R ⟨0, c.bitlen + 512, st⟩ (p + 1) n
    else sha256Update dat R ⟨c.datalen + 1, c.bitlen, c.state⟩ (p + 1) n

/-- `while (i < m) ctx->data[i++] = 0x00` (src/hash/sha256.c:120-121, 124-125), `n` turns left. -/
def zeros (dat : Nat) (R : Ram) (i : Nat) : Nat → Option Ram
  | 0 => some R
  | n + 1 => (storeIn 64 dat R i 0).bind fun R => zeros dat R (i + 1) n

/-- `cry_sha256_digest` (src/hash/sha256.c:113-153). -/
def sha256Digest (dat : Nat) (R : Ram) (c : Fields256) (out : Nat) : Option (Ram × Fields256) :=
  (if c.datalen < 56 then
    (storeIn 64 dat R c.datalen 0x80).bind fun R =>
    (zeros dat R (c.datalen + 1) (56 - (c.datalen + 1))).map fun R => (R, c.state)
  else
    (storeIn 64 dat R c.datalen 0x80).bind fun R =>
    (zeros dat R (c.datalen + 1) (64 - (c.datalen + 1))).bind fun R =>
    (proc Sha256.transform 64 R c.state dat).bind fun st =>
    (fill R dat 0 56).map fun R => (R, st)).bind fun r =>
  let bitlen := c.bitlen + BitVec.ofNat 64 (c.datalen * 8)
  (stores r.1 (dat + 56) (write64be bitlen)).bind fun R =>
  (proc Sha256.transform 64 R r.2 dat).bind fun s =>
  (stores R out (write32be s.a ++ write32be s.b ++ write32be s.c ++ write32be s.d ++ write32be s.e ++ write32be s.f ++
    write32be s.g ++ write32be s.h)).map fun R => (R, ⟨c.datalen, bitlen, s⟩)

/-! ### MD5 -/

/-- `cry_md5_init` (src/hash/md5.c:145-153). -/
def md5Init (dat : Nat) (R : Ram) : Option (Ram × Fields 32 Regs4) :=
  (fill R dat 0 64).map fun R => (R, ⟨0, 0, ⟨0x67452301, 0xefcdab89, 0x98badcfe, 0x10325476⟩⟩)

/-- `cry_md5_clear` (src/hash/md5.c:156-159). -/
def md5Clear (dat : Nat) (R : Ram) (_ : Fields 32 Regs4) : Option (Ram × Fields 32 Regs4) :=
  (fill R dat 0 64).map fun R => (R, ⟨0, 0, ⟨0, 0, 0, 0⟩⟩)

/-- The loop that reads the first `n` words of `data` (src/hash/md5.c:184-189, 216-221). -/
def md5Words (dat : Nat) (R : Ram) (n : Nat) : Option (List (BitVec 32)) :=
  if R.Owned dat (4 * n) ∧ 4 * n ≤ 64 then some ((List.range n).map fun i =>
    read32le (R.mem (dat + 4 * i)) (R.mem (dat + (4 * i + 1))) (R.mem (dat + (4 * i + 2))) (R.mem (dat + (4 * i + 3))))
  else none

/-- The loop of `cry_md5_update` (src/hash/md5.c:178-193), `size` turns. -/
def md5Feed (dat : Nat) (R : Ram) (mdi : Nat) (st : Regs4) (p : Nat) : Nat → Option (Ram × Regs4)
  | 0 => some (R, st)
  | n + 1 =>
    (load R p).bind fun x =>
    (storeIn 64 dat R mdi x).bind fun R =>
    if mdi + 1 = 0x40 then (md5Words dat R 16).bind fun inp => md5Feed dat R 0 (Md5.process st inp) (p + 1) n
    else md5Feed dat R (mdi + 1) st (p + 1) n

/-- `cry_md5_update` (src/hash/md5.c:162-194). -/
def md5Update (dat : Nat) (R : Ram) (c : Fields 32 Regs4) (p len : Nat) : Option (Ram × Fields 32 Regs4) :=
  let mdi := ((c.len0 >>> 3) &&& 0x3F#32).toNat
  let size := BitVec.ofNat 32 len
  let len1 := if c.len0 + (size <<< 3) < c.len0 then c.len1 + 1 else c.len1
  let len0 := c.len0 + (size <<< 3)
  let len1 := len1 + (size >>> 29)
  (md5Feed dat R mdi c.state p len).map fun r => (r.1, ⟨len0, len1, r.2⟩)

/-- `cry_md5_digest` (src/hash/md5.c:197-232); the local array `pad` lies at `pad`. -/
def md5Digest (dat pad : Nat) (R : Ram) (c : Fields 32 Regs4) (out : Nat) : Option (Ram × Fields 32 Regs4) :=
  (fill R pad 0 64).bind fun R =>
  let mdi := ((c.len0 >>> 3) &&& 0x3F#32).toNat
  let padlen := if mdi < 56 then 56 - mdi else 120 - mdi
  (store R pad 0x80).bind fun R =>
  (md5Update dat R c pad padlen).bind fun r =>
  (md5Words dat r.1 14).bind fun inp =>
  let s := Md5.process r.2.state (inp ++ [c.len0, c.len1])
  (stores r.1 out (write32le s.a ++ write32le s.b ++ write32le s.c ++ write32le s.d)).map fun R =>
    (R, { r.2 with state := s })

/-! ### The interface -/

/-- `struct cry_hash_itf` (include/cry/hash.h:54-59) on a context whose array `data` lies in memory, `κ` being the rest. -/
structure Itf (κ : Type) where
  init : Ram → Option (Ram × κ)
  update : Ram → κ → Nat → Nat → Option (Ram × κ)
  digest : Ram → κ → Nat → Option (Ram × κ)
  clear : Ram → κ → Option (Ram × κ)

def sha1Itf (dat pad msg : Nat) : Itf (Fields 32 Regs5) :=
  ⟨sha1Init dat, update 64 Sha1.process dat, sha1Digest dat pad msg, sha1Clear dat⟩
def sha512Itf (is384 : Bool) (dat pad msg : Nat) : Itf (Fields 64 (Regs 64)) :=
  ⟨sha512Init is384 dat, update 128 Sha512.process dat, sha512Digest is384 dat pad msg, sha512Clear dat⟩
def sha256Itf (dat : Nat) : Itf Fields256 :=
  ⟨sha256Init dat, fun R c p n => sha256Update dat R c p n, sha256Digest dat, sha256Clear dat⟩
def md5Itf (dat pad : Nat) : Itf (Fields 32 Regs4) := ⟨md5Init dat, md5Update dat, md5Digest dat pad, md5Clear dat⟩

/-- The updates with the given buffers. -/
def updates {κ} (H : Itf κ) (R : Ram) (c : κ) : List (Nat × Nat) → Option (Ram × κ)
  | [] => some (R, c)
  | q :: qs => (H.update R c q.1 q.2).bind fun r => updates H r.1 r.2 qs

/-- Initialise, update with the given buffers, digest, clear.  With one buffer these are `cry_sha1`
(src/hash/sha1.c:236-244), `cry_sha256` (src/hash/sha256.c:155-163), `cry_sha512` and `cry_sha384`
(src/hash/sha512.c:231-249) and `cry_md5` (src/hash/md5.c:235-243). -/
def hash {κ} (H : Itf κ) (R : Ram) (calls : List (Nat × Nat)) (out : Nat) : Option Ram :=
  (H.init R).bind fun r => (updates H r.1 r.2 calls).bind fun r => (H.digest r.1 r.2 out).bind fun r =>
    (H.clear r.1 r.2).map fun r => r.1

end Verif.RamHash
