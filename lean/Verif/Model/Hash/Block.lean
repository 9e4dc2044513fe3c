import Verif.Model.Bytes
/-!
# The buffering of SHA-1 and SHA-512

`cry_sha1_update` (src/hash/sha1.c:172-203) and `cry_sha512_update` (src/hash/sha512.c:163-195) are the same text with
another block size and another counter type, so they are modelled once: block size `B` and counters of `w` bits.
-/
namespace Verif.Hash.Blk

/-- `struct cry_sha1_ctx` (include/cry/sha1.h:14-18) and `struct cry_sha512_ctx` (include/cry/sha512.h:16-21). -/
structure Ctx (w : Nat) (σ : Type) where
  data : List Byte
  len0 : BitVec w
  len1 : BitVec w
  state : σ

/-- The loop over whole blocks (src/hash/sha1.c:195-199, src/hash/sha512.c:187-191); the first argument bounds the
number of turns: it is the number of bytes, and every turn takes some. -/
def whole {σ} (B : Nat) (process : σ → List Byte → σ) : Nat → σ → List Byte → σ × List Byte
  | 0, st, d => (st, d)
  | n + 1, st, d => if B ≤ d.length then whole B process n (process st (d.take B)) (d.drop B) else (st, d)

/-- `memcpy(data + at, d, len)`. -/
def copyTo (data : List Byte) (pos : Nat) (d : List Byte) : List Byte := data.take pos ++ d ++ data.drop (pos + d.length)

/-- `cry_sha1_update` (src/hash/sha1.c:172-203) with `B = 64`, `w = 32`, `cry_sha512_update`
(src/hash/sha512.c:163-195) with `B = 128`, `w = 64`; the masks `0x3F` and `0x7F` are `B - 1`.  The byte count is cut to
32 bits, as in the code. -/
def update {w σ} (B : Nat) (process : σ → List Byte → σ) (c : Ctx w σ) (d : List Byte) : Ctx w σ :=
  if d.length = 0 then c else
  let left := (c.len0 &&& BitVec.ofNat w (B - 1)).toNat
  let fill := B - left
  let l : BitVec w := BitVec.ofNat w (d.length % 2 ^ 32)
  let len0 := c.len0 + l
  let len1 := if len0 < l then c.len1 + 1 else c.len1
  if left ≠ 0 ∧ fill ≤ d.length then
    let data := copyTo c.data left (d.take fill)
    let p := whole B process d.length (process c.state data) (d.drop fill)
    ⟨if 0 < p.2.length then copyTo data 0 p.2 else data, len0, len1, p.1⟩
  else
    let p := whole B process d.length c.state d
    ⟨if 0 < p.2.length then copyTo c.data left p.2 else c.data, len0, len1, p.1⟩

end Verif.Hash.Blk
