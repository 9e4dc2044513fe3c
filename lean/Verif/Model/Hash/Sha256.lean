import Verif.Model.Bytes
import Verif.Model.Hash.Tables
import Verif.Spec.HashTypes
/-!
# Model of SHA-256 (src/hash/sha256.c)
-/
namespace Verif.Hash.Sha256
open Verif.HashS (Regs)

/-- `ROTRIGHT` (src/hash/sha256.c:6). -/
def rotr (a : BitVec 32) (b : Nat) : BitVec 32 := (a >>> b) ||| (a <<< (32 - b))
/-- `CH` (src/hash/sha256.c:8). -/
def CH (x y z : BitVec 32) : BitVec 32 := (x &&& y) ^^^ (~~~ x &&& z)
/-- `MAJ` (src/hash/sha256.c:9). -/
def MAJ (x y z : BitVec 32) : BitVec 32 := (x &&& y) ^^^ (x &&& z) ^^^ (y &&& z)
/-- `EP0` (src/hash/sha256.c:10). -/
def EP0 (x : BitVec 32) : BitVec 32 := rotr x 2 ^^^ rotr x 13 ^^^ rotr x 22
/-- `EP1` (src/hash/sha256.c:11). -/
def EP1 (x : BitVec 32) : BitVec 32 := rotr x 6 ^^^ rotr x 11 ^^^ rotr x 25
/-- `SIG0` (src/hash/sha256.c:12). -/
def SIG0 (x : BitVec 32) : BitVec 32 := rotr x 7 ^^^ rotr x 18 ^^^ (x >>> 3)
/-- `SIG1` (src/hash/sha256.c:13). -/
def SIG1 (x : BitVec 32) : BitVec 32 := rotr x 17 ^^^ rotr x 19 ^^^ (x >>> 10)

/-- The first loop of `cry_sha256_transform` (src/hash/sha256.c:40-41). -/
def load (data : List Byte) : List (BitVec 32) := (List.range 16).map fun i =>
  read32be (data.getD (4 * i) 0) (data.getD (4 * i + 1) 0) (data.getD (4 * i + 2) 0) (data.getD (4 * i + 3) 0)

/-- The second loop (src/hash/sha256.c:43-44), `n` turns left; `m` holds the entries written so far. -/
def extend : Nat → List (BitVec 32) → List (BitVec 32)
  | 0, m => m
  | n + 1, m =>
    let i := m.length
    extend n (m ++ [SIG1 (m.getD (i - 2) 0) + m.getD (i - 7) 0 + SIG0 (m.getD (i - 15) 0) + m.getD (i - 16) 0])

/-- The loop over the rounds (src/hash/sha256.c:55-66), `n` turns left. -/
def rounds (m : List (BitVec 32)) : Nat → Nat → Regs 32 → Regs 32
  | 0, _, r => r
  | n + 1, i, ⟨a, b, c, d, e, f, g, h⟩ =>
    let t1 := h + EP1 e + CH e f g + k256.getD i 0 + m.getD i 0
    let t2 := EP0 a + MAJ a b c
    rounds m n (i + 1) ⟨t1 + t2, a, b, c, d + t1, e, f, g⟩

/-- `cry_sha256_transform` (src/hash/sha256.c:34-76) on the chaining state. -/
def transform (s : Regs 32) (data : List Byte) : Regs 32 :=
  let m := extend 48 (load data)
  let r := rounds m 64 0 s
  ⟨s.a + r.a, s.b + r.b, s.c + r.c, s.d + r.d, s.e + r.e, s.f + r.f, s.g + r.g, s.h + r.h⟩

/-- `struct cry_sha256_ctx` (include/cry/sha256.h:16-21); `datalen` stays below 64, so it is a natural number. -/
structure Ctx where
  data : List Byte
  datalen : Nat
  bitlen : BitVec 64
  state : Regs 32

/-- `cry_sha256_init` (src/hash/sha256.c:78-90). -/
def init : Ctx := ⟨List.replicate 64 0, 0, 0,
  ⟨0x6a09e667, 0xbb67ae85, 0x3c6ef372, 0xa54ff53a, 0x510e527f, 0x9b05688c, 0x1f83d9ab, 0x5be0cd19⟩⟩

/-- `cry_sha256_update` (src/hash/sha256.c:97-111). -/
def update (c : Ctx) : List Byte → Ctx
  | [] => c
  | x :: d =>
    let data := c.data.set c.datalen x
    let n := c.datalen + 1
    if n = 64 then update ⟨data, 0, c.bitlen + 512, transform c.state data⟩ d
    else update ⟨data, n, c.bitlen, c.state⟩ d

/-- `cry_sha256_digest` (src/hash/sha256.c:113-153); the filling loops are written as lists. -/
def digest (c : Ctx) : List Byte :=
  let i := c.datalen
  let p : List Byte × Regs 32 :=
    if c.datalen < 56 then (c.data.take i ++ [0x80] ++ List.replicate (55 - i) 0 ++ c.data.drop 56, c.state)
    else
      let data := c.data.take i ++ [0x80] ++ List.replicate (63 - i) 0
      (List.replicate 56 0 ++ data.drop 56, transform c.state data)
  let bitlen := c.bitlen + BitVec.ofNat 64 (c.datalen * 8)
  let data := p.1.take 56 ++ write64be bitlen
  let s := transform p.2 data
  write32be s.a ++ write32be s.b ++ write32be s.c ++ write32be s.d ++ write32be s.e ++ write32be s.f ++
    write32be s.g ++ write32be s.h

/-- `cry_sha256` (src/hash/sha256.c:155-163). -/
def sha256 (data : List Byte) : List Byte := digest (update init data)

end Verif.Hash.Sha256
