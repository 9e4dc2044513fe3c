import Verif.Model.Hash.Block
import Verif.Spec.HashTypes
/-!
# Model of SHA-1 (src/hash/sha1.c)
-/
namespace Verif.Hash.Sha1
open Verif.HashS (Regs5)

/-- `CRY_ROTL32` (src/misc.h:142-143, 149). -/
def rotl (a : BitVec 32) (b : Nat) : BitVec 32 := (a <<< b) ||| (a >>> (32 - b))

/-- The macro `R(t)` (src/hash/sha1.c:6-11): the changed window and the word. -/
def R (W : List (BitVec 32)) (t : Nat) : List (BitVec 32) × BitVec 32 :=
  let tmp := W.getD ((t - 3) &&& 0x0F) 0 ^^^ W.getD ((t - 8) &&& 0x0F) 0 ^^^ W.getD ((t - 14) &&& 0x0F) 0 ^^^
    W.getD (t &&& 0x0F) 0
  (W.set (t &&& 0x0F) (rotl tmp 1), rotl tmp 1)

/-- The last argument of line `t` of the rounds: `W[t]` for the first sixteen, then `R(t)` (src/hash/sha1.c:48-142). -/
def arg (W : List (BitVec 32)) (t : Nat) : List (BitVec 32) × BitVec 32 :=
  if t < 16 then (W, W.getD t 0) else R W t

/-- The macro `P` (src/hash/sha1.c:13-16): the new `e` and `b`. -/
def P (F : BitVec 32 → BitVec 32 → BitVec 32 → BitVec 32) (K a b c d e x : BitVec 32) : BitVec 32 × BitVec 32 :=
  (e + (rotl a 5 + F b c d + K + x), rotl b 30)

/-- Five consecutive lines, after which the variables have their old places (src/hash/sha1.c:48-142). -/
def five (F : BitVec 32 → BitVec 32 → BitVec 32 → BitVec 32) (K : BitVec 32) (t : Nat) (W : List (BitVec 32)) :
    Regs5 → List (BitVec 32) × Regs5
  | ⟨A, B, C, D, E⟩ =>
    let x := arg W t
    let p := P F K A B C D E x.2
    let E := p.1; let B := p.2
    let x := arg x.1 (t + 1)
    let p := P F K E A B C D x.2
    let D := p.1; let A := p.2
    let x := arg x.1 (t + 2)
    let p := P F K D E A B C x.2
    let C := p.1; let E := p.2
    let x := arg x.1 (t + 3)
    let p := P F K C D E A B x.2
    let B := p.1; let D := p.2
    let x := arg x.1 (t + 4)
    let p := P F K B C D E A x.2
    let A := p.1; let C := p.2
    (x.1, ⟨A, B, C, D, E⟩)

/-- Twenty lines with the same `F` and `K`. -/
def twenty (F : BitVec 32 → BitVec 32 → BitVec 32 → BitVec 32) (K : BitVec 32) (t : Nat)
    (s : List (BitVec 32) × Regs5) : List (BitVec 32) × Regs5 :=
  let s := five F K t s.1 s.2
  let s := five F K (t + 5) s.1 s.2
  let s := five F K (t + 10) s.1 s.2
  five F K (t + 15) s.1 s.2

/-- `cry_sha1_process` (src/hash/sha1.c:19-151). -/
def process (st : Regs5) (data : List Byte) : Regs5 :=
  let W := (List.range 16).map fun i =>
    read32be (data.getD (4 * i) 0) (data.getD (4 * i + 1) 0) (data.getD (4 * i + 2) 0) (data.getD (4 * i + 3) 0)
  let s := twenty (fun x y z => z ^^^ (x &&& (y ^^^ z))) 0x5A827999#32 0 (W, st)
  let s := twenty (fun x y z => x ^^^ y ^^^ z) 0x6ED9EBA1#32 20 s
  let s := twenty (fun x y z => (x &&& y) ||| (z &&& (x ||| y))) 0x8F1BBCDC#32 40 s
  let s := twenty (fun x y z => x ^^^ y ^^^ z) 0xCA62C1D6#32 60 s
  ⟨st.a + s.2.a, st.b + s.2.b, st.c + s.2.c, st.d + s.2.d, st.e + s.2.e⟩

abbrev Ctx := Blk.Ctx 32 Regs5

/-- `cry_sha1_init` (src/hash/sha1.c:154-163). -/
def init : Ctx := ⟨List.replicate 64 0, 0, 0, ⟨0x67452301, 0xEFCDAB89, 0x98BADCFE, 0x10325476, 0xC3D2E1F0⟩⟩

/-- `cry_sha1_update` (src/hash/sha1.c:172-203). -/
def update (c : Ctx) (d : List Byte) : Ctx := Blk.update 64 process c d

/-- `cry_sha1_digest` (src/hash/sha1.c:206-233). -/
def digest (c : Ctx) : List Byte :=
  let hi := (c.len0 >>> 29) ||| (c.len1 <<< 3)
  let lo := c.len0 <<< 3
  let msglen := write32be hi ++ write32be lo
  let last := (c.len0 &&& 0x3F#32).toNat
  let padlen := if last < 56 then 56 - last else 120 - last
  let pad := 0x80#8 :: List.replicate 63 0
  let c := update c (pad.take padlen)
  let c := update c msglen
  write32be c.state.a ++ write32be c.state.b ++ write32be c.state.c ++ write32be c.state.d ++ write32be c.state.e

/-- `cry_sha1` (src/hash/sha1.c:236-244). -/
def sha1 (data : List Byte) : List Byte := digest (update init data)

end Verif.Hash.Sha1
