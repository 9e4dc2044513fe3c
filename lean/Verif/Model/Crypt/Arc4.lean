import Verif.Model.MemXor
/-!
# Model of ARC4 (src/crypt/arc4.c)
-/
namespace Verif.Arc4

structure Ctx where
  s : List Byte
  x : Byte
  y : Byte
deriving DecidableEq

/-- `s[i]` for a byte index; the table has 256 entries (`arc4_permutation`), so the default is never used. -/
def at8 (s : List Byte) (i : Byte) : Byte := s.getD i.toNat 0

/-- The mixing loop of `cry_arc4_key_set` (src/crypt/arc4.c:30-38), `n` turns left, `i` turns done. -/
def keyLoop (key : List Byte) : Nat → Nat → Byte → Nat → List Byte → List Byte
  | 0, _, _, _, s => s
  | n + 1, i, j, k, s =>
    let a := s.getD i 0
    let j := j + a + key.getD k 0
    let s := s.set i (at8 s j)
    let s := s.set j.toNat a
    let k := k + 1
    keyLoop key n (i + 1) j (if k = key.length then 0 else k) s

/-- `cry_arc4_key_set` (src/crypt/arc4.c:16-39); an empty key is read out of bounds. -/
def keySet (key : List Byte) : Option Ctx :=
  if key = [] then none
  else some ⟨keyLoop key 256 0 0 0 ((List.range 256).map (BitVec.ofNat 8)), 0, 0⟩

/-- `cry_arc4_crypt` (src/crypt/arc4.c:41-63): the bytes written and the context; each byte is read before it
is written, so `dst` may be `src`. -/
def crypt (c : Ctx) : List Byte → List Byte × Ctx
  | [] => ([], c)
  | v :: src =>
    let x := c.x + 1
    let a := at8 c.s x
    let y := c.y + a
    let b := at8 c.s y
    let s := (c.s.set x.toNat b).set y.toNat a
    let r := crypt ⟨s, x, y⟩ src
    ((v ^^^ at8 s (a + b)) :: r.1, r.2)

end Verif.Arc4
