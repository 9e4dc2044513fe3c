/-! Trivium, bit by bit, as its authors define it. -/
namespace Verif.TriviumS

/-- The 288 bits `s1 .. s288` in three shift registers; `s1` is bit 0 of `a`, `s94` bit 0 of `b`, `s178` bit 0 of `c`. -/
structure St where
  a : BitVec 93
  b : BitVec 84
  c : BitVec 111

/-- The bit `s_k`. -/
def St.s (t : St) (k : Nat) : Bool :=
  if k ≤ 93 then t.a.getLsbD (k - 1) else if k ≤ 177 then t.b.getLsbD (k - 94) else t.c.getLsbD (k - 178)

/-- The key stream bit of a state. -/
def St.z (t : St) : Bool := (t.s 66 ^^ t.s 93) ^^ (t.s 162 ^^ t.s 177) ^^ (t.s 243 ^^ t.s 288)

/-- One step. -/
def St.step (t : St) : St :=
  let t1 := t.s 66 ^^ (t.s 91 && t.s 92) ^^ t.s 93 ^^ t.s 171
  let t2 := t.s 162 ^^ (t.s 175 && t.s 176) ^^ t.s 177 ^^ t.s 264
  let t3 := t.s 243 ^^ (t.s 286 && t.s 287) ^^ t.s 288 ^^ t.s 69
  ⟨(t.a.concat t3).setWidth 93, (t.b.concat t1).setWidth 84, (t.c.concat t2).setWidth 111⟩

/-- Bit `i` of a sequence of bytes, the lowest bit of a byte first; zeros after the end. -/
def bit (l : List (BitVec 8)) (i : Nat) : Bool := (l.getD (i / 8) 0).getLsbD (i % 8)

/-- The bit vector with the given bits. -/
def ofBits : (n : Nat) → (Nat → Bool) → BitVec n
  | 0, _ => 0
  | n + 1, f => (ofBits n fun i => f (i + 1)).concat (f 0)

/-- The state after `n` steps. -/
def St.steps (t : St) : Nat → St
  | 0 => t
  | n + 1 => (t.steps n).step

/-- `(s1..s93) = (key, 0..)`, `(s94..s177) = (iv, 0..)`, `(s178..s288) = (0.., 1, 1, 1)`. -/
def start (key iv : List (BitVec 8)) : St :=
  ⟨ofBits 93 fun i => if i < 80 then bit key i else false,
   ofBits 84 fun i => if i < 80 then bit iv i else false,
   ofBits 111 fun i => decide (108 ≤ i)⟩

/-- The state after the 4 * 288 blank steps. -/
def init (key iv : List (BitVec 8)) : St := (start key iv).steps 1152

/-- Key stream byte `m` from a state.  The key stream is produced in words of 32 bits, the first bit being the highest of the
word; the words are stored lowest byte first. -/
def byte (t : St) (m : Nat) : BitVec 8 :=
  ofBits 8 fun i => (t.steps (32 * (m / 4) + (31 - (8 * (m % 4) + i)))).z

end Verif.TriviumS
