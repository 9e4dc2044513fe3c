import Verif.Model.MemXor
/-!
# Byte memory with bounds

The block cipher modes and stream ciphers are modelled once more with their buffers in one flat memory, so that the
placement of the buffers (in place, overlapping, adjacent) and every access outside a buffer matter.  An address is a
natural number; address wrap-around is not modelled.  `none` is undefined behaviour.
-/
namespace Verif.Ram

/-- Memory: the addresses that belong to a live object, the bytes, and the outcomes of the `malloc` calls inside
`cry_memxor2` (see `Verif.MemXor.memxor2`). -/
structure Ram where
  own : Nat → Bool
  mem : Nat → Byte
  tmp : List (Option Nat) := []

/-- The `n` bytes from `a` on may be accessed. -/
def Ram.Owned (R : Ram) (a n : Nat) : Prop := ∀ i < n, R.own (a + i) = true

instance (R : Ram) (a n : Nat) : Decidable (R.Owned a n) := inferInstanceAs (Decidable (∀ i < n, _))

/-- The `n` bytes from `a` on. -/
def Ram.bytes (R : Ram) (a n : Nat) : List Byte := (List.range n).map fun i => R.mem (a + i)

/-- The memory with `l` written from `a` on. -/
def Ram.put (R : Ram) (a : Nat) (l : List Byte) : Ram :=
  { R with mem := fun x => if a ≤ x then (l[x - a]?).getD (R.mem x) else R.mem x }

/-- The ranges of `n` bytes from `a` on and of `k` bytes from `b` on have no byte in common. -/
def Apart (a n b k : Nat) : Prop := a + n ≤ b ∨ b + k ≤ a

instance (a n b k : Nat) : Decidable (Apart a n b k) := inferInstanceAs (Decidable (_ ∨ _))

/-- `memcpy(d, s, n)`: undefined when the ranges overlap. -/
def memcpy (R : Ram) (d s n : Nat) : Option Ram :=
  if R.Owned s n ∧ R.Owned d n ∧ Apart d n s n then some (R.put d (R.bytes s n)) else none

/-- `cry_memxor(d, s, n)` (src/crypt/memxor.c:103-115). -/
def xor1 (R : Ram) (d s n : Nat) : Option Ram :=
  if R.Owned s n ∧ R.Owned d n then some { R with mem := MemXor.memxor R.mem d s n } else none

/-- `cry_memxor2(d, s1, s2, n)` (src/crypt/memxor.c:52-101). -/
def xor2 (R : Ram) (d s1 s2 n : Nat) : Option Ram :=
  if R.Owned s1 n ∧ R.Owned s2 n ∧ R.Owned d n then some { R with mem := MemXor.memxor2 R.tmp R.mem d s1 s2 n }
  else none

/-- A call `encrypt(ciph, d, s, k * c)` or `decrypt(…)` through the cipher interface (src/crypt/aes.c:411-459, 461-509,
src/crypt/des.c:303-333): each of the `k` blocks is read completely before it is written.  `F` is the cipher on blocks
of `c` bytes.  The cipher context is not part of the memory. -/
def cipher (F : List Byte → List Byte) (c : Nat) : Nat → Ram → Nat → Nat → Option Ram
  | 0, R, _, _ => some R
  | k + 1, R, d, s =>
    if R.Owned s c ∧ R.Owned d c then cipher F c k (R.put d (F (R.bytes s c))) (d + c) (s + c) else none

/-- `*d = v`. -/
def store (R : Ram) (d : Nat) (v : Byte) : Option Ram := if R.own d then some (R.put d [v]) else none

/-- `*s`. -/
def load (R : Ram) (s : Nat) : Option Byte := if R.own s then some (R.mem s) else none

end Verif.Ram
