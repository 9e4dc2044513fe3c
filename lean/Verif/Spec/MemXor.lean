import Verif.Model.MemXor
/-
Specification of the two xor routines: pointwise xor of the *old* contents,
nothing else changes.
-/
namespace Verif.MemXor.Spec

/-- `m'` results from `m` by writing `old s1 xor old s2` into `[dst, dst+n)`, and
may differ otherwise only on the scratch set `T`. -/
def XorInto (m m' : Nat → BitVec 8) (dst s1 s2 n : Nat) (T : Nat → Prop) : Prop :=
  (∀ i, i < n → m' (dst + i) = m (s1 + i) ^^^ m (s2 + i)) ∧
  (∀ x, (x < dst ∨ dst + n ≤ x) → ¬ T x → m' x = m x)

/-- Two blocks of `n` bytes do not overlap. -/
def Disjoint (a b n : Nat) : Prop := a + n ≤ b ∨ b + n ≤ a

end Verif.MemXor.Spec
