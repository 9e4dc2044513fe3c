import Verif.Model.Ram.Core
/-!
# What a call may do to memory
-/
namespace Verif.Ram

/-- The address lies outside of the range of `n` bytes from `a` on. -/
def Outside (x a n : Nat) : Prop := x < a ∨ a + n ≤ x

/-- From `R` to `R'` the byte strings `ws` were written at their addresses, the ranges in `scratch` may hold anything, and
everything else is as it was. -/
structure Wrote (R R' : Ram) (ws : List (Nat × List Byte)) (scratch : List (Nat × Nat)) : Prop where
  own : R'.own = R.own
  tmp : R'.tmp = R.tmp
  at_ : ∀ w ∈ ws, R'.bytes w.1 w.2.length = w.2
  else_ : ∀ x, (∀ w ∈ ws, Outside x w.1 w.2.length) → (∀ r ∈ scratch, Outside x r.1 r.2) → R'.mem x = R.mem x

/-- The ranges are pairwise apart. -/
def AllApart (rs : List (Nat × Nat)) : Prop := rs.Pairwise fun p q => Apart p.1 p.2 q.1 q.2

/-- All the ranges may be accessed. -/
def AllOwned (R : Ram) (rs : List (Nat × Nat)) : Prop := ∀ p ∈ rs, R.Owned p.1 p.2

end Verif.Ram
