import Verif.Spec.Ram
/-!
# Where GCM may write its output
-/
namespace Verif.Ram

/-- The output of `n` bytes at `d` is on the input at `s`, at least a block before it, or behind it; or there is no whole block. -/
def GcmPlace (d s n : Nat) : Prop := d = s ∨ d + 16 ≤ s ∨ s + n ≤ d ∨ n < 16

/-- The range of `n` bytes from `a` on may be accessed and has no byte in common with the given ranges. -/
def Usable (R : Ram) (rs : List (Nat × Nat)) (a n : Nat) : Prop := R.Owned a n ∧ ∀ r ∈ rs, Apart r.1 r.2 a n

end Verif.Ram
