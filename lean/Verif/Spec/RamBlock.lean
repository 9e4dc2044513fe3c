import Verif.Spec.Ram
/-! Encrypting block after block from one place in memory to another. -/
namespace Verif.Ram

/-- Each of the `k` blocks of `c` bytes from `d` on stands in relation `P` to the block of the memory before at the same position from
`s` on; all other bytes are as before. -/
structure Blocks (P : List Byte → List Byte → Prop) (c k : Nat) (R R' : Ram) (d s : Nat) : Prop where
  own : R'.own = R.own
  tmp : R'.tmp = R.tmp
  block : ∀ i < k, P (R.bytes (s + c * i) c) (R'.bytes (d + c * i) c)
  else_ : ∀ x, Outside x d (c * k) → R'.mem x = R.mem x

end Verif.Ram
