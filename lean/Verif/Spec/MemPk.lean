import Verif.Spec.MemEcp
import Verif.Spec.Bytes
import Mathlib.Data.Nat.Size
/-! Vocabulary for the statements on public-key functions in memory. -/
namespace Verif.Mem
open Verif.Mpi

/-- The number a message stands for when signed with a modulus `n`: its first bytes, as many as the digits of `n` have. -/
def cutVal (w n : Nat) (msg : List Byte) : Nat := beVal (msg.take ((n.size + w - 1) / w * (w / 8)))

/-- No allocation fails. -/
def Plenty (s : St) : Prop := ∀ k, s.fails k = false

/-- Domain parameters at `g`: a curve over a prime field with a base point, in standard form, of odd prime order `n`. -/
structure DomainAt (w p : Nat) (a b : ZMod p) [Fact p.Prime] (s : St) (g : Nat) (G : (Ecp.curve p a b).Point) (n : Nat) : Prop where
  grp : GroupAt w p a b s g
  base : PointAt w s (g + 3) G
  red : StdAt p w s (g + 3)
  ord : (s.obj (g + 6)).Shows w n
  prime : n.Prime
  odd : n ≠ 2
  order : addOrderOf G = n

/-- The number `cry_mpi_rand_range` makes from the bytes of the generator. -/
def rangeVal (M : Nat) (bs : List Byte) : Nat := (beVal bs % 2 ^ (M.size - 1) + 2 ^ (M.size - 1)) % M

/-- What verification compares. -/
def ElgamalEq (P : Nat) (G Y : Int) (R S Z : Nat) : Prop := Y ^ R * (R : Int) ^ S ≡ G ^ Z [ZMOD P]

/-- The secret number: the first one without common divisor with `T`, or else the last. -/
def nonce (T : Nat) : List (List Byte) → Nat
  | [] => 0
  | [bs] => rangeVal T bs
  | bs :: bss => if Nat.gcd (rangeVal T bs) T = 1 then rangeVal T bs else nonce T bss

end Verif.Mem
