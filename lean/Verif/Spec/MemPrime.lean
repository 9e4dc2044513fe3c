import Verif.Spec.MemPk
import Verif.Model.Mpi.PrimeGen
import Mathlib.Data.Nat.Prime.Basic
/-! Vocabulary for the statements on the primality test in memory. -/
namespace Verif.Mem

/-- One turn of the Miller-Rabin test accepts `n` with the base `a`.  (The code looks at one power more than the usual test, `i = b`;
for odd `n` this makes no difference.) -/
def StrongTest (n a : Nat) : Prop :=
  ∃ b m, n - 1 = 2 ^ b * m ∧ m % 2 = 1 ∧ (a ^ m % n = 1 ∨ ∃ i ≤ b, a ^ (m * 2 ^ i) % n = n - 1)

/-- No odd prime below 1010 divides `n`. -/
def NoSmall (n : Nat) : Prop := ∀ q, q.Prime → q ≠ 2 → q < 1010 → ¬ q ∣ n

/-- The answer of the primality test with five bases. -/
def Verdict (n : Nat) (base : Nat → Nat) : Prop :=
  (n.Prime ∧ n ≠ 2 ∧ n < 1010) ∨ (NoSmall n ∧ ∀ i < 5, StrongTest n (base i))

/-- What the generator has to deliver, for the theorems to say anything. -/
def DrawsOk (w bits : Nat) (draw : Nat → Mpi.PrimeDraw) : Prop :=
  ∀ i, (draw i).bytes.length = bits / 8 ∧ (2 ^ w) ^ ((bits - 1) / w) ≤ beVal (draw i).bytes ∧
    ∀ j < 5, ((draw i).mr j).length = bits / 8 ∧ (2 ^ w) ^ ((bits - 1) / w) ≤ beVal ((draw i).mr j)

end Verif.Mem
