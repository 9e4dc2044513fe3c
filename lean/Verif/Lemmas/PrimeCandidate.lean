import Verif.Spec.PrimeGen
import Mathlib.Data.Nat.Size
import Mathlib.Tactic.NormNum
import Mathlib.Tactic.Ring
/-! Arithmetic of prime candidates. -/
namespace Verif.Spec

theorem primeCandidate_lt {bits V : Nat} (h2 : 2 ≤ bits) (hV : V < 2 ^ bits) : primeCandidate bits V < 2 ^ bits := by
  have h1 : (1 : Nat) < 2 ^ bits := Nat.one_lt_two_pow (by omega)
  have h3 : 2 ^ (bits - 1) < 2 ^ bits := Nat.pow_lt_pow_right (by norm_num) (by omega)
  have h4 : 2 ^ (bits - 2) < 2 ^ bits := Nat.pow_lt_pow_right (by norm_num) (by omega)
  exact Nat.or_lt_two_pow (Nat.or_lt_two_pow (Nat.or_lt_two_pow hV h1) h3) h4

/-- The two highest bits are set: the number is at least three quarters of `2^bits`. -/
theorem primeCandidate_ge {bits : Nat} (V : Nat) (h2 : 2 ≤ bits) : 3 * 2 ^ (bits - 2) ≤ primeCandidate bits V := by
  have h : 2 ^ (bits - 1) ||| 2 ^ (bits - 2) = 3 * 2 ^ (bits - 2) := by
    obtain ⟨k, rfl⟩ := Nat.exists_eq_add_of_le h2
    have e1 : 2 + k - 1 = k + 1 := by omega
    have e2 : 2 + k - 2 = k := by omega
    have e3 := Nat.two_pow_add_eq_or_of_lt (b := 2 ^ k) (i := k + 1) (Nat.pow_lt_pow_right (by norm_num) (by omega)) 1
    rw [mul_one] at e3
    rw [e1, e2, ← e3, pow_succ]; ring
  rw [← h]
  unfold primeCandidate
  rw [Nat.or_assoc]
  exact Nat.right_le_or

theorem primeCandidate_odd {bits : Nat} (V : Nat) (h2 : 3 ≤ bits) : primeCandidate bits V % 2 = 1 := by
  have : (primeCandidate bits V).testBit 0 = true := by
    simp [primeCandidate, Nat.testBit_or]
  simpa [Nat.testBit_zero] using this

theorem primeCandidate_size {bits V : Nat} (h2 : 2 ≤ bits) (hV : V < 2 ^ bits) :
    Nat.size (primeCandidate bits V) = bits := by
  apply Nat.le_antisymm
  · exact Nat.size_le.2 (primeCandidate_lt h2 hV)
  · have h := primeCandidate_ge V h2
    have e : 2 ^ (bits - 1) = 2 * 2 ^ (bits - 2) := by
      rw [← pow_succ']; congr 1; omega
    have : bits - 1 < Nat.size (primeCandidate bits V) := Nat.lt_size.2 (by omega)
    omega

/-- The reason for the second highest bit: the product of two candidates has exactly twice the length. -/
theorem primeCandidate_mul_size {bits U V : Nat} (h2 : 2 ≤ bits) (hU : U < 2 ^ bits) (hV : V < 2 ^ bits) :
    Nat.size (primeCandidate bits U * primeCandidate bits V) = 2 * bits := by
  apply Nat.le_antisymm
  · refine Nat.size_le.2 ?_
    rw [two_mul, pow_add]
    exact Nat.mul_lt_mul'' (primeCandidate_lt h2 hU) (primeCandidate_lt h2 hV)
  · have h := Nat.mul_le_mul (primeCandidate_ge U h2) (primeCandidate_ge V h2)
    have e : 2 ^ (2 * bits - 1) = 8 * (2 ^ (bits - 2) * 2 ^ (bits - 2)) := by
      rw [← pow_add, show (8 : Nat) = 2 ^ 3 by norm_num, ← pow_add]; congr 1; omega
    have : 2 * bits - 1 < Nat.size (primeCandidate bits U * primeCandidate bits V) := by
      refine Nat.lt_size.2 (le_trans ?_ h)
      rw [e, show 3 * 2 ^ (bits - 2) * (3 * 2 ^ (bits - 2)) = 9 * (2 ^ (bits - 2) * 2 ^ (bits - 2)) by ring]
      omega
    omega

end Verif.Spec
