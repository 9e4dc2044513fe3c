import Verif.Lemmas.Mpi.Config
import Verif.Props.Mpi.Div
import Verif.Props.Mpi.NumTheory
/-!
# C98: division and inverse under the other build options

`divAbsSmall` is `cry_mpi_div_abs` with `CRY_MPI_DIV_SMALL`, `invBin` is `cry_mpi_inv` without `CRY_MPI_INV_EUCLID`
(`invBin w n` follows no loop for more than `n` turns: the C function returns when some `n` is enough, and runs forever
when none is).
-/
namespace Verif.Mpi

/-- C98 (division): both versions of `cry_mpi_div_abs` leave the same objects, and fail for the same operands, for numbers
of any length. -/
theorem div_small_same {w : Nat} (hw : DigitWidth w) (a b : Mpi) (ha : Norm (2 ^ w) a) (hb : Norm (2 ^ w) b) :
    divAbsSmall w a b = divAbs w a b :=
  divAbsSmall_eq hw ha hb

/-- C98 (division), in terms of integers.  Full statement: quotient and remainder of the absolute values.  Missing,
because false: a negative dividend smaller than the divisor is returned with its sign (`div_small_negative_wrong`). -/
theorem div_small_correct_partial {w : Nat} (hw : DigitWidth w) (a b : Mpi) (ha : Norm (2 ^ w) a)
    (hb : Norm (2 ^ w) b) (h0 : b.toInt (2 ^ w) ≠ 0) :
    ∃ q r, divAbsSmall w a b = some (q, r) ∧ WF (2 ^ w) q ∧ Norm (2 ^ w) r ∧ 0 ≤ q.toInt (2 ^ w) ∧
      |a.toInt (2 ^ w)| = q.toInt (2 ^ w) * |b.toInt (2 ^ w)| + |r.toInt (2 ^ w)| ∧
      |r.toInt (2 ^ w)| < |b.toInt (2 ^ w)| ∧
      (0 ≤ a.toInt (2 ^ w) ∨ |b.toInt (2 ^ w)| ≤ |a.toInt (2 ^ w)| → 0 ≤ r.toInt (2 ^ w)) := by
  rw [div_small_same hw a b ha hb]
  exact divAbs_correct_partial hw a b ha hb h0

/-- The remainder of -3 by 5 is -3, not 3. -/
theorem div_small_negative_wrong : divAbsSmall 64 ⟨true, [3]⟩ ⟨false, [5]⟩ = some (⟨false, []⟩, ⟨true, [3]⟩) := by decide

/-- Two-digit operands, negative ones included: 1000 = 3 · 300 + 100. -/
example : divAbsSmall 8 ⟨false, [232, 3]⟩ ⟨true, [44, 1]⟩ = some (⟨false, [3]⟩, ⟨false, [100]⟩) ∧
    divAbsSmall 8 ⟨true, [232, 3]⟩ ⟨false, [7]⟩ = some (⟨false, [142]⟩, ⟨false, [6]⟩) ∧
    divAbsSmall 8 ⟨false, [1]⟩ ⟨false, []⟩ = none := by decide +kernel

/-- C98 (inverse).  Full statement: `cry_mpi_inv` leaves the inverse when the number is coprime to the modulus and fails
otherwise, and both versions leave the same.  Proved: for every number, negative ones included, coprime to the modulus
`m > 1`, it returns 0 with the inverse in the range `0 … m - 1`, the same object as the Euclid version.  Missing, because
false: arguments that are not coprime (`inv_bin_not_coprime_wrong`, `inv_bin_both_even_wrong`, `inv_bin_never_ends`) and the
modulus 1 (`inv_bin_never_ends`). -/
theorem inv_bin_correct_partial {w : Nat} (hw : DigitWidth w) (x m : Mpi) (hx : WF (2 ^ w) x) (hm : WF (2 ^ w) m)
    (hm1 : 1 < m.toInt (2 ^ w)) (hc : Int.gcd (x.toInt (2 ^ w)) (m.toInt (2 ^ w)) = 1) :
    ∃ r, (∃ N, ∀ n, N ≤ n → invBin w n x m = .ok r) ∧ inv w x m = some r ∧ WF (2 ^ w) r ∧ 0 ≤ r.toInt (2 ^ w) ∧
      r.toInt (2 ^ w) < m.toInt (2 ^ w) ∧ x.toInt (2 ^ w) * r.toInt (2 ^ w) ≡ 1 [ZMOD m.toInt (2 ^ w)] := by
  have hnd : ¬ m.toInt (2 ^ w) ∣ x.toInt (2 ^ w) := by
    intro h
    have h1 := Int.dvd_coe_gcd h (dvd_refl (m.toInt (2 ^ w)))
    rw [hc] at h1
    have := Int.le_of_dvd (by norm_num) h1
    simp at this; omega
  have hodd : x.toInt (2 ^ w) % 2 = 1 ∨ m.toInt (2 ^ w) % 2 = 1 := by
    by_contra h
    have h1 := Int.dvd_coe_gcd (c := 2) (show (2 : Int) ∣ x.toInt (2 ^ w) by omega) (show (2 : Int) ∣ m.toInt (2 ^ w) by omega)
    rw [hc] at h1
    omega
  obtain ⟨r, R, h1, h2, h3, h4, h5⟩ := invBin_spec hw ⟨hx, rfl⟩ ⟨hm, rfl⟩ (by omega) hnd hodd
  obtain ⟨s, s1, s2, s3, s4, s5⟩ := (inv_correct hw x m hx hm (by omega)).1 hc
  rw [hc] at h4
  have e : s.toInt (2 ^ w) = R := by
    have h6 : s.toInt (2 ^ w) ≡ R [ZMOD m.toInt (2 ^ w)] := by
      calc s.toInt (2 ^ w) ≡ s.toInt (2 ^ w) * (x.toInt (2 ^ w) * R) [ZMOD m.toInt (2 ^ w)] := by
            simpa using (h4.mul_left (s.toInt (2 ^ w))).symm
        _ = x.toInt (2 ^ w) * s.toInt (2 ^ w) * R := by ring
        _ ≡ R [ZMOD m.toInt (2 ^ w)] := by simpa using s5.mul_right R
    rwa [Int.ModEq, Int.emod_eq_of_lt s3 s4, Int.emod_eq_of_lt h2 h3] at h6
  have e' : r = s := h1.unique ⟨s2, e⟩ h2
  subst e'
  exact ⟨r, h5, s1, s2, s3, s4, s5⟩

/-- What the binary version leaves in general when not both numbers are even: it returns 0 and the product with the number
is the greatest common divisor instead of 1 — a wrong answer where the Euclid version fails. -/
theorem inv_bin_not_coprime_wrong {w : Nat} (hw : DigitWidth w) (x m : Mpi) (hx : WF (2 ^ w) x) (hm : WF (2 ^ w) m)
    (hm0 : 0 < m.toInt (2 ^ w)) (hnd : ¬ m.toInt (2 ^ w) ∣ x.toInt (2 ^ w))
    (hodd : x.toInt (2 ^ w) % 2 = 1 ∨ m.toInt (2 ^ w) % 2 = 1)
    (hc : Int.gcd (x.toInt (2 ^ w)) (m.toInt (2 ^ w)) ≠ 1) :
    inv w x m = none ∧ ∃ r, (∃ N, ∀ n, N ≤ n → invBin w n x m = .ok r) ∧ 0 ≤ r.toInt (2 ^ w) ∧
      r.toInt (2 ^ w) < m.toInt (2 ^ w) ∧
      x.toInt (2 ^ w) * r.toInt (2 ^ w) ≡ Int.gcd (x.toInt (2 ^ w)) (m.toInt (2 ^ w)) [ZMOD m.toInt (2 ^ w)] ∧
      ¬ x.toInt (2 ^ w) * r.toInt (2 ^ w) ≡ 1 [ZMOD m.toInt (2 ^ w)] := by
  refine ⟨(inv_correct hw x m hx hm hm0).2 hc, ?_⟩
  obtain ⟨r, R, h1, h2, h3, h4, h5⟩ := invBin_spec hw ⟨hx, rfl⟩ ⟨hm, rfl⟩ hm0 hnd hodd
  have e := h1.eq
  subst e
  refine ⟨r, h5, h2, h3, h4, fun h => hc ?_⟩
  have h6 : (Int.gcd (x.toInt (2 ^ w)) (m.toInt (2 ^ w)) : Int) ∣ 1 := by
    have a1 : (Int.gcd (x.toInt (2 ^ w)) (m.toInt (2 ^ w)) : Int) ∣ x.toInt (2 ^ w) * r.toInt (2 ^ w) :=
      (Int.gcd_dvd_left ..).mul_right _
    have a2 := (Int.gcd_dvd_right (x.toInt (2 ^ w)) (m.toInt (2 ^ w))).trans h.dvd
    have := dvd_add a2 a1
    rwa [sub_add_cancel] at this
  have h7 := Int.natAbs_dvd_natAbs.2 h6
  simpa using h7

/-- For a multiple of the modulus — zero, and every number when the modulus is 1 — the binary version does not return,
whatever the number of turns; the Euclid version fails, or returns 0 when the modulus is 1. -/
theorem inv_bin_never_ends {w : Nat} (hw : DigitWidth w) (x m : Mpi) (hx : WF (2 ^ w) x) (hm : WF (2 ^ w) m)
    (hm0 : 0 < m.toInt (2 ^ w)) (hd : m.toInt (2 ^ w) ∣ x.toInt (2 ^ w)) (n : Nat) : invBin w n x m = .hang :=
  invBin_hang hw ⟨hx, rfl⟩ ⟨hm, rfl⟩ hm0 hd n

/-- When both numbers are even the coefficients are halved though odd: for 6 modulo 10 the result is 5, and 6 · 5 = 30 is 0
modulo 10, neither 1 nor the greatest common divisor 2. -/
theorem inv_bin_both_even_wrong : invBin 8 8 ⟨false, [6]⟩ ⟨false, [10]⟩ = .ok ⟨false, [5]⟩ ∧
    inv 8 ⟨false, [6]⟩ ⟨false, [10]⟩ = none := by decide +kernel

/-- The hypotheses are met: 7 · 103 = 721 = 1 + 2 · 360 modulo 360 (two digits), -7 has the inverse 257; 6 and 9 have the
divisor 3, and the result 2 gives 6 · 2 = 12 = 3; 18 modulo 9 runs on. -/
example : invBin 8 20 ⟨false, [7]⟩ ⟨false, [104, 1]⟩ = .ok ⟨false, [103]⟩ ∧
    inv 8 ⟨false, [7]⟩ ⟨false, [104, 1]⟩ = some ⟨false, [103]⟩ ∧
    invBin 8 20 ⟨true, [7]⟩ ⟨false, [104, 1]⟩ = .ok ⟨false, [1, 1]⟩ ∧
    invBin 8 20 ⟨false, [6]⟩ ⟨false, [9]⟩ = .ok ⟨false, [2]⟩ ∧ inv 8 ⟨false, [6]⟩ ⟨false, [9]⟩ = none ∧
    invBin 8 20 ⟨false, [18]⟩ ⟨false, [9]⟩ = .hang ∧ invBin 8 20 ⟨false, [18]⟩ ⟨false, [1]⟩ = .hang ∧
    inv 8 ⟨false, [18]⟩ ⟨false, [1]⟩ = some ⟨false, []⟩ := by decide +kernel

end Verif.Mpi
