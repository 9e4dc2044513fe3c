import Verif.Lemmas.Mpi.Gcd
import Mathlib.Data.Nat.Sqrt
import Mathlib.Tactic.Linarith
namespace Verif.Mpi

/-! ## Newton step on natural numbers -/

theorem newton_ge {a c s : Nat} (hc : 0 < c) (hs : s * s ≤ a) : s ≤ (c + a / c) / 2 := by
  have h : 2 * s ≤ c + a / c := by
    rcases Nat.lt_or_ge (2 * s) c with h | h
    · exact le_trans h.le (Nat.le_add_right _ _)
    · obtain ⟨d, hd⟩ := Nat.exists_eq_add_of_le h
      have : d ≤ a / c := by
        rw [Nat.le_div_iff_mul_le hc]
        refine le_trans ?_ hs
        nlinarith [sq_nonneg ((s : Int) - c), sq_nonneg ((d : Int) - c)]
      omega
  omega

theorem newton_gt {a c s : Nat} (hc : 0 < c) (ha : a = s * s + 2 * s) (hne : c ≠ s + 1) :
    s + 1 ≤ (c + a / c) / 2 := by
  have h : 2 * (s + 1) ≤ c + a / c := by
    rcases Nat.lt_or_ge (2 * (s + 1)) c with h | h
    · exact le_trans h.le (Nat.le_add_right _ _)
    · obtain ⟨d, hd⟩ := Nat.exists_eq_add_of_le h
      have : d ≤ a / c := by
        rw [Nat.le_div_iff_mul_le hc, ha]
        rcases Nat.lt_or_gt_of_ne hne with hlt | hgt
        · obtain ⟨e, he⟩ : ∃ e, s + 1 = c + (e + 1) := ⟨s - c, by omega⟩
          have : d = c + 2 * (e + 1) := by omega
          subst this
          have : s = c + e := by omega
          subst this
          nlinarith
        · obtain ⟨e, rfl⟩ : ∃ e, c = s + 1 + (e + 1) := ⟨c - s - 2, by omega⟩
          have : d + (e + 1) = s + 1 := by omega
          have : s = d + e := by omega
          subst this
          nlinarith
      omega
  omega

/-- The first guess `c = a / P` is never `s + 1` when `a = (s + 1)² - 1`. -/
theorem first_guess {a s P : Nat} (hP : 0 < P) (ha : a = s * s + 2 * s) (hs : 0 < s) :
    a / P ≠ s + 1 := by
  intro h
  have h1 : (s + 1) * P ≤ a := by rw [← h]; exact Nat.div_mul_le_self _ _
  have h2 : a < (s + 2) * P := by
    have := Nat.lt_mul_div_succ a hP
    rw [h, Nat.mul_comm] at this; exact this
  have h3 : s < P := by
    by_contra hc
    have : (s + 2) * P ≤ (s + 2) * s := Nat.mul_le_mul_left _ (by omega)
    nlinarith
  have h4 : (s + 1) * (s + 1) ≤ (s + 1) * P := Nat.mul_le_mul_left _ h3
  nlinarith

theorem nat_rep {w : Nat} {z : Mpi} {v : Nat} (hn : Norm (2 ^ w) z) (hs : z.neg = false)
    (hv : val (2 ^ w) z.digs = v) : Rep w z v := ⟨hn, by rw [toInt_false hs, hv]⟩

theorem sqrtStep_spec {w : Nat} (hw : DigitWidth w) {a t : Mpi} {A T : Nat} (ha : Rep w a A)
    (han : a.neg = false) (hA : 0 < A) (ht : Rep w t T) (hT : 0 < T) :
    ∃ t1 t2, sqrtStep w a t = some (t1, t2) ∧ Rep w t2 (A / T : Nat) ∧
      Rep w t1 ((T + A / T) / 2 : Nat) ∧ t1.neg = false := by
  have hw0 : 0 < w := by have := hw.pos; omega
  obtain ⟨q, r, e1, e2, -, -, -⟩ := div_rep_nonneg hw .none true false ha han ht (by omega)
  obtain ⟨z, f1, f2⟩ := add_rep hw0 ht e2
  have hz : z.neg = false := f2.nonneg (by positivity)
  obtain ⟨s1, s2, s3⟩ := shr_spec hw0 f2.1 1
  have hzv : val (2 ^ w) z.digs = T + A / T := by
    rw [f2.val_eq]
    have : ((T : Int) + (A : Int) / T) = ((T + A / T : Nat) : Int) := by push_cast; rfl
    rw [this, Int.natAbs_natCast]
  have hn : (shr w z 1).neg = false := by
    cases hh : (shr w z 1).neg with
    | false => rfl
    | true =>
      exfalso
      rcases s3 with s3 | s3
      · rw [s3, hz] at hh; simp at hh
      · have h1 := s1
        rw [s3, val_nil, hzv] at h1
        have h2 : 2 ≤ T + A / T := by
          rcases Nat.eq_or_lt_of_le (show 1 ≤ T by omega) with h3 | h3
          · subst h3; rw [Nat.div_one]; omega
          · exact le_trans h3 (Nat.le_add_right _ _)
        omega
  refine ⟨shr w z 1, q, ?_, ?_, nat_rep s2 hn ?_, hn⟩
  · unfold sqrtStep
    simp only [e1, f1, Option.bind_eq_bind, Option.bind_some]
  · rw [Int.natCast_ediv]; exact e2
  · rw [s1, hzv, pow_one]

theorem sqrtLoop_spec {w : Nat} (hw : DigitWidth w) {a : Mpi} {A s : Nat} (ha : Rep w a A)
    (han : a.neg = false) (hs : 0 < s) (h1 : s * s ≤ A) (h2 : A < (s + 1) * (s + 1)) :
    ∀ (fuel : Nat) {t : Mpi} {T : Nat}, Rep w t T → s ≤ T → (A = s * s + 2 * s → s + 1 ≤ T) →
      T < fuel → ∃ z, sqrtLoop w a fuel t = some z ∧ Rep w z s ∧ z.neg = false
  | 0, _, _, _, _, _, h => by omega
  | fuel + 1, t, T, ht, hT, hbad, hf => by
    obtain ⟨t1, t2, e1, e2, e3, e4⟩ := sqrtStep_spec hw ha han (lt_of_lt_of_le (Nat.mul_pos hs hs) h1) ht (show 0 < T by omega)
    have hcmp := cmpAbs_spec (b := 2 ^ w) (Nat.two_pow_pos w) e3.1 e2.1
    rw [e3.val_eq, e2.val_eq, Int.natAbs_natCast, Int.natAbs_natCast] at hcmp
    have hge := newton_ge (show 0 < T by omega) h1
    rw [sqrtLoop]
    simp only [e1, Option.bind_eq_bind, Option.bind_some]
    have hq1 : A / T * T ≤ A := Nat.div_mul_le_self _ _
    have hq2 : A < (A / T + 1) * T := by
      have := Nat.lt_mul_div_succ A (show 0 < T by omega)
      rwa [Nat.mul_comm] at this
    by_cases hc : A / T < (T + A / T) / 2
    · rw [if_pos (by omega)]
      -- then T > s and the value decreases
      have hne : T ≠ s := by
        rintro rfl
        have : A / T ≤ T := by omega
        omega
      have hbad' : A = s * s + 2 * s → s + 1 ≤ (T + A / T) / 2 := by
        intro hA
        refine newton_gt (by omega) hA ?_
        rintro rfl
        have : A / (s + 1) = s := by
          apply Nat.div_eq_of_lt_le <;> nlinarith
        omega
      exact sqrtLoop_spec hw ha han hs h1 h2 fuel e3 hge hbad' (by omega)
    · rw [if_neg (by omega)]
      refine ⟨t1, rfl, ?_, e4⟩
      have : (T + A / T) / 2 = s := by
        rcases Nat.eq_or_lt_of_le hT with heq | hlt
        · subst heq
          have h3 : A / s ≤ s + 1 := by
            have hne : A ≠ s * s + 2 * s := fun h => by have := hbad h; omega
            have : A / s < s + 2 := by
              rw [Nat.div_lt_iff_lt_mul hs]
              have e1 : (s + 1) * (s + 1) = s * s + 2 * s + 1 := by ring
              have e2 : (s + 2) * s = s * s + 2 * s := by ring
              omega
            omega
          omega
        · -- T ≥ s + 1 so the quotient is below T
          have h3 : A / T < T := by
            rw [Nat.div_lt_iff_lt_mul (by omega)]
            exact lt_of_lt_of_le h2 (Nat.mul_le_mul (by omega) (by omega))
          have h4 : T = A / T + 1 := by omega
          have h5 : (T + A / T) / 2 = A / T := by omega
          rw [h5] at hge ⊢
          have h6 : A / T * (A / T) ≤ A := le_trans (Nat.mul_le_mul_left _ (by omega)) hq1
          by_contra hcon
          have h7 : s + 1 ≤ A / T := by omega
          have := Nat.mul_le_mul h7 h7
          omega
      rw [← this]; exact e3

theorem sqrt_spec {w : Nat} (hw : DigitWidth w) {a : Mpi} {A : Nat} (ha : Rep w a A)
    (han : a.neg = false) :
    ∃ z s, sqrt w a = some z ∧ Rep w z (s : Nat) ∧ z.neg = false ∧ s * s ≤ A ∧
      A < (s + 1) * (s + 1) := by
  have hb0 : 0 < 2 ^ w := Nat.two_pow_pos w
  have hav : val (2 ^ w) a.digs = A := by rw [ha.val_eq, Int.natAbs_natCast]
  unfold sqrt
  rw [if_neg (by simp [han])]
  rcases Nat.eq_zero_or_pos A with h0 | hpos
  · subst h0
    rw [if_pos ((isZero_rep ha).2 rfl)]
    exact ⟨⟨false, []⟩, 0, rfl, ⟨norm_zero _ _, by simp [Mpi.toInt]⟩, rfl, by simp, by simp⟩
  · rw [if_neg (by rw [isZero_rep ha]; omega)]
    obtain ⟨s, h1, h2⟩ : ∃ s, s * s ≤ A ∧ A < (s + 1) * (s + 1) :=
      ⟨Nat.sqrt A, Nat.sqrt_le A, Nat.lt_succ_sqrt A⟩
    have hs : 0 < s := by
      rcases Nat.eq_zero_or_pos s with h | h
      · subst h; simp at h2; omega
      · exact h
    obtain ⟨d1, d2, d3⟩ := shrd_spec ha.1 (a.digs.length / 2)
    rw [hav] at d1
    have hne : a.digs ≠ [] := fun h => by rw [h, val_nil] at hav; omega
    have hc : 0 < A / (2 ^ w) ^ (a.digs.length / 2) := by
      apply Nat.div_pos _ (Nat.pow_pos hb0)
      have := val_pos_of_top (b := 2 ^ w) hb0 ha.1.top hne
      rw [hav] at this
      refine le_trans (Nat.pow_le_pow_right hb0 ?_) this
      have := List.length_pos_of_ne_nil hne
      omega
    have dn : (shrd a (a.digs.length / 2)).neg = false := by
      rcases d3 with d3 | d3
      · rw [d3, han]
      · rw [d3, val_nil] at d1; omega
    obtain ⟨t1, t2, e1, -, e3, e4⟩ := sqrtStep_spec hw ha han hpos (nat_rep d2 dn d1) hc
    simp only [e1, Option.bind_eq_bind, Option.bind_some]
    have hval := e3.val_eq
    rw [Int.natAbs_natCast] at hval
    obtain ⟨z, z1, z2, z3⟩ := sqrtLoop_spec hw ha han hs h1 h2 (val (2 ^ w) t1.digs + 1) e3
      (newton_ge hc h1) (fun h => newton_gt hc h (first_guess (Nat.pow_pos hb0) h hs))
      (by omega)
    exact ⟨z, s, z1, z2, z3, h1, h2⟩

end Verif.Mpi
