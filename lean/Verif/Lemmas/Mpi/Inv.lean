import Verif.Lemmas.Mpi.ModExp
import Mathlib.Data.Int.GCD
import Mathlib.Algebra.Order.Ring.Int
namespace Verif.Mpi

theorem isZero_rep {w : Nat} {z : Mpi} {v : Int} (h : Rep w z v) : isZero z = true ↔ v = 0 := by
  rw [← h.2, toInt_eq_zero_iff (Nat.two_pow_pos w) h.1]
  unfold isZero
  simp [List.length_eq_zero_iff]

/-- Invariant of the extended Euclid loop, after the first turn. -/
structure InvInv (A M R0 R1 S0 S1 : Int) : Prop where
  lt : R1 < R0
  nonneg : 0 ≤ R1
  c0 : A * S0 ≡ R0 [ZMOD M]
  c1 : A * S1 ≡ R1 [ZMOD M]
  alt : (S0 ≤ 0 ∧ 0 ≤ S1 ∧ -S0 ≤ S1 ∧ S1 * R0 - S0 * R1 = M) ∨
        (0 ≤ S0 ∧ S1 ≤ 0 ∧ S0 ≤ -S1 ∧ S0 * R1 - S1 * R0 = M)

theorem InvInv.step {A M R0 R1 S0 S1 : Int} (h : InvInv A M R0 R1 S0 S1) (h1 : 0 < R1) :
    InvInv A M R1 (R0 % R1) S1 (S0 - R0 / R1 * S1) := by
  have hdm := Int.emod_add_mul_ediv R0 R1
  have hq : 1 ≤ R0 / R1 := (Int.le_ediv_iff_mul_le h1).2 (by have := h.lt; omega)
  have hr0 := Int.emod_nonneg R0 (show R1 ≠ 0 by omega)
  have hr1 := Int.emod_lt_of_pos R0 h1
  generalize R0 / R1 = q at *
  generalize hR : R0 % R1 = R at *
  refine ⟨hr1, hr0, h.c1, ?_, ?_⟩
  · have e : R = R0 - q * R1 := by rw [← hdm]; ring
    rw [e, mul_sub]
    refine Int.ModEq.sub h.c0 ?_
    rw [show A * (q * S1) = q * (A * S1) by ring]
    exact Int.ModEq.mul_left _ h.c1
  · have e : R0 = R + R1 * q := by rw [← hdm]
    rcases h.alt with ⟨a1, a2, a3, a4⟩ | ⟨a1, a2, a3, a4⟩
    · right
      have : S1 ≤ q * S1 := by nlinarith
      refine ⟨a2, by linarith, by linarith, ?_⟩
      rw [← a4, e]; ring
    · left
      have : q * S1 ≤ S1 := by nlinarith
      refine ⟨a2, by linarith, by linarith, ?_⟩
      rw [← a4, e]; ring

theorem invLoop_spec {w : Nat} (hw : DigitWidth w) {A M : Int} :
    ∀ (fuel : Nat) {r0 r1 s0 s1 : Mpi} {R0 R1 S0 S1 : Int}, Rep w r0 R0 → Rep w r1 R1 →
      Rep w s0 S0 → Rep w s1 S1 → WF (2 ^ w) s0 → WF (2 ^ w) s1 → r0.neg = false →
      r1.neg = false → InvInv A M R0 R1 S0 S1 → R1 < fuel →
    ∃ z s Z S, invLoop w fuel r0 r1 s0 s1 = some (z, s) ∧ Rep w z Z ∧ z.neg = false ∧ Rep w s S ∧
      WF (2 ^ w) s ∧ Z = Int.gcd R0 R1 ∧ A * S ≡ Z [ZMOD M] ∧ (Z = 1 → |S| ≤ M)
  | 0, _, _, _, _, _, _, _, _, _, _, _, _, _, _, _, _, hI, hf => by
    have := hI.nonneg; simp at hf; omega
  | fuel + 1, r0, r1, s0, s1, R0, R1, S0, S1, h0, h1, g0, g1, w0, w1, n0, n1, hI, hf => by
    have hw8 := hw.pos
    have hw0 : 0 < w := by omega
    rw [invLoop]
    by_cases hz : R1 = 0
    · rw [if_pos ((isZero_rep h1).2 hz)]
      subst hz
      refine ⟨r0, s0, R0, S0, rfl, h0, n0, g0, w0, ?_, hI.c0, ?_⟩
      · have := hI.lt
        rw [Int.gcd_zero_right]; omega
      · rintro rfl
        rcases hI.alt with ⟨a1, a2, a3, a4⟩ | ⟨a1, a2, a3, a4⟩
        · rw [abs_of_nonpos a1]; linarith
        · rw [abs_of_nonneg a1]; linarith
    · rw [if_neg (by rw [isZero_rep h1]; exact hz)]
      have hpos : 0 < R1 := by have := hI.nonneg; omega
      obtain ⟨q, r, e1, e2, -, e3, e4⟩ := div_rep_nonneg hw .none true true h0 n0 h1 hpos
      obtain ⟨p, f1, f2, f3⟩ := mul_rep hw8 false e2 g1
      obtain ⟨t, t1, t2, t3, t4⟩ := sub_norm (one_lt_two_pow hw0) g0.1 f2.1
      have tr : Rep w t (S0 - R0 / R1 * S1) := ⟨t3, by rw [t2, g0.2, f2.2]⟩
      have tw : WF (2 ^ w) t := ⟨t3, fun hd => by
        cases hn : t.neg with
        | false => rfl
        | true =>
          have := t4 hd hn
          have := w0.zero_nonneg this.2.1
          simp_all⟩
      have hmod := Int.emod_lt_of_pos R0 hpos
      obtain ⟨z, s, Z, S, k1, k2, k3, k4, k5, k6, k7, k8⟩ := invLoop_spec hw fuel h1 e3 g1 tr w1 tw n1
        e4 (hI.step hpos) (by push_cast at hf; omega)
      refine ⟨z, s, Z, S, ?_, k2, k3, k4, k5, ?_, k7, k8⟩
      · simp only [e1, f1, t1, Option.bind_eq_bind, Option.bind_some]; exact k1
      · rw [k6]
        congr 1
        rw [Int.gcd_comm, Int.gcd_emod]

theorem digs_one_iff {w : Nat} (hw : 0 < w) {z : Mpi} {Z : Int} (hz : Rep w z Z)
    (hn : z.neg = false) : (z.digs = [1] ∧ z.neg = false) ↔ Z = 1 := by
  have hv : (val (2 ^ w) z.digs : Int) = Z := by rw [← hz.2, toInt_false hn]
  constructor
  · rintro ⟨h, -⟩
    rw [← hv, h]; simp
  · rintro rfl
    refine ⟨?_, hn⟩
    have hv' : val (2 ^ w) z.digs = 1 := by exact_mod_cast hv
    have hlen : z.digs.length = 1 := length_eq_of_bounds (t := 0) (one_lt_two_pow hw) hz.1
      (by rw [hv']; simp) (by rw [hv']; simpa using one_lt_two_pow hw)
    match hd : z.digs, hlen with
    | [d], _ =>
      rw [hd] at hv'
      simp at hv'
      rw [hv']

theorem inv_rep {w : Nat} (hw : DigitWidth w) {a m : Mpi} {A M : Int} (ha : Rep w a A)
    (haw : WF (2 ^ w) a) (hm : Rep w m M) (hM : 0 < M) :
    (Int.gcd A M = 1 → ∃ r R, inv w a m = some r ∧ Rep w r R ∧ WF (2 ^ w) r ∧ 0 ≤ R ∧ R < M ∧
      A * R ≡ 1 [ZMOD M]) ∧ (Int.gcd A M ≠ 1 → inv w a m = none) := by
  have hw8 := hw.pos
  have hw0 : 0 < w := by omega
  have hmn := hm.nonneg hM
  obtain ⟨q, r, d1, d2, d3, d4⟩ := div_mod_rep hw true ha haw.zero_nonneg hm hM
  have hzero : Rep w ⟨false, []⟩ 0 := ⟨norm_zero _ _, by simp [Mpi.toInt]⟩
  have hzw : WF (2 ^ w) ⟨false, []⟩ := wf_of_norm_false (norm_zero _ _) rfl
  obtain ⟨p, f1, f2, f3⟩ := mul_rep hw8 false (⟨d2, rfl⟩ : Rep w q _) hzero
  rw [mul_zero] at f2
  obtain ⟨t, t1, t2, t3, t4⟩ := sub_norm (one_lt_two_pow hw0) (one_rep hw0).1.1 f2.1
  have tr : Rep w t 1 := ⟨t3, by rw [t2, (one_rep hw0).1.2, f2.2]; rfl⟩
  have tw : WF (2 ^ w) t := ⟨t3, fun hd => by
    cases hn : t.neg with
    | false => rfl
    | true => have := (t4 hd hn).2.1; simp at this⟩
  have hI : InvInv A M M (A % M) 0 1 := by
    refine ⟨Int.emod_lt_of_pos _ hM, Int.emod_nonneg _ (by omega), ?_, ?_, Or.inl ?_⟩
    · rw [mul_zero]; exact ((Int.modEq_zero_iff_dvd).2 (dvd_refl M)).symm
    · rw [mul_one]; exact (Int.mod_modEq _ _).symm
    · refine ⟨le_refl _, by omega, by omega, by ring⟩
  have hmv : (val (2 ^ w) m.digs : Int) = M := by rw [← hm.2, toInt_false hmn]
  obtain ⟨z, s, Z, S, k1, k2, k3, k4, k5, k6, k7, k8⟩ := invLoop_spec hw (val (2 ^ w) m.digs + 1) hm
    d3 hzero tr hzw tw hmn d4 hI (by push_cast; rw [hmv]; have := hI.lt; omega)
  have hg : Z = Int.gcd A M := by
    rw [k6, Int.gcd_comm, Int.gcd_emod, Int.gcd_comm]
  have hloop : invLoop w (val (2 ^ w) m.digs + 2) a m ⟨false, [1]⟩ ⟨false, []⟩ = some (z, s) := by
    rw [invLoop, if_neg (by rw [isZero_rep hm]; omega)]
    simp only [d1, f1, t1, Option.bind_eq_bind, Option.bind_some]
    exact k1
  have hone := digs_one_iff hw0 k2 k3
  unfold inv
  simp only [hloop, Option.bind_eq_bind, Option.bind_some]
  constructor
  · intro hgcd
    have hZ1 : Z = 1 := by rw [hg, hgcd]; rfl
    rw [if_pos (hone.2 hZ1)]
    rw [hZ1] at k7
    have hS := k8 hZ1
    cases hsn : s.neg with
    | true =>
      rw [if_pos rfl]
      obtain ⟨r', m1, m2, m3⟩ := mod_rep hw k4 k5.zero_nonneg hm hM
      refine ⟨r', S % M, m1, m2, wf_of_norm_false m2.1 m3, Int.emod_nonneg _ (by omega),
        Int.emod_lt_of_pos _ hM, ?_⟩
      exact (Int.ModEq.mul_left _ (Int.mod_modEq _ _)).trans k7
    | false =>
      rw [if_neg (by simp)]
      have hS0 : 0 ≤ S := by rw [← k4.2, toInt_false hsn]; positivity
      rw [abs_of_nonneg hS0] at hS
      refine ⟨s, S, rfl, k4, k5, hS0, ?_, k7⟩
      rcases Int.lt_or_eq_of_le hS with h | h
      · exact h
      · exfalso
        -- then `M = 1`, where the coefficient is 0
        rw [h] at k7
        have h1 : M ∣ 1 := by
          have := (Int.modEq_iff_dvd.1 k7)
          exact (Int.dvd_iff_dvd_of_dvd_sub this).2 (Dvd.intro_left _ rfl)
        have hM1 : M = 1 := Int.eq_one_of_dvd_one hM.le h1
        have hr0 : isZero r = true := (isZero_rep d3).2 (by rw [hM1, Int.emod_one])
        rw [invLoop, if_pos hr0] at k1
        have : (⟨false, []⟩ : Mpi) = s := by
          have := Option.some.inj k1; exact (Prod.mk.inj this).2
        rw [← this] at k4
        have := k4.2
        simp [Mpi.toInt] at this
        omega
  · intro hgcd
    rw [if_neg (by
      rw [hone, hg]
      intro h; exact hgcd (by exact_mod_cast h))]

end Verif.Mpi
