import Verif.Lemmas.Mpi.Prime
/-!
# C18: the primality test
-/
namespace Verif.Mpi

/-- The table holds exactly the odd primes below 1010. -/
theorem smallPrimes_eq (n : Nat) : n ∈ smallPrimes ↔ n.Prime ∧ n ≠ 2 ∧ n < 1010 := by
  have h1 : ∀ n ∈ smallPrimes, 2 ≤ n ∧ n ≠ 2 ∧ n < 1010 ∧
      ∀ m < 32, 2 ≤ m → m * m ≤ n → ¬ m ∣ n := by decide +kernel
  have h2 : ∀ n ∈ List.range 1010, 2 < n → (∀ m ∈ List.range 32, 2 ≤ m → m * m ≤ n → ¬ m ∣ n) →
      n ∈ smallPrimes := by decide +kernel
  constructor
  · intro h
    obtain ⟨a, b, c, d⟩ := h1 n h
    refine ⟨Nat.prime_def_le_sqrt.2 ⟨a, fun m hm hs => ?_⟩, b, c⟩
    rw [Nat.le_sqrt] at hs
    exact d m (by by_contra hc; have := Nat.mul_le_mul (Nat.not_lt.1 hc) (Nat.not_lt.1 hc); omega) hm hs
  · rintro ⟨hp, hn, hl⟩
    have h2le := hp.two_le
    refine h2 n (List.mem_range.2 hl) (by omega) (fun m _ hm hs hd => ?_)
    rcases (Nat.dvd_prime hp).1 hd with h | h
    · omega
    · subst h
      have : m * 2 ≤ m * m := Nat.mul_le_mul_left _ hm
      omega

/-- C18: the odd primes below 1010 are accepted, whatever the generator delivers. -/
theorem isPrime_small {w : Nat} (hw : DigitWidth w) (p : Mpi) (hp : WF (2 ^ w) p) (n : Nat)
    (hv : p.toInt (2 ^ w) = n) (hn : n.Prime) (h2 : n ≠ 2) (hl : n < 1010) (draw : Nat → List Byte) :
    isPrime w draw p = .res true := by
  have hr := NatRep.of_wf hp hv
  have hm := (smallPrimes_eq n).2 ⟨hn, h2, hl⟩
  unfold isPrime
  have hd : ∀ s ∈ smallPrimes, s ∣ n → s = n := ?_
  · rw [trialLoop_two hw hr _ smallPrimes_range hm hd]
    rfl
  intro s hs hd
  have := ((smallPrimes_eq s).1 hs).1
  rcases (Nat.dvd_prime hn).1 hd with h | h
  · exact absurd h this.one_lt.ne'
  · exact h

/-- C18: a number with an odd prime factor below 1010 other than itself is rejected, whatever the
generator delivers. -/
theorem isPrime_small_factor {w : Nat} (hw : DigitWidth w) (p : Mpi) (hp : WF (2 ^ w) p) (n : Nat)
    (hv : p.toInt (2 ^ w) = n) (s : Nat) (hs : s.Prime) (h2 : s ≠ 2) (hl : s < 1010) (hd : s ∣ n)
    (hne : s ≠ n) (draw : Nat → List Byte) :
    isPrime w draw p = .res false := by
  have hr := NatRep.of_wf hp hv
  unfold isPrime
  have hnot : n ∉ smallPrimes := ?_
  · rw [trialLoop_one hw hr _ smallPrimes_range hnot ⟨s, (smallPrimes_eq s).2 ⟨hs, h2, hl⟩, hd⟩]
    rfl
  intro h
  have hn := ((smallPrimes_eq n).1 h).1
  rcases (Nat.dvd_prime hn).1 hd with h | h
  · exact absurd h hs.one_lt.ne'
  · exact hne h

theorem mrRepeat_prime {w : Nat} (hw : DigitWidth w) {p : Mpi} {n : Nat} (hp : NatRep w p n)
    (hn : n.Prime) (draw : Nat → List Byte) (a : Nat → Mpi) (av : Nat → Nat) : ∀ (k i : Nat),
    (∀ j, i ≤ j → j < i + k → randRange w false 8 p (draw j) = .ok (a j) ∧ NatRep w (a j) (av j) ∧
      av j < n) →
    mrRepeat w p draw i k = .res (decide (∀ j, i ≤ j → j < i + k → av j ≠ 0))
  | 0, i, _ => by
    rw [mrRepeat]
    congr 1
    symm
    rw [decide_eq_true_eq]
    intro j _ _; omega
  | k + 1, i, h => by
    obtain ⟨h1, h2, h3⟩ := h i (by omega) (by omega)
    rw [mrRepeat, passesMR_prime hw hp hn (draw i) h1 h2 h3]
    by_cases c : av i = 0
    · rw [c]
      simp only [ne_eq, not_true_eq_false, decide_false]
      congr 1
      symm
      rw [decide_eq_false_iff_not]
      intro hh
      exact hh i (by omega) (by omega) c
    · simp only [ne_eq, c, not_false_eq_true, decide_true]
      rw [mrRepeat_prime hw hp hn draw a av k (i + 1) (fun j a b => h j (by omega) (by omega))]
      congr 1
      rw [decide_eq_decide]
      constructor
      · intro hh j h1 h2
        by_cases e : j = i
        · rw [e]; exact c
        · exact hh j (by omega) (by omega)
      · intro hh j h1 h2
        exact hh j (by omega) (by omega)

/-- C18, what holds of "every prime is accepted": for a prime outside the table, `a i` being the base
drawn by the `i`-th iteration, the answer is "prime" exactly when none of the five bases is zero.
Missing: the base zero is not excluded by the code, see `isPrime_rejects_prime`. -/
theorem isPrime_prime_partial {w : Nat} (hw : DigitWidth w) (p : Mpi) (hp : WF (2 ^ w) p) (n : Nat)
    (hv : p.toInt (2 ^ w) = n) (hn : n.Prime) (hbig : n = 2 ∨ 1010 ≤ n) (draw : Nat → List Byte)
    (hl : ∀ i, (draw i).length = (countBits w p + 7) / 8) (a : Nat → Mpi)
    (ha : ∀ i < 5, randRange w false 8 p (draw i) = .ok (a i)) :
    ∃ b, isPrime w draw p = .res b ∧ (b = true ↔ ∀ i < 5, (a i).toInt (2 ^ w) ≠ 0) := by
  have hr := NatRep.of_wf hp hv
  have hpos := hn.pos
  have hbase : ∀ j, j < 5 → NatRep w (a j) ((a j).toInt (2 ^ w)).toNat ∧
      ((a j).toInt (2 ^ w)).toNat < n ∧ 0 ≤ (a j).toInt (2 ^ w) := by
    intro j hj
    have h1 := ha j hj
    obtain ⟨x, e, h2, h3, h4⟩ := randRange_correct_partial hw 8 p hp (by rw [hv]; omega) (draw j) (hl j)
      (by intro hub; unfold randRange at h1; rw [hub] at h1; cases h1)
    rw [h1] at e
    cases e
    refine ⟨NatRep.of_wf h2 (by omega), by rw [hv] at h4; omega, h3⟩
  unfold isPrime
  rw [trialLoop_zero hw hr _ smallPrimes_range ?_]
  · change ∃ b, mrRepeat w p draw 0 5 = _ ∧ _
    rw [mrRepeat_prime hw hr hn draw a (fun j => ((a j).toInt (2 ^ w)).toNat) 5 0
      (fun j _ h => ⟨ha j (by omega), (hbase j (by omega)).1, (hbase j (by omega)).2.1⟩)]
    refine ⟨_, rfl, ?_⟩
    rw [decide_eq_true_eq]
    constructor
    · intro h i hi hz
      exact h i (by omega) (by omega) (by rw [hz]; rfl)
    · intro h i _ hi hz
      have := (hbase i (by omega)).2.2
      exact h i (by omega) (by omega)
  · intro s hs hd
    obtain ⟨h1, h2, h3⟩ := (smallPrimes_eq s).1 hs
    rcases (Nat.dvd_prime hn).1 hd with h | h
    · exact absurd h h1.one_lt.ne'
    · omega

/-- The bytes of `p` drawn as random value give the base zero. -/
theorem randRange_self {w : Nat} (hw : DigitWidth w) (p : Mpi) (hp : WF (2 ^ w) p) (n : Nat)
    (hv : p.toInt (2 ^ w) = n) (hn : 0 < n) : ∃ bs : List Byte,
      bs.length = (countBits w p + 7) / 8 ∧
      ∃ x, randRange w false 8 p bs = .ok x ∧ x.toInt (2 ^ w) = 0 := by
  have hr := NatRep.of_wf hp hv
  have hbits : countBits w p = Nat.size n := by rw [countBits_spec hw hr.norm, hr.value]
  have hsz : 0 < Nat.size n := Nat.size_pos.2 hn
  have hlt := Nat.lt_size_self n
  have hge : 2 ^ (Nat.size n - 1) ≤ n := by
    have := Nat.lt_size (m := Nat.size n - 1) (n := n)
    exact this.1 (by omega)
  obtain ⟨B, hB, hwB⟩ := hw.bytes
  have hd : Digits (256 ^ B) p.digs := by
    have := hr.norm.digits
    rwa [hwB, two_pow_eight_mul] at this
  obtain ⟨s1, s2⟩ := storeLoop_spec hB hd ((Nat.size n + 7) / 8)
  have hval : val (256 ^ B) p.digs = n := by rw [← two_pow_eight_mul, ← hwB, hr.value]
  have hle : n < 256 ^ ((Nat.size n + 7) / 8) := by
    rw [← two_pow_eight_mul]
    exact lt_of_lt_of_le hlt (Nat.pow_le_pow_right (by omega) (by omega))
  rw [hval, Nat.mod_eq_of_lt hle] at s2
  refine ⟨storeLoop (8 * B) p ((Nat.size n + 7) / 8), by rw [s1, hbits], ?_⟩
  obtain ⟨x, e1, x1, x2, x3⟩ := rand_spec hw false (alloc := 8) (bits := Nat.size n) hsz (bs :=
    storeLoop (8 * B) p ((Nat.size n + 7) / 8)) s1 (by
      rw [s2, ← pow_mul]
      refine le_trans (Nat.pow_le_pow_right (by omega) ?_) hge
      exact Nat.mul_div_le _ _)
  have hxv : val (2 ^ w) x.digs = n := by
    rw [x3, s2]
    have hlt2 : n < 2 ^ (Nat.size n - 1) + 2 ^ (Nat.size n - 1) := by
      have : 2 ^ (Nat.size n) = 2 ^ (Nat.size n - 1) + 2 ^ (Nat.size n - 1) := by
        rw [← Nat.two_mul, ← pow_succ']; congr 1; omega
      omega
    rw [Nat.mod_eq_sub_mod hge, Nat.mod_eq_of_lt (by omega)]
    omega
  have hx : NatRep w x n := ⟨x1, x2, hxv⟩
  obtain ⟨z, e2, r2⟩ := hx.mod hw hr hn
  refine ⟨z, ?_, ?_⟩
  · unfold randRange
    rw [hbits, e1]
    dsimp only
    rw [((hx.cmpAbs_eq hr).2).2 rfl, if_pos (by omega), e2]
  · rw [r2.toInt, Nat.mod_self]; rfl

/-- C18 is false: every prime that is not in the table (2 and all primes from 1013 on) is declared
composite for some outputs of the generator. -/
theorem isPrime_rejects_prime {w : Nat} (hw : DigitWidth w) (p : Mpi) (hp : WF (2 ^ w) p) (n : Nat)
    (hv : p.toInt (2 ^ w) = n) (hn : n.Prime) (hbig : n = 2 ∨ 1010 ≤ n) :
    ∃ draw : Nat → List Byte, (∀ i, (draw i).length = (countBits w p + 7) / 8) ∧
      isPrime w draw p = .res false := by
  obtain ⟨bs, hl, x, e, hx⟩ := randRange_self hw p hp n hv hn.pos
  refine ⟨fun _ => bs, fun _ => hl, ?_⟩
  obtain ⟨b, e2, hb⟩ := isPrime_prime_partial hw p hp n hv hn hbig (fun _ => bs) (fun _ => hl)
    (fun _ => x) (fun _ _ => e)
  rw [e2]
  cases b with
  | false => rfl
  | true => exact absurd hx (hb.1 rfl 0 (by omega))

theorem mrLoop_ne_hang (w : Nat) (p : Mpi) : ∀ (b : Nat) (z : Mpi), mrLoop w p b z ≠ .hang
  | 0, z => by rw [mrLoop]; split <;> simp
  | b + 1, z => by
    rw [mrLoop]
    split_ifs
    · simp
    · split
      · simp
      · split_ifs
        · simp
        · split
          · simp
          · split
            · simp
            · exact mrLoop_ne_hang w p b _

theorem passesMR_ne_hang {w : Nat} (hw : DigitWidth w) (p : Mpi) (hp : WF (2 ^ w) p)
    (h1 : p.toInt (2 ^ w) ≠ 1) (bs : List Byte) : passesMR w p bs ≠ .hang := by
  have hw8 := hw.pos
  have r1 := NatRep.one hw8
  obtain ⟨m, e, h2, h3, -⟩ := sub_norm (one_lt_two_pow (w := w) (by omega)) hp.toNorm r1.norm
  rw [r1.toInt] at h2
  have hmv : (m.toInt (2 ^ w)).natAbs = val (2 ^ w) m.digs := by unfold Mpi.toInt; split <;> simp
  have hpv : (p.toInt (2 ^ w)).natAbs = val (2 ^ w) p.digs := by unfold Mpi.toInt; split <;> simp
  obtain ⟨a, o, hao, ho⟩ := exists_odd_part (n := val (2 ^ w) m.digs) (by omega)
  have hlt := Nat.lt_size_self (val (2 ^ w) p.digs)
  have ha : a < countBits w p + 1 := by
    rw [countBits_spec hw hp.toNorm]
    have : 2 ^ a * 1 ≤ 2 ^ a * o := Nat.mul_le_mul_left _ (by omega)
    have h : 2 ^ a ≤ 2 ^ Nat.size (val (2 ^ w) p.digs) := by omega
    have := (Nat.pow_le_pow_iff_right (a := 2) (by omega)).1 h
    omega
  obtain ⟨m', e2, -⟩ := calcLoop_spec hw8 a (countBits w p + 1) m 0 o h3 hao ho ha
  unfold passesMR
  rw [e]
  dsimp only
  rw [e2]
  dsimp only
  split
  · simp
  · simp
  · split
    · simp
    · split_ifs
      · simp
      · exact mrLoop_ne_hang w p _ _

/-- C18: the test ends for every number other than 1. -/
theorem isPrime_terminates_partial {w : Nat} (hw : DigitWidth w) (p : Mpi) (hp : WF (2 ^ w) p)
    (h1 : p.toInt (2 ^ w) ≠ 1) (draw : Nat → List Byte) : isPrime w draw p ≠ .hang := by
  have hrep : ∀ k i, mrRepeat w p draw i k ≠ .hang := by
    intro k
    induction k with
    | zero => intro i; simp [mrRepeat]
    | succ k ih =>
      intro i
      have := passesMR_ne_hang hw p hp h1 (draw i)
      rw [mrRepeat]
      split
      · exact ih (i + 1)
      · assumption
  unfold isPrime
  split
  · exact hrep 5 0
  · simp
  · simp
  · simp

/-- C18 is false of termination: for the number 1 the loop of `calc_b_and_m` never ends, whatever bound is
put on its turns. -/
theorem isPrime_one_hangs {w : Nat} (hw : DigitWidth w) (draw : Nat → List Byte) :
    isPrime w draw ⟨false, [1]⟩ = .hang ∧
    ∃ m, sub (2 ^ w) ⟨false, [1]⟩ ⟨false, [1]⟩ = some m ∧ ∀ fuel, calcLoop w fuel m 0 = none := by
  have hw8 := hw.pos
  have r1 := NatRep.one hw8
  obtain ⟨m, e, h⟩ := r1.sub hw8 r1 le_rfl
  have hd : m = ⟨false, []⟩ := h.unique (NatRep.zero w)
  subst hd
  have hz := calcLoop_zero w false
  refine ⟨?_, _, e, fun f => hz f 0⟩
  unfold isPrime
  rw [trialLoop_zero hw r1 _ smallPrimes_range (by decide +kernel)]
  rw [mrRepeat, passesMR, e]
  dsimp only
  rw [hz]
  rfl

-- the hypotheses are met: 2^16 + 1 with the base 3, and with the draw that spells 2^16 + 1
example : isPrime 8 (fun _ => [1, 0, 3]) ⟨false, [1, 0, 1]⟩ = .res true := by decide +kernel
example : isPrime 8 (fun _ => [1, 0, 1]) ⟨false, [1, 0, 1]⟩ = .res false := by decide +kernel
example : isPrime 8 (fun _ => [0]) ⟨false, [2]⟩ = .res false := by decide +kernel
example : isPrime 8 (fun _ => [1]) ⟨false, [2]⟩ = .res true := by decide +kernel
example : isPrime 8 (fun _ => [0, 0]) ⟨false, [0xf1, 3]⟩ = .res true := by decide +kernel
example : isPrime 8 (fun _ => [0, 0]) ⟨false, [0xf3, 3]⟩ = .res false := by decide +kernel
example : randRange 8 false 8 ⟨false, [1, 0, 1]⟩ [1, 0, 3] = .ok ⟨false, [2]⟩ := by decide +kernel

end Verif.Mpi
