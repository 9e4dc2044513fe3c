import Verif.Model.Mpi.Prime
import Verif.Lemmas.Mpi.NatRep
import Mathlib.FieldTheory.Finite.Basic
/-! Lemmas about the primality test. -/
namespace Verif.Mpi

theorem mod_rIsB {w : Nat} (hw : DigitWidth w) {p m : Mpi} {n s : Nat} (hp : NatRep w p n)
    (hm : NatRep w m s) (hs : 0 < s) : ∃ z, mod w .rIsB p m = some z ∧ NatRep w z (n % s) := by
  obtain ⟨z, h1, h2⟩ := hp.mod hw hm hs
  refine ⟨z, ?_, h2⟩
  rw [← h1]
  unfold mod div
  cases divAbs w p m with
  | none => rfl
  | some qr =>
    obtain ⟨q, r⟩ := qr
    simp [hp.neg, hm.neg]

theorem trialLoop_cons {w : Nat} (hw : DigitWidth w) {p : Mpi} {n : Nat} (hp : NatRep w p n) {s : Nat}
    (ss : List Nat) (h1 : 0 < s) (h2 : s < 2 ^ 63) :
    trialLoop w p (s :: ss) =
      if s = n then some 2 else if s ∣ n then some 1 else trialLoop w p ss := by
  obtain ⟨m, e1, r1⟩ := natRep_setInt hw h2
  obtain ⟨z, e2, r2⟩ := mod_rIsB hw hp r1 h1
  rw [trialLoop, e1]
  dsimp only
  rw [e2]
  dsimp only
  have hc := r1.cmp_eq hp
  have hz := r2.isZero_iff
  rw [← Nat.dvd_iff_mod_eq_zero] at hz
  by_cases c1 : s = n
  · rw [if_pos (hc.2 c1), if_pos c1]
  · rw [if_neg (fun h => c1 (hc.1 h)), if_neg c1]
    by_cases c2 : s ∣ n
    · rw [if_pos (hz.2 c2), if_pos c2]
    · rw [if_neg (fun h => c2 (hz.1 h)), if_neg c2]

theorem trialLoop_two {w : Nat} (hw : DigitWidth w) {p : Mpi} {n : Nat} (hp : NatRep w p n) :
    ∀ ss : List Nat, (∀ s ∈ ss, 0 < s ∧ s < 2 ^ 63) → n ∈ ss → (∀ s ∈ ss, s ∣ n → s = n) →
    trialLoop w p ss = some 2
  | [], _, h, _ => by simp at h
  | s :: ss, hs, h, hd => by
    have h0 := hs s (by simp)
    rw [trialLoop_cons hw hp ss h0.1 h0.2]
    by_cases c : s = n
    · rw [if_pos c]
    · rw [if_neg c, if_neg (fun h => c (hd s (by simp) h))]
      have h' : n ∈ ss := by
        rcases List.mem_cons.1 h with h | h
        · exact absurd h.symm c
        · exact h
      exact trialLoop_two hw hp ss (fun t ht => hs t (by simp [ht])) h' (fun t ht => hd t (by simp [ht]))

theorem trialLoop_one {w : Nat} (hw : DigitWidth w) {p : Mpi} {n : Nat} (hp : NatRep w p n) :
    ∀ ss : List Nat, (∀ s ∈ ss, 0 < s ∧ s < 2 ^ 63) → n ∉ ss → (∃ s ∈ ss, s ∣ n) →
    trialLoop w p ss = some 1
  | [], _, _, h => by simp at h
  | s :: ss, hs, hn, hd => by
    have h0 := hs s (by simp)
    rw [trialLoop_cons hw hp ss h0.1 h0.2, if_neg (by rintro rfl; simp at hn)]
    by_cases c : s ∣ n
    · rw [if_pos c]
    · rw [if_neg c]
      refine trialLoop_one hw hp ss (fun t ht => hs t (by simp [ht])) (fun h => hn (by simp [h])) ?_
      obtain ⟨t, ht, hd⟩ := hd
      rcases List.mem_cons.1 ht with rfl | ht
      · exact absurd hd c
      · exact ⟨t, ht, hd⟩

theorem trialLoop_zero {w : Nat} (hw : DigitWidth w) {p : Mpi} {n : Nat} (hp : NatRep w p n) :
    ∀ ss : List Nat, (∀ s ∈ ss, 0 < s ∧ s < 2 ^ 63) → (∀ s ∈ ss, ¬ s ∣ n) →
    trialLoop w p ss = some 0
  | [], _, _ => rfl
  | s :: ss, hs, hd => by
    have h0 := hs s (by simp)
    rw [trialLoop_cons hw hp ss h0.1 h0.2, if_neg (by rintro rfl; exact hd s (by simp) dvd_rfl),
      if_neg (hd s (by simp))]
    exact trialLoop_zero hw hp ss (fun t ht => hs t (by simp [ht])) (fun t ht => hd t (by simp [ht]))

theorem smallPrimes_range : ∀ s ∈ smallPrimes, 0 < s ∧ s < 2 ^ 63 := by decide +kernel

theorem isOne_iff {w : Nat} (hw : 8 ≤ w) {x : Mpi} {n : Nat} (h : NatRep w x n) :
    isOne x = true ↔ n = 1 := by
  rw [← h.digs_one_iff hw]
  obtain ⟨s, d⟩ := x
  match d with
  | [] => simp [isOne]
  | [a] => simp [isOne, dig]
  | a :: b :: l => simp [isOne]

/-- Odd part of the magnitude. -/
theorem calcLoop_spec {w : Nat} (hw : 8 ≤ w) : ∀ (a fuel : Nat) (m : Mpi) (ret o : Nat),
    Norm (2 ^ w) m → val (2 ^ w) m.digs = 2 ^ a * o → o % 2 = 1 → a < fuel →
    ∃ m', calcLoop w fuel m ret = some (ret + a, m') ∧ Norm (2 ^ w) m' ∧ m'.neg = m.neg ∧
      val (2 ^ w) m'.digs = o
  | a, 0, _, _, _, _, _, _, h => by omega
  | 0, fuel + 1, m, ret, o, hm, hv, ho, _ => by
    refine ⟨m, ?_, hm, rfl, by simpa using hv⟩
    rw [calcLoop, if_pos]
    · rfl
    · rw [isOdd_correct (w := w) (by omega)]
      unfold Mpi.toInt
      split <;> omega
  | a + 1, fuel + 1, m, ret, o, hm, hv, ho, hf => by
    obtain ⟨h1, h2, h3⟩ := shr_spec (w := w) (by omega) hm 1
    have hv' : val (2 ^ w) (shr w m 1).digs = 2 ^ a * o := by
      rw [h1, hv, pow_one, pow_succ]
      rw [show 2 ^ a * 2 * o = 2 * (2 ^ a * o) by ring]
      exact Nat.mul_div_cancel_left _ (by omega)
    obtain ⟨m', e, r1, r2, r3⟩ := calcLoop_spec hw a fuel (shr w m 1) (ret + 1) o h2 hv' ho (by omega)
    refine ⟨m', ?_, r1, ?_, r3⟩
    · rw [calcLoop, if_neg, e, Nat.add_right_comm, Nat.add_assoc]
      rw [isOdd_correct (w := w) (by omega)]
      have : val (2 ^ w) m.digs % 2 = 0 := by
        rw [hv, pow_succ, show 2 ^ a * 2 * o = 2 * (2 ^ a * o) by ring]
        exact Nat.mul_mod_right _ _
      unfold Mpi.toInt
      split <;> omega
    · rw [r2]
      rcases h3 with h | h
      · exact h
      · exfalso
        rw [h, val_nil] at hv'
        have : 0 < 2 ^ a * o := Nat.mul_pos (Nat.two_pow_pos a) (by omega)
        omega

/-- Zero is never odd: the loop of `calc_b_and_m` does not end, whatever the bound. -/
theorem calcLoop_zero (w : Nat) (s : Bool) : ∀ fuel ret, calcLoop w fuel ⟨s, []⟩ ret = none
  | 0, _ => rfl
  | fuel + 1, ret => by
    have h : shr w ⟨s, []⟩ 1 = ⟨s, []⟩ := by
      simp [shr, shrd, adjust, shrBits]
    rw [calcLoop, h, calcLoop_zero w s fuel]
    simp [isOdd]

theorem exists_odd_part {n : Nat} (h : n ≠ 0) : ∃ a o, n = 2 ^ a * o ∧ o % 2 = 1 := by
  obtain ⟨a, o, ho, e⟩ := Nat.exists_eq_two_pow_mul_odd h
  exact ⟨a, o, e, Nat.odd_iff.1 ho⟩

/-- One turn of the squaring loop. -/
theorem mrLoop_succ {w : Nat} (hw : DigitWidth w) {p z : Mpi} {n v : Nat} (hp : NatRep w p n)
    (hz : NatRep w z v) (hn : 0 < n) (i : Nat) :
    ∃ z', NatRep w z' (v * v % n) ∧ mrLoop w p (i + 1) z =
      if v = 1 then .res false else if v + 1 = n then .res true else mrLoop w p i z' := by
  have hw8 := hw.pos
  obtain ⟨t, e1, r1⟩ := hz.add hw8 (NatRep.one hw8)
  obtain ⟨q, e2, r2⟩ := hz.mul hw8 false hz
  obtain ⟨z', e3, r3⟩ := r2.mod hw hp hn
  refine ⟨z', r3, ?_⟩
  rw [mrLoop, e1, e2]
  dsimp only
  rw [e3]
  dsimp only
  have hc := r1.cmp_eq hp
  have ho := isOne_iff hw8 hz
  by_cases c1 : v = 1
  · rw [if_pos (ho.2 c1), if_pos c1]
  · rw [if_neg (fun h => c1 (ho.1 h)), if_neg c1]
    by_cases c2 : v + 1 = n
    · rw [if_pos (hc.2 c2), if_pos c2]
    · rw [if_neg (fun h => c2 (hc.1 h)), if_neg c2]

theorem mrLoop_end {w : Nat} (hw : 8 ≤ w) {p z : Mpi} {n v : Nat} (hp : NatRep w p n)
    (hz : NatRep w z v) : mrLoop w p 0 z = .res (decide (v + 1 = n)) := by
  obtain ⟨t, e1, r1⟩ := hz.add hw (NatRep.one hw)
  rw [mrLoop, e1]
  have hc := r1.cmp_eq hp
  by_cases c2 : v + 1 = n
  · simp [hc.2 c2, c2]
  · have : ¬ cmp t p = 0 := fun h => c2 (hc.1 h)
    simp [this, c2]

/-- For a prime modulus the loop passes any value whose `2^b`-th power is one. -/
theorem mrLoop_prime {w : Nat} (hw : DigitWidth w) {p : Mpi} {n : Nat} (hp : NatRep w p n)
    (hn : n.Prime) : ∀ (b : Nat) (z : Mpi) (v : Nat), NatRep w z v → v < n → v ≠ 1 →
    ((v : ZMod n)) ^ 2 ^ b = 1 → mrLoop w p b z = .res true
  | 0, z, v, hz, hlt, h1, hpow => by
    exfalso
    apply h1
    rw [pow_zero, pow_one] at hpow
    have : ((v : Nat) : ZMod n) = ((1 : Nat) : ZMod n) := by simpa using hpow
    rw [ZMod.natCast_eq_natCast_iff] at this
    have h2 := hn.two_le
    exact Nat.ModEq.eq_of_lt_of_lt this hlt (by omega)
  | b + 1, z, v, hz, hlt, h1, hpow => by
    haveI := Fact.mk hn
    obtain ⟨z', r, e⟩ := mrLoop_succ hw hp hz hn.pos b
    rw [e, if_neg h1]
    by_cases c : v + 1 = n
    · rw [if_pos c]
    · rw [if_neg c]
      have hcast : ((v * v % n : Nat) : ZMod n) = (v : ZMod n) ^ 2 := by
        rw [ZMod.natCast_mod]; push_cast; ring
      refine mrLoop_prime hw hp hn b z' _ r (Nat.mod_lt _ hn.pos) ?_ ?_
      · intro hv
        rw [hv] at hcast
        have h2 : (v : ZMod n) ^ 2 = 1 := by rw [← hcast]; simp
        rcases sq_eq_one_iff.1 h2 with h | h
        · have h' : ((v : Nat) : ZMod n) = ((1 : Nat) : ZMod n) := by simpa using h
          rw [ZMod.natCast_eq_natCast_iff] at h'
          have h2 := hn.two_le
          exact h1 (Nat.ModEq.eq_of_lt_of_lt h' hlt (by omega))
        · have h' : ((v + 1 : Nat) : ZMod n) = 0 := by push_cast; rw [h]; ring
          rw [ZMod.natCast_eq_zero_iff] at h'
          have := Nat.le_of_dvd (by omega) h'
          omega
      · rw [hcast, ← pow_mul, ← pow_succ']
        exact hpow

/-- Base zero never passes. -/
theorem mrLoop_zero {w : Nat} (hw : DigitWidth w) {p : Mpi} {n : Nat} (hp : NatRep w p n)
    (hn : 2 ≤ n) : ∀ (b : Nat) (z : Mpi), NatRep w z 0 → mrLoop w p b z = .res false
  | 0, z, hz => by
    rw [mrLoop_end hw.pos hp hz]
    congr 1
    simp; omega
  | b + 1, z, hz => by
    obtain ⟨z', r, e⟩ := mrLoop_succ hw hp hz (by omega) b
    rw [e, if_neg (by omega), if_neg (by omega)]
    exact mrLoop_zero hw hp hn b z' (by simpa using r)

/-- The parts of `passes_miller_rabin`. -/
theorem passesMR_spec {w : Nat} (hw : DigitWidth w) {p : Mpi} {n : Nat} (hp : NatRep w p n)
    (hn : 2 ≤ n) (bs : List Byte) {a : Mpi} {av : Nat} (ha : randRange w false 8 p bs = .ok a)
    (har : NatRep w a av) :
    ∃ b o z, n - 1 = 2 ^ b * o ∧ o % 2 = 1 ∧ NatRep w z (av ^ o % n) ∧
      passesMR w p bs = if av ^ o % n = 1 then .res true else mrLoop w p b z := by
  have hw8 := hw.pos
  obtain ⟨m, e1, r1⟩ := hp.sub hw8 (NatRep.one hw8) (by omega)
  obtain ⟨b, o, hbo, ho⟩ := exists_odd_part (n := n - 1) (by omega)
  have hbits : countBits w p = Nat.size n := by rw [countBits_spec hw hp.norm, hp.value]
  have hb : b < countBits w p + 1 := by
    have h1 : 2 ^ b ≤ n := by
      have : 2 ^ b * 1 ≤ 2 ^ b * o := Nat.mul_le_mul_left _ (by omega)
      omega
    have h2 := Nat.lt_size_self n
    rw [hbits]
    have := (Nat.pow_lt_pow_iff_right (a := 2) (by omega)).1 (lt_of_le_of_lt h1 h2)
    omega
  obtain ⟨m', e2, r2, r3, r4⟩ := calcLoop_spec hw8 b (countBits w p + 1) m 0 o r1.norm
    (by rw [r1.value, hbo]) ho hb
  have hm' : NatRep w m' o := ⟨r2, by rw [r3, r1.neg], r4⟩
  obtain ⟨z, e3, r5⟩ := har.modExp hw hm' hp (by omega)
  refine ⟨b, o, z, hbo, ho, r5, ?_⟩
  unfold passesMR
  rw [e1]
  dsimp only
  rw [e2]
  dsimp only
  rw [ha]
  dsimp only
  rw [e3]
  dsimp only
  have h1 := isOne_iff hw8 r5
  rw [Nat.zero_add]
  by_cases c : av ^ o % n = 1
  · rw [if_pos (h1.2 c), if_pos c]
  · rw [if_neg (fun h => c (h1.1 h)), if_neg c]

theorem passesMR_prime {w : Nat} (hw : DigitWidth w) {p : Mpi} {n : Nat} (hp : NatRep w p n)
    (hn : n.Prime) (bs : List Byte) {a : Mpi} {av : Nat} (ha : randRange w false 8 p bs = .ok a)
    (har : NatRep w a av) (hlt : av < n) : passesMR w p bs = .res (decide (av ≠ 0)) := by
  haveI := Fact.mk hn
  obtain ⟨b, o, z, h1, h2, h3, e⟩ := passesMR_spec hw hp hn.two_le bs ha har
  rw [e]
  by_cases c : av = 0
  · subst c
    have h0 : 0 ^ o % n = 0 := by rw [Nat.zero_pow (by omega)]; simp
    rw [h0] at h3
    rw [h0, if_neg (by omega), mrLoop_zero hw hp hn.two_le b z h3]
    simp
  · have hne : (av : ZMod n) ≠ 0 := by
      intro h
      rw [ZMod.natCast_eq_zero_iff] at h
      exact c (Nat.eq_zero_of_dvd_of_lt h hlt)
    have hf := ZMod.pow_card_sub_one_eq_one hne
    split
    · simp [c]
    · next c2 =>
      rw [mrLoop_prime hw hp hn b z _ h3 (Nat.mod_lt _ hn.pos) c2]
      · simp [c]
      · rw [ZMod.natCast_mod]
        push_cast
        rw [← pow_mul, Nat.mul_comm, ← h1, hf]

end Verif.Mpi
