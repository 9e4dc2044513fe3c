import Verif.Lemmas.Mpi.PrimeErr
/-!
# C63: generation of primes (`cry_mpi_prime`)

Full statement: a successful call leaves a number of exactly `bits` bits with the lowest bit and the two highest bits set
which `cry_mpi_is_prime` accepts, after rejecting all candidates drawn before; and the call is successful when one of the
first `*iter` candidates is accepted.

False of the code in three ways, shown below: a candidate accepted in the last turn allowed is reported as a failure
(`prime_last_turn`); when the leading random bytes are zero the number is too short (`prime_short`) or the call does
not end (`prime_hangs`).
-/
namespace Verif.Mpi

/-- The bytes delivered have the lengths asked for. -/
def DrawOk (w bits : Nat) (draw : Nat → PrimeDraw) : Prop :=
  ∀ i, (draw i).bytes.length = bits / 8 ∧ ∀ c j, NatRep w c (candVal w bits (beVal (draw i).bytes)) →
    ((draw i).mr j).length = (countBits w c + 7) / 8

theorem le_grow (alloc n : Nat) : alloc ≤ grow alloc n := by unfold grow; split <;> omega

theorem primeLoop_success {w : Nat} (hw : DigitWidth w) {bits : Nat} (hb : 0 < bits) (h8 : bits % 8 = 0)
    {draw : Nat → PrimeDraw} (hd : DrawOk w bits draw) : ∀ (n i alloc : Nat) (p p' : Mpi) (it : Nat), p.neg = false →
    primeLoop w bits draw n i alloc p = .ok 0 p' it →
    ∃ k, k + 1 < n ∧ it = i + k + 1 ∧ NatRep w p' (candVal w bits (beVal (draw (i + k)).bytes)) ∧
      isPrime w (draw (i + k)).mr p' = .res true ∧
      ∀ j < k, ∀ c, NatRep w c (candVal w bits (beVal (draw (i + j)).bytes)) →
        isPrime w (draw (i + j)).mr c = .res false
  | 0, i, alloc, p, p', it, _, h => by simp [primeLoop] at h
  | n + 1, i, alloc, p, p', it, hp, h => by
    rw [primeLoop, hp] at h
    rcases primeCand_spec hw alloc hb h8 (hd i).1 with ⟨e, -⟩ | ⟨c, e, hc⟩
    · rw [e] at h; cases h
    · rw [e] at h
      dsimp only at h
      cases hq : isPrime w (draw i).mr c with
      | ub => rw [hq] at h; cases h
      | hang => rw [hq] at h; cases h
      | err => rw [hq] at h; cases h
      | res b =>
        rw [hq] at h
        cases b with
        | true =>
          by_cases hn : n = 0
          · simp [hn] at h
          · simp only [if_neg hn] at h
            cases h
            exact ⟨0, by omega, by omega, hc, hq, fun j hj => absurd hj (by omega)⟩
        | false =>
          dsimp only at h
          obtain ⟨k, k1, k2, k3, k4, k5⟩ := primeLoop_success hw hb h8 hd n (i + 1) _ c p' it hc.neg h
          refine ⟨k + 1, by omega, by omega, ?_, ?_, ?_⟩
          · rw [show i + (k + 1) = i + 1 + k by omega]; exact k3
          · rw [show i + (k + 1) = i + 1 + k by omega]; exact k4
          · intro j hj c' hc'
            cases j with
            | zero => rw [Nat.add_zero] at hc' ⊢; rw [hc'.unique hc]; exact hq
            | succ j =>
              rw [show i + (j + 1) = i + 1 + j by omega] at hc' ⊢
              exact k5 j (by omega) c' hc'

/-- The converse: the first candidate accepted is the result, and what is reported depends on whether turns are left. -/
theorem primeLoop_first {w : Nat} (hw : DigitWidth w) {bits : Nat} (hb : 0 < bits) (h8 : bits % 8 = 0)
    {draw : Nat → PrimeDraw} (hd : DrawOk w bits draw) : ∀ (k n i alloc : Nat) (p p' : Mpi), p.neg = false →
    bits ≤ alloc * w → k < n → NatRep w p' (candVal w bits (beVal (draw (i + k)).bytes)) →
    isPrime w (draw (i + k)).mr p' = .res true →
    (∀ j < k, ∀ c, NatRep w c (candVal w bits (beVal (draw (i + j)).bytes)) →
        isPrime w (draw (i + j)).mr c = .res false) →
    primeLoop w bits draw n i alloc p = .ok (if n = k + 1 then -1 else 0) p' (i + k + 1)
  | _, 0, _, _, _, _, _, _, hk, _, _, _ => absurd hk (by omega)
  | 0, n + 1, i, alloc, p, p', hp, ha, hk, hr, hacc, _ => by
    rw [primeLoop, hp]
    rcases primeCand_spec hw alloc hb h8 (hd i).1 with ⟨-, e⟩ | ⟨c, e, hc⟩
    · omega
    · rw [e]
      dsimp only
      rw [Nat.add_zero] at hr hacc
      rw [hc.unique hr, hacc]
      simp
  | k + 1, n + 1, i, alloc, p, p', hp, ha, hk, hr, hacc, hrej => by
    rw [primeLoop, hp]
    rcases primeCand_spec hw alloc hb h8 (hd i).1 with ⟨-, e⟩ | ⟨c, e, hc⟩
    · omega
    · rw [e]
      dsimp only
      rw [show isPrime w (draw i).mr c = .res false from hrej 0 (by omega) c hc]
      dsimp only
      have hg : bits ≤ grow alloc c.digs.length * w := le_trans ha (Nat.mul_le_mul_right _ (le_grow _ _))
      have e1 : i + (k + 1) = i + 1 + k := by omega
      rw [e1] at hr hacc
      have hrej' : ∀ j < k, ∀ c, NatRep w c (candVal w bits (beVal (draw (i + 1 + j)).bytes)) →
          isPrime w (draw (i + 1 + j)).mr c = .res false := by
        intro j hj c hc
        have := hrej (j + 1) (by omega) c
        rw [show i + (j + 1) = i + 1 + j by omega] at this
        exact this hc
      rw [primeLoop_first hw hb h8 hd k n (i + 1) _ c p' hc.neg hg (by omega) hr hacc hrej', e1]
      simp

/-- C63, partial: exactly when a call succeeds, with which number, and what is stored in `*iter`, for all bytes of the
generator.  Missing from the full statement: acceptance in the last of the `itermax` turns (`k + 1 = itermax`), and the
length of the number when its leading random digit is zero (see `candVal`). -/
theorem prime_success_iff_partial {w : Nat} (hw : DigitWidth w) {bits : Nat} (hb : 0 < bits) (h8 : bits % 8 = 0)
    {draw : Nat → PrimeDraw} (hd : DrawOk w bits draw) (old : Mpi) (hs : old.neg = false) (alloc itermax : Nat)
    (ha : bits ≤ alloc * w) (p : Mpi) (it : Nat) :
    prime w old alloc bits itermax draw = .ok 0 p it ↔
    ∃ k, k + 1 < itermax ∧ it = k + 1 ∧ NatRep w p (candVal w bits (beVal (draw k).bytes)) ∧
      isPrime w (draw k).mr p = .res true ∧
      ∀ j < k, ∀ c, NatRep w c (candVal w bits (beVal (draw j).bytes)) → isPrime w (draw j).mr c = .res false := by
  have hand : ¬ (bits &&& 7 ≠ 0 ∨ bits = 0) := by
    have : bits &&& 7 = bits % 8 := Nat.and_two_pow_sub_one_eq_mod bits 3
    omega
  unfold prime
  rw [if_neg hand]
  constructor
  · intro h
    obtain ⟨k, k1, k2, k3, k4, k5⟩ := primeLoop_success hw hb h8 hd itermax 0 alloc old p it hs h
    simp only [Nat.zero_add] at k2 k3 k4 k5
    exact ⟨k, k1, k2, k3, k4, k5⟩
  · rintro ⟨k, k1, rfl, k3, k4, k5⟩
    have := primeLoop_first hw hb h8 hd k itermax 0 alloc old p hs ha (by omega) (by simpa using k3)
      (by simpa using k4) (by simpa using k5)
    rw [this, if_neg (by omega), Nat.zero_add]

/-- C63, partial: when no leading random digit is zero, the number has exactly the length asked for, its two highest bits
and its lowest bit are set, it is accepted by the primality test, and it has no odd prime factor below 1010 except
itself.  Any number of digits may be allocated. -/
theorem prime_form_partial {w : Nat} (hw : DigitWidth w) {bits : Nat} (hb : 0 < bits) (h8 : bits % 8 = 0)
    {draw : Nat → PrimeDraw} (hd : DrawOk w bits draw)
    (hlead : ∀ i, (2 ^ w) ^ ((bits - 1) / w) ≤ beVal (draw i).bytes) (old : Mpi) (hs : old.neg = false)
    (alloc itermax : Nat) (p : Mpi) (it : Nat) (h : prime w old alloc bits itermax draw = .ok 0 p it) :
    ∃ k n, it = k + 1 ∧ k + 1 < itermax ∧ NatRep w p n ∧ n = Spec.primeCandidate bits (beVal (draw k).bytes) ∧
      Nat.size n = bits ∧ 3 * 2 ^ (bits - 2) ≤ n ∧ n % 2 = 1 ∧ isPrime w (draw k).mr p = .res true ∧
      ∀ s, s.Prime → s < 1010 → s ∣ n → s = n := by
  have hand : ¬ (bits &&& 7 ≠ 0 ∨ bits = 0) := by
    have : bits &&& 7 = bits % 8 := Nat.and_two_pow_sub_one_eq_mod bits 3
    omega
  unfold prime at h
  rw [if_neg hand] at h
  obtain ⟨k, k1, k2, k3, k4, -⟩ := primeLoop_success hw hb h8 hd itermax 0 alloc old p it hs h
  simp only [Nat.zero_add] at k2 k3 k4
  have hVlt : beVal (draw k).bytes < 2 ^ bits := by
    have := beVal_lt (draw k).bytes
    rw [← two_pow_eight_mul, (hd k).1] at this
    rwa [show 8 * (bits / 8) = bits by omega] at this
  have hcv : candVal w bits (beVal (draw k).bytes) = Spec.primeCandidate bits (beVal (draw k).bytes) := by
    unfold candVal; rw [if_neg (by have := hlead k; omega)]
  rw [hcv] at k3
  have hodd := Spec.primeCandidate_odd (bits := bits) (beVal (draw k).bytes) (by omega)
  refine ⟨k, _, k2, k1, k3, rfl, Spec.primeCandidate_size (by omega) hVlt, Spec.primeCandidate_ge _ (by omega),
    hodd, k4, ?_⟩
  intro s sp sl sd
  by_contra hne
  have h2 : s ≠ 2 := by
    rintro rfl
    have := Nat.mod_eq_zero_of_dvd sd
    omega
  have := isPrime_small_factor hw p k3.wf _ k3.toInt s sp h2 sl sd hne (draw k).mr
  rw [this] at k4
  cases k4

/-- What the comment in the code promises for RSA: the product of two such numbers has exactly twice the length. -/
theorem prime_product {bits U V : Nat} (hb : 0 < bits) (h8 : bits % 8 = 0) (hU : U < 2 ^ bits) (hV : V < 2 ^ bits) :
    Nat.size (Spec.primeCandidate bits U * Spec.primeCandidate bits V) = 2 * bits :=
  Spec.primeCandidate_mul_size (by omega) hU hV

/-- A length that is 0 or not a multiple of 8 is refused, and the object and `*iter` are not changed. -/
theorem prime_bad_length (w : Nat) (old : Mpi) (alloc bits itermax : Nat) (draw : Nat → PrimeDraw)
    (h : bits = 0 ∨ bits % 8 ≠ 0) : prime w old alloc bits itermax draw = .ok (-1) old itermax := by
  have : bits &&& 7 = bits % 8 := Nat.and_two_pow_sub_one_eq_mod bits 3
  unfold prime
  rw [if_pos (by omega)]

/-- C63 is false of the code, last turn: a candidate accepted in the last turn allowed is left in the object, but the call
reports failure. -/
theorem prime_last_turn {w : Nat} (hw : DigitWidth w) {bits : Nat} (hb : 0 < bits) (h8 : bits % 8 = 0)
    {draw : Nat → PrimeDraw} (hd : DrawOk w bits draw) (old : Mpi) (hs : old.neg = false) (alloc k : Nat)
    (ha : bits ≤ alloc * w) (p : Mpi) (hr : NatRep w p (candVal w bits (beVal (draw k).bytes)))
    (hacc : isPrime w (draw k).mr p = .res true)
    (hrej : ∀ j < k, ∀ c, NatRep w c (candVal w bits (beVal (draw j).bytes)) → isPrime w (draw j).mr c = .res false) :
    prime w old alloc bits (k + 1) draw = .ok (-1) p (k + 1) := by
  have hand : ¬ (bits &&& 7 ≠ 0 ∨ bits = 0) := by
    have : bits &&& 7 = bits % 8 := Nat.and_two_pow_sub_one_eq_mod bits 3
    omega
  unfold prime
  rw [if_neg hand, primeLoop_first hw hb h8 hd k (k + 1) 0 alloc old p hs ha (by omega) (by simpa using hr)
    (by simpa using hacc) (by simpa using hrej)]
  simp

/-- In particular no call that allows one turn succeeds. -/
theorem prime_one_turn {w : Nat} (old : Mpi) (alloc bits : Nat) (draw : Nat → PrimeDraw) (p : Mpi) (it : Nat) :
    prime w old alloc bits 1 draw ≠ .ok 0 p it := by
  unfold prime
  split_ifs with h
  · simp
  · rw [primeLoop]
    cases primeCand w old.neg alloc bits (draw 0).bytes with
    | ub => simp
    | err => simp
    | ok c =>
      dsimp only
      cases isPrime w (draw 0).mr c with
      | ub => simp
      | hang => simp
      | err => simp
      | res b => cases b <;> simp [primeLoop]

/-- Random bytes all zero except the last. -/
def shortDraw (w : Nat) (b : Byte) : Nat → PrimeDraw := fun _ => ⟨List.replicate (w / 8) 0#8 ++ [b], fun _ => [0#8]⟩

theorem shortDraw_val {w : Nat} (hw : DigitWidth w) (b : Byte) (hb : b ≠ 0#8) (i : Nat) :
    candVal w (w + 8) (beVal (shortDraw w b i).bytes) = b.toNat ||| 1 := by
  have hw8 := hw.pos
  have h1 : (w + 8 - 1) / w = 1 := by
    have : w + 8 - 1 = w + 7 := by omega
    rw [this, Nat.add_div_left _ (by omega), Nat.div_eq_of_lt (by omega)]
  have hv : beVal (shortDraw w b i).bytes = b.toNat := by
    simp only [shortDraw]
    rw [beVal_append, beVal_replicate_zero]
    simp [beVal]
  have hlt : b.toNat < 2 ^ w := lt_of_lt_of_le b.isLt (Nat.pow_le_pow_right (by norm_num) hw8)
  have hne : b.toNat ≠ 0 := fun e => hb (BitVec.eq_of_toNat_eq (by simpa using e))
  unfold candVal
  rw [h1, hv, pow_one, if_pos hlt, if_neg hne]

/-- C63 is false of the code, length: with a leading zero digit the "prime of `w + 8` bits" may be 3. -/
theorem prime_short {w : Nat} (hw : DigitWidth w) :
    prime w ⟨false, []⟩ 8 (w + 8) 2 (shortDraw w 3#8) = .ok 0 ⟨false, [3]⟩ 1 := by
  have hw8 := hw.pos
  have hm : w % 8 = 0 := by obtain ⟨B, hB, rfl⟩ := hw.bytes; omega
  have r3 : NatRep w ⟨false, [3]⟩ 3 := NatRep.digit hw8 (by omega) (by omega)
  have hcv := shortDraw_val hw 3#8 (by decide)
  have hd : DrawOk w (w + 8) (shortDraw w 3#8) := by
    intro i
    refine ⟨by simp [shortDraw], fun c j hc => ?_⟩
    rw [hcv] at hc
    rw [hc.countBits hw]
    rfl
  refine (prime_success_iff_partial hw (by omega) (by omega) hd _ rfl 8 2 ?_ _ _).2
    ⟨0, by omega, rfl, ?_, ?_, fun j hj => absurd hj (by omega)⟩
  · omega
  · rw [hcv]; exact r3
  · exact isPrime_small hw _ r3.wf 3 r3.toInt Nat.prime_three (by omega) (by omega) _

/-- C63 is false of the code, termination: with other bytes the candidate is 1 and the primality test does not end. -/
theorem prime_hangs {w : Nat} (hw : DigitWidth w) (itermax : Nat) (h : 0 < itermax) :
    prime w ⟨false, []⟩ 8 (w + 8) itermax (shortDraw w 1#8) = .hang := by
  have hw8 := hw.pos
  have hm : w % 8 = 0 := by obtain ⟨B, hB, rfl⟩ := hw.bytes; omega
  have hcv := shortDraw_val hw 1#8 (by decide) 0
  have hand : ¬ ((w + 8) &&& 7 ≠ 0 ∨ w + 8 = 0) := by
    have : (w + 8) &&& 7 = (w + 8) % 8 := Nat.and_two_pow_sub_one_eq_mod _ 3
    omega
  obtain ⟨n, rfl⟩ : ∃ n, itermax = n + 1 := ⟨itermax - 1, by omega⟩
  unfold prime
  rw [if_neg hand, primeLoop]
  rcases primeCand_spec hw 8 (bits := w + 8) (by omega) (by omega) (bs := (shortDraw w 1#8 0).bytes)
    (by simp [shortDraw]) with ⟨-, e⟩ | ⟨c, e, hc⟩
  · omega
  · rw [hcv] at hc
    have : c = ⟨false, [1]⟩ := hc.unique (NatRep.one hw8)
    rw [e, this]
    dsimp only
    rw [(isPrime_one_hangs hw _).1]

/-- A call that succeeds with a number of the right length, and one in which all candidates are rejected. -/
example : prime 64 ⟨false, []⟩ 8 16 2 (fun _ => ⟨[0x00, 0x04], fun _ => [5, 3]⟩) = .ok 0 ⟨false, [0xc005]⟩ 1 := by
  decide +kernel
example : prime 64 ⟨false, []⟩ 8 16 2 (fun _ => ⟨[0x00, 0x0a], fun _ => [0, 0]⟩) = .ok (-1) ⟨false, [0xc00b]⟩ 2 := by
  decide +kernel

end Verif.Mpi
