import Verif.Model.Mpi.PrimeGen
import Verif.Lemmas.Mpi.ModExp
import Verif.Lemmas.Mpi.NatRepPk
import Verif.Lemmas.PrimeCandidate
/-! Lemmas about prime number generation. -/
namespace Verif.Mpi

theorem or_two_pow (n k : Nat) : n ||| 2 ^ k = if n.testBit k then n else n + 2 ^ k := by
  split_ifs with h
  · apply Nat.eq_of_testBit_eq
    intro i
    rw [Nat.testBit_or, Nat.testBit_two_pow]
    by_cases hi : k = i
    · subst hi; simp [h]
    · simp [hi]
  · have e : n + 2 ^ k = 2 ^ (k + 1) * (n / 2 ^ (k + 1)) + (2 ^ k + n % 2 ^ k) := by
      have h1 : n % 2 ^ (k + 1) = n % 2 ^ k := by
        rw [pow_succ, Nat.mod_mul]
        rw [Nat.testBit_eq_decide_div_mod_eq] at h
        have : n / 2 ^ k % 2 = 0 := by simp at h; omega
        rw [this]; simp
      have := Nat.div_add_mod n (2 ^ (k + 1))
      omega
    have hlt := Nat.mod_lt n (Nat.two_pow_pos k)
    have hlt' : 2 ^ k + n % 2 ^ k < 2 ^ (k + 1) := by rw [pow_succ]; omega
    rw [e]
    apply Nat.eq_of_testBit_eq
    intro i
    rw [Nat.testBit_or, Nat.testBit_two_pow, Nat.testBit_two_pow_mul_add _ hlt']
    by_cases hi : k = i
    · subst hi; simp [Nat.testBit_two_pow_add_eq]
    · by_cases hik : i < k + 1
      · have : i < k := by omega
        rw [if_pos hik, Nat.testBit_two_pow_add_gt (by omega), Nat.testBit_mod_two_pow]
        simp [this, hi]
      · rw [if_neg hik, Nat.testBit_div_two_pow]
        simp [hi]
        congr 1; omega

theorem setBit_in {w : Nat} (hw : 0 < w) {x : Mpi} (hx : Norm (2 ^ w) x) {bit : Nat} (h : bit / w < x.digs.length) :
    val (2 ^ w) (setBit w x bit).digs = val (2 ^ w) x.digs ||| 2 ^ bit ∧ Norm (2 ^ w) (setBit w x bit) ∧
      (setBit w x bit).neg = x.neg := by
  have hD := dig_eq (Nat.two_pow_pos w) hx.digits (i := bit / w)
  have hDlt : dig x.digs (bit / w) < 2 ^ w := by rw [hD]; exact Nat.mod_lt _ (Nat.two_pow_pos w)
  have hr : bit % w < w := Nat.mod_lt _ hw
  have hb : 2 ^ bit = (2 ^ w) ^ (bit / w) * 2 ^ (bit % w) := by
    rw [← pow_mul, ← pow_add, Nat.div_add_mod]
  have htb : (dig x.digs (bit / w)).testBit (bit % w) = (val (2 ^ w) x.digs).testBit bit := by
    rw [hD, ← pow_mul, Nat.testBit_mod_two_pow, Nat.testBit_div_two_pow]
    simp only [hr, decide_true, Bool.true_and]
    congr 1
    have := Nat.div_add_mod bit w; omega
  have hval : val (2 ^ w) (setBit w x bit).digs = val (2 ^ w) x.digs ||| 2 ^ bit := by
    have h1 := val_set (2 ^ w) x.digs (bit / w) (dig x.digs (bit / w) ||| 1 <<< (bit % w)) h
    show val (2 ^ w) (x.digs.set _ _) = _
    rw [Nat.one_shiftLeft] at h1 ⊢
    rw [or_two_pow, htb] at h1
    rw [or_two_pow (dig _ _), htb, or_two_pow]
    generalize (val (2 ^ w) x.digs).testBit bit = t at h1 ⊢
    cases t with
    | true => simp only [if_true] at h1 ⊢; omega
    | false =>
      simp only [Bool.false_eq_true, if_false] at h1 ⊢
      rw [hb, Nat.mul_comm ((2 ^ w) ^ _)]
      rw [Nat.add_mul] at h1
      omega
  have hdd : Digits (2 ^ w) (setBit w x bit).digs := by
    refine digits_set hx.digits ?_
    rw [Nat.one_shiftLeft]
    exact Nat.or_lt_two_pow hDlt (Nat.pow_lt_pow_right (by norm_num) hr)
  refine ⟨hval, ⟨hdd, ?_⟩, rfl⟩
  refine topNZ_of_val (Nat.two_pow_pos w) hdd ?_
  intro hne
  rw [hval]
  have hl : (setBit w x bit).digs.length = x.digs.length := by simp [setBit]
  rw [hl]
  have hx0 : x.digs ≠ [] := by intro e; rw [e] at h; simp at h
  refine le_trans (val_pos_of_top (Nat.two_pow_pos w) hx.top hx0) Nat.left_le_or

theorem setBit_out {w : Nat} {x : Mpi} {bit : Nat} (h : x.digs.length ≤ bit / w) : setBit w x bit = x := by
  obtain ⟨s, d⟩ := x
  simp only [setBit]
  rw [List.set_eq_of_length_le h]

/-- The value of a candidate made from random bytes of value `V`: as wanted, unless the leading digit of `V` is zero; then
only the lowest bit is set, and nothing is set when `V` is zero. -/
def candVal (w bits V : Nat) : Nat :=
  if V < (2 ^ w) ^ ((bits - 1) / w) then (if V = 0 then 0 else V ||| 1) else Spec.primeCandidate bits V

theorem one_or_lt {V k : Nat} (h : V < 2 ^ k) (hk : 0 < k) : V ||| 1 < 2 ^ k :=
  Nat.or_lt_two_pow h (Nat.one_lt_two_pow (by omega))

theorem primeCand_spec {w : Nat} (hw : DigitWidth w) (alloc : Nat) {bits : Nat} (hb : 0 < bits) (h8 : bits % 8 = 0)
    {bs : List Byte} (hl : bs.length = bits / 8) :
    (primeCand w false alloc bits bs = .ub ∧ alloc * w < bits) ∨
    ∃ c, primeCand w false alloc bits bs = .ok c ∧ NatRep w c (candVal w bits (beVal bs)) := by
  have hw8 := hw.pos
  have hw0 : 0 < w := by omega
  have hl' : bs.length = (bits + 7) / 8 := by omega
  have hVlt : beVal bs < 2 ^ bits := by
    have := beVal_lt bs
    rw [← two_pow_eight_mul, hl] at this
    rwa [show 8 * (bits / 8) = bits by omega] at this
  have hsame : (bits - 2) / w = (bits - 1) / w := by
    obtain ⟨B, hB, rfl⟩ := hw.bytes
    obtain ⟨k, rfl⟩ : ∃ k, bits = 8 * k := ⟨bits / 8, by omega⟩
    rw [← Nat.div_div_eq_div_mul, ← Nat.div_div_eq_div_mul]
    congr 1
    omega
  by_cases hV : beVal bs < (2 ^ w) ^ ((bits - 1) / w)
  · by_cases hub : rand w false alloc bits bs = .ub
    · left
      refine ⟨by unfold primeCand; rw [hub], ?_⟩
      by_contra hc
      exact rand_ne_ub alloc bits bs false (by omega) hw0 hub
    · right
      obtain ⟨l1, l2, l3, l4⟩ := loadBin_spec hw false bs
      have hr := rand_small hw false (alloc := alloc) hb hV
      split at hr
      · exact absurd hr hub
      have hlen := length_le_of_lt (one_lt_two_pow hw0) l1 (by rw [l2]; exact hV)
      refine ⟨_, by unfold primeCand; rw [hr], ?_⟩
      unfold candVal
      rw [if_pos hV]
      by_cases h0 : beVal bs = 0
      · have hnil := l4.2 h0
        have ho : ∀ b, setBit w (loadBin w false bs) b = loadBin w false bs := fun b =>
          setBit_out (by rw [hnil]; simp)
        rw [if_pos h0, ho, ho, ho]
        exact ⟨l1, by rw [l3]; rfl, by rw [l2, h0]⟩
      · have hne : 0 < (loadBin w false bs).digs.length := by
          rw [List.length_pos_iff]; exact fun e => h0 (l4.1 e)
        obtain ⟨s1, s2, s3⟩ := setBit_in hw0 l1 (bit := 0) (by simpa using hne)
        have hs : (setBit w (loadBin w false bs) 0).digs.length = (loadBin w false bs).digs.length := by simp [setBit]
        rw [if_neg h0, setBit_out (x := setBit w (loadBin w false bs) 0) (by omega), setBit_out (by omega)]
        exact ⟨s2, by rw [s3, l3]; rfl, by rw [s1, l2]; simp⟩
  · right
    obtain ⟨x, r1, r2, r3, r4⟩ := rand_spec hw false (alloc := alloc) hb hl' (by omega)
    refine ⟨_, by unfold primeCand; rw [r1], ?_⟩
    have hge : (2 ^ w) ^ ((bits - 1) / w) ≤ val (2 ^ w) x.digs := by
      rw [r4, ← pow_mul]
      refine le_trans (Nat.pow_le_pow_right (by norm_num) ?_) (Nat.le_add_left _ _)
      exact Nat.mul_div_le _ _
    have hlen : (bits - 1) / w < x.digs.length := by
      have := val_lt r2.digits
      exact (Nat.pow_lt_pow_iff_right (one_lt_two_pow hw0)).1 (Nat.lt_of_le_of_lt hge this)
    obtain ⟨s1, s2, s3⟩ := setBit_in hw0 r2 (bit := 0) (by rw [Nat.zero_div]; exact Nat.lt_of_le_of_lt (Nat.zero_le _) hlen)
    obtain ⟨t1, t2, t3⟩ := setBit_in hw0 s2 (bit := bits - 1) (by simpa [setBit] using hlen)
    obtain ⟨u1, u2, u3⟩ := setBit_in hw0 t2 (bit := bits - 2) (by simpa [setBit, hsame] using hlen)
    refine ⟨u2, by rw [u3, t3, s3, r3], ?_⟩
    rw [u1, t1, s1, r4]
    unfold candVal Spec.primeCandidate
    rw [if_neg hV]
    congr 1
    have hmod : beVal bs % 2 ^ (bits - 1) + 2 ^ (bits - 1) = beVal bs ||| 2 ^ (bits - 1) := by
      rw [or_two_pow]
      have hp : 2 ^ bits = 2 * 2 ^ (bits - 1) := by rw [← pow_succ']; congr 1; omega
      rw [Nat.testBit_eq_decide_div_mod_eq]
      have hdm := Nat.div_add_mod (beVal bs) (2 ^ (bits - 1))
      have hlt2 : beVal bs / 2 ^ (bits - 1) < 2 := by
        rw [Nat.div_lt_iff_lt_mul (Nat.two_pow_pos _)]; omega
      generalize 2 ^ (bits - 1) = P at *
      generalize beVal bs / P = Q at *
      rcases (show Q = 0 ∨ Q = 1 by omega) with rfl | rfl
      · simp at hdm ⊢; omega
      · simp at hdm ⊢; omega
    rw [hmod, Nat.pow_zero, Nat.or_assoc, Nat.or_assoc, Nat.or_comm (2 ^ (bits - 1)), Nat.or_assoc, Nat.or_self,
      ← Nat.or_assoc]

end Verif.Mpi
