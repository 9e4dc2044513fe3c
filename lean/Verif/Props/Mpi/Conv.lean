import Verif.Lemmas.Mpi.Rand
import Verif.Props.Mpi.NumTheory
import Verif.Props.Mpi.Div
/-!
# C14, C16, C17: binary strings, native integers, random numbers
-/
namespace Verif.Mpi

/-! ## C14 -/

/-- C14: a buffer that cannot hold the magnitude is rejected. -/
theorem storeBin_too_small {w : Nat} (hw : DigitWidth w) (x : Mpi) (hx : WF (2 ^ w) x) (n : Nat)
    (pad : Bool) (h : 256 ^ n ≤ (x.toInt (2 ^ w)).natAbs) : storeBin w x n pad = none := by
  rw [natAbs_toInt] at h
  exact storeBin_none hw hx.toNorm n pad h

/-- C14: otherwise the big-endian magnitude is written; with padding it fills the buffer exactly,
without padding it takes the least number of bytes. -/
theorem storeBin_correct {w : Nat} (hw : DigitWidth w) (x : Mpi) (hx : WF (2 ^ w) x) (n : Nat)
    (pad : Bool) (h : (x.toInt (2 ^ w)).natAbs < 256 ^ n) :
    ∃ bs, storeBin w x n pad = some bs ∧ beVal bs = (x.toInt (2 ^ w)).natAbs ∧
      (pad = true → bs.length = n) ∧
      (pad = false → ∀ k, bs.length ≤ k ↔ (x.toInt (2 ^ w)).natAbs < 256 ^ k) := by
  have hcb : ∀ k, countBytes w x ≤ k ↔ (x.toInt (2 ^ w)).natAbs < 256 ^ k := by
    intro k
    unfold countBytes
    rw [countBits_spec hw hx.toNorm, natAbs_toInt, ← two_pow_eight_mul, ← Nat.size_le]
    omega
  rw [natAbs_toInt] at h
  obtain ⟨bs, h1, h2, h3⟩ := storeBin_spec hw hx.toNorm n pad h
  refine ⟨bs, h1, by rw [h3, natAbs_toInt], ?_, ?_⟩
  · rintro rfl; simpa using h2
  · rintro rfl k
    rw [← hcb k, h2]; rfl

/-- C14, partial.  Full statement: loading any byte string into any object gives the non-negative
number it denotes.  Proved for an object that was not negative before (in particular for
`cry_mpi_init_bin`).  Missing: previously negative objects, for which the claim is false. -/
theorem loadBin_correct_partial {w : Nat} (hw : DigitWidth w) (bs : List Byte) :
    WF (2 ^ w) (loadBin w false bs) ∧ (loadBin w false bs).toInt (2 ^ w) = beVal bs := by
  obtain ⟨l1, l2, l3, l4⟩ := loadBin_spec hw false bs
  have hn : (loadBin w false bs).neg = false := by rw [l3]; rfl
  exact ⟨wf_of_norm_false l1 hn, by rw [toInt_false hn, l2]⟩

/-- C14 is false of the code: a previously negative object gets the negated value. -/
theorem loadBin_stale_sign {w : Nat} (hw : DigitWidth w) (bs : List Byte) :
    WF (2 ^ w) (loadBin w true bs) ∧ (loadBin w true bs).toInt (2 ^ w) = -(beVal bs : Int) := by
  obtain ⟨l1, l2, l3, l4⟩ := loadBin_spec hw true bs
  refine ⟨⟨l1, fun e => ?_⟩, ?_⟩
  · rw [l3, l4.1 e]; rfl
  · unfold Mpi.toInt
    rw [l3, l2]
    by_cases h : beVal bs = 0 <;> simp [h]

/-- C14: storing and loading back gives the magnitude. -/
theorem store_load_bin {w : Nat} (hw : DigitWidth w) (x : Mpi) (hx : WF (2 ^ w) x) (n : Nat)
    (pad : Bool) (bs : List Byte) (h : storeBin w x n pad = some bs) (old : Bool) :
    ((loadBin w old bs).toInt (2 ^ w)).natAbs = (x.toInt (2 ^ w)).natAbs := by
  by_cases hc : (x.toInt (2 ^ w)).natAbs < 256 ^ n
  · obtain ⟨bs', h1, h2, -, -⟩ := storeBin_correct hw x hx n pad hc
    rw [h1] at h
    cases h
    rw [natAbs_toInt, (loadBin_spec hw old bs).2.1, h2]
  · rw [storeBin_too_small hw x hx n pad (by omega)] at h
    cases h

example : storeBin 16 ⟨true, [0x405, 0x203, 1]⟩ 7 true = some [0, 0, 1, 2, 3, 4, 5] := by decide
example : loadBin 16 true [0, 0, 1, 2, 3, 4, 5] = ⟨true, [0x405, 0x203, 1]⟩ := by decide
example : storeBin 16 ⟨false, [0x405, 0x203, 1]⟩ 4 true = none := by decide

/-! ## C16 -/

/-- C16, partial.  Full statement: every 64-bit `long` is stored exactly.  Missing: the least value,
whose negation overflows (undefined behaviour). -/
theorem setInt_correct_partial {w : Nat} (hw : DigitWidth w) (v : Int) (h1 : -2 ^ 63 < v)
    (h2 : v < 2 ^ 63) :
    ∃ x, setInt w v = some x ∧ WF (2 ^ w) x ∧ x.toInt (2 ^ w) = v := by
  obtain ⟨m1, m2⟩ := hw.mul_div
  have hw8 := hw.pos
  unfold setInt
  rw [if_neg (by omega)]
  split
  · obtain ⟨i1, i2, i3⟩ := setIntLoop_spec (w := w) (by omega) (64 / w) (-v).toNat
      (by rw [m1]; omega) m2
    refine ⟨_, rfl, ⟨⟨i1, i2⟩, ?_⟩, ?_⟩
    · intro e
      dsimp only at e
      rw [e, val_nil] at i3; omega
    · unfold Mpi.toInt
      dsimp only
      rw [i3, if_pos rfl]; omega
  · obtain ⟨i1, i2, i3⟩ := setIntLoop_spec (w := w) (by omega) (64 / w) v.toNat
      (by rw [m1]; omega) m2
    refine ⟨_, rfl, ⟨⟨i1, i2⟩, fun _ => rfl⟩, ?_⟩
    unfold Mpi.toInt
    dsimp only
    rw [i3, if_neg (by simp)]; omega

theorem setInt_min_ub (w : Nat) : setInt w (-2 ^ 63) = none := by simp [setInt]

/-- C16, partial.  Full statement: the value is returned if it fits a `long`, otherwise an error.
Proved for all numbers of magnitude below `2^63` and for all numbers of magnitude at least `2^64`,
and for all non-negative numbers.  Missing: negative numbers of magnitude between `2^63` and `2^64`,
where the claim is false. -/
theorem getInt_correct_partial (x : Mpi) (hx : WF (2 ^ 64) x)
    (h : x.toInt (2 ^ 64) ≤ -2 ^ 64 ∨ -2 ^ 63 < x.toInt (2 ^ 64)) :
    getInt x = if -2 ^ 63 ≤ x.toInt (2 ^ 64) ∧ x.toInt (2 ^ 64) < 2 ^ 63 then
      .ok (x.toInt (2 ^ 64)) else .err := by
  rw [getInt_eq hx.toNorm rfl]
  cases hn : x.neg with
  | false =>
    rw [toInt_false (b := 2 ^ 64) hn] at h ⊢
    generalize val (2 ^ 64) x.digs = V at *
    by_cases hc : V < 2 ^ 63
    · rw [if_neg (by simp), if_neg (by omega), if_pos (by constructor <;> omega)]
    · rw [if_neg (by simp), if_pos (by omega), if_neg (by omega)]
  | true =>
    have ht : x.toInt (2 ^ 64) = -(val (2 ^ 64) x.digs : Int) := by unfold Mpi.toInt; rw [hn]; rfl
    rw [ht] at h ⊢
    generalize val (2 ^ 64) x.digs = V at *
    by_cases hc : V < 2 ^ 63
    · rw [if_pos rfl, if_neg (by omega), if_pos hc, if_pos (by constructor <;> omega)]
    · rw [if_pos rfl, if_pos (by omega), if_neg (by omega)]

/-- C16 is false of the code: for a negative number with magnitude above `2^63` but below `2^64`,
which does not fit a `long`, success and a wrong (positive) value are returned. -/
theorem getInt_wrong (x : Mpi) (hx : WF (2 ^ 64) x) (h1 : -2 ^ 64 < x.toInt (2 ^ 64))
    (h2 : x.toInt (2 ^ 64) < -2 ^ 63) : getInt x = .ok (x.toInt (2 ^ 64) + 2 ^ 64) := by
  have hn : x.neg = true := by rw [neg_iff_of_wf hx]; omega
  have ht : x.toInt (2 ^ 64) = -(val (2 ^ 64) x.digs : Int) := by unfold Mpi.toInt; rw [hn]; rfl
  rw [getInt_eq hx.toNorm rfl, hn, if_pos rfl]
  rw [ht] at h1 h2 ⊢
  generalize val (2 ^ 64) x.digs = V at *
  rw [if_neg (by omega), if_neg (by omega), if_neg (by omega)]
  congr 1
  omega

/-- … and for exactly `-2^63`, which does fit, the negation is undefined. -/
theorem getInt_min_ub : getInt ⟨true, [2 ^ 63]⟩ = .ub := by decide +kernel

/-- C16: import followed by export is the identity. -/
theorem set_get_int (v : Int) (h1 : -2 ^ 63 < v) (h2 : v < 2 ^ 63) :
    ∃ x, setInt 64 v = some x ∧ getInt x = .ok v := by
  obtain ⟨x, e1, e2, e3⟩ := setInt_correct_partial (w := 64) (by unfold DigitWidth; omega) v h1 h2
  refine ⟨x, e1, ?_⟩
  rw [getInt_correct_partial x e2 (by omega), e3, if_pos (by omega)]

example : setInt 16 (-0x1234500000) = some ⟨true, [0, 0x3450, 0x12]⟩ := by decide +kernel
example : getInt ⟨true, [2 ^ 63 + 5]⟩ = .ok (2 ^ 63 - 5) := by decide +kernel
example : getInt ⟨false, [2 ^ 63]⟩ = .err := by decide +kernel

/-! ## C17 -/

/-- C17, partial.  Full statement: for every generator output the result is non-negative and has
exactly `bits` bits.  Proved when the destination was not negative and the generator output reaches
the top digit; then every value of that size is produced from the low bits.  Missing: the other
outputs and destinations, for which the claim is false. -/
theorem rand_correct_partial {w : Nat} (hw : DigitWidth w) (alloc bits : Nat) (bs : List Byte)
    (hl : bs.length = (bits + 7) / 8) (hV : (2 ^ w) ^ ((bits - 1) / w) ≤ beVal bs ∨ bits = 0) :
    ∃ x, rand w false alloc bits bs = .ok x ∧ WF (2 ^ w) x ∧ 0 ≤ x.toInt (2 ^ w) ∧
      Nat.size (x.toInt (2 ^ w)).natAbs = bits ∧
      (0 < bits → x.toInt (2 ^ w) = ((beVal bs % 2 ^ (bits - 1) + 2 ^ (bits - 1) : Nat) : Int)) := by
  rcases Nat.eq_zero_or_pos bits with h0 | h0
  · subst h0
    exact ⟨⟨false, []⟩, by simp [rand], wf_of_norm_false (norm_zero _ _) rfl, by simp [Mpi.toInt],
      by simp [Mpi.toInt], by omega⟩
  · obtain ⟨x, h1, h2, h3, h4⟩ := rand_spec hw false (alloc := alloc) h0 hl (by omega)
    have hz := toInt_false (b := 2 ^ w) h3
    refine ⟨x, h1, wf_of_norm_false h2 h3, by omega, ?_, fun _ => by rw [hz, h4]⟩
    rw [natAbs_toInt, h4]
    have hlt := Nat.mod_lt (beVal bs) (Nat.two_pow_pos (bits - 1))
    have e : 2 ^ bits = 2 ^ (bits - 1) * 2 := by rw [← pow_succ]; congr 1; omega
    apply Nat.le_antisymm
    · rw [Nat.size_le, e]; omega
    · have := Nat.lt_size.2 (Nat.le_add_left (2 ^ (bits - 1)) (beVal bs % 2 ^ (bits - 1)))
      omega

/-- C17 is false of the code, size: if the random bytes of the top digit are all zero the result
(when the access to the top digit is within the allocated digits) is too short. -/
theorem rand_too_short {w : Nat} (hw : DigitWidth w) (old : Bool) (alloc bits : Nat)
    (bs : List Byte) (hb : 0 < bits) (hV : beVal bs < (2 ^ w) ^ ((bits - 1) / w)) (x : Mpi)
    (hx : rand w old alloc bits bs = .ok x) : Nat.size (x.toInt (2 ^ w)).natAbs < bits := by
  rw [rand_small hw old hb hV] at hx
  split at hx
  · cases hx
  · cases hx
    rw [natAbs_toInt, (loadBin_spec hw old bs).2.1]
    have hw8 := hw.pos
    have hle : (bits - 1) / w * w ≤ bits - 1 := Nat.div_mul_le_self _ _
    have : Nat.size (beVal bs) ≤ bits - 1 := by
      rw [Nat.size_le]
      refine Nat.lt_of_lt_of_le hV ?_
      rw [← pow_mul]
      exact Nat.pow_le_pow_right (by norm_num) (by rw [Nat.mul_comm]; exact hle)
    omega

/-- C17 is false of the code, memory: with enough leading zero bytes a digit beyond the allocated
ones is modified. -/
theorem rand_out_of_bounds : rand 8 false 8 72 (List.replicate 9 0#8) = .ub := by decide +kernel

/-- C17 is false of the code, sign: a previously negative destination stays negative. -/
theorem rand_stale_sign {w : Nat} (hw : DigitWidth w) (alloc bits : Nat) (bs : List Byte)
    (hb : 0 < bits) (hl : bs.length = (bits + 7) / 8)
    (hV : (2 ^ w) ^ ((bits - 1) / w) ≤ beVal bs) :
    ∃ x, rand w true alloc bits bs = .ok x ∧ x.toInt (2 ^ w) < 0 := by
  obtain ⟨x, h1, h2, h3, h4⟩ := rand_spec hw true (alloc := alloc) hb hl hV
  refine ⟨x, h1, ?_⟩
  have hp := Nat.two_pow_pos (bits - 1)
  simp only [Mpi.toInt, h3, h4, if_true]
  omega

theorem rand_wf {w : Nat} (hw : DigitWidth w) (alloc bits : Nat) (bs : List Byte)
    (hl : bs.length = (bits + 7) / 8) (x : Mpi) (hx : rand w false alloc bits bs = .ok x) :
    Norm (2 ^ w) x ∧ x.neg = false := by
  rcases Nat.eq_zero_or_pos bits with h0 | h0
  · subst h0
    simp only [rand, if_true] at hx
    cases hx
    exact ⟨norm_zero _ _, rfl⟩
  · by_cases hV : beVal bs < (2 ^ w) ^ ((bits - 1) / w)
    · rw [rand_small hw false h0 hV] at hx
      split at hx
      · cases hx
      · cases hx
        obtain ⟨l1, l2, l3, l4⟩ := loadBin_spec hw false bs
        exact ⟨l1, by rw [l3]; rfl⟩
    · obtain ⟨y, h1, h2, h3, h4⟩ := rand_spec hw false (alloc := alloc) h0 hl (by omega)
      rw [h1] at hx
      cases hx
      exact ⟨h2, h3⟩

/-- C17, partial: a number in `[0, max)`, whenever the generator output does not lead to the out of
bounds access shown above.  Missing: that case, and previously negative destinations. -/
theorem randRange_correct_partial {w : Nat} (hw : DigitWidth w) (alloc : Nat) (max : Mpi)
    (hm : WF (2 ^ w) max) (hm0 : 0 < max.toInt (2 ^ w)) (bs : List Byte)
    (hl : bs.length = (countBits w max + 7) / 8)
    (hub : rand w false alloc (countBits w max) bs ≠ .ub) :
    ∃ x, randRange w false alloc max bs = .ok x ∧ WF (2 ^ w) x ∧ 0 ≤ x.toInt (2 ^ w) ∧
      x.toInt (2 ^ w) < max.toInt (2 ^ w) := by
  have hw8 := hw.pos
  have hmn : max.neg = false := by rw [← Bool.not_eq_true, neg_iff_of_wf hm]; omega
  unfold randRange
  cases hr : rand w false alloc (countBits w max) bs with
  | err =>
    unfold rand at hr
    split at hr
    · cases hr
    · dsimp only at hr
      split at hr
      · cases hr
      · split at hr <;> cases hr
  | ub => exact absurd hr hub
  | ok a =>
    obtain ⟨ha, hn⟩ := rand_wf hw alloc _ bs hl a hr
    dsimp only
    have hcmp := cmpAbs_spec (Nat.two_pow_pos w) ha hm.toNorm
    have hav := toInt_false (b := 2 ^ w) hn
    have hmv := toInt_false (b := 2 ^ w) hmn
    split
    · obtain ⟨r, r1, r2, r3⟩ := mod_rep hw (⟨ha, rfl⟩ : Rep w a _) (fun _ => hn)
        (⟨hm.toNorm, rfl⟩ : Rep w max _) hm0
      rw [r1]
      refine ⟨r, rfl, wf_of_norm_false r2.1 r3, ?_, ?_⟩
      · rw [r2.2]; exact Int.emod_nonneg _ (by omega)
      · rw [r2.2]; exact Int.emod_lt_of_pos _ hm0
    · next h =>
      refine ⟨a, rfl, wf_of_norm_false ha hn, by omega, ?_⟩
      rw [hav, hmv]
      rcases hcmp with ⟨c1, c2⟩ | ⟨c1, c2⟩ | ⟨c1, c2⟩
      · omega
      · rw [c1] at h; omega
      · rw [c1] at h; omega

/-- The hypothesis of `randRange_correct_partial` holds for every generator output that reaches the
top digit. -/
theorem rand_no_ub {w : Nat} (hw : DigitWidth w) (old : Bool) (alloc bits : Nat) (bs : List Byte)
    (hb : 0 < bits) (hl : bs.length = (bits + 7) / 8)
    (hV : (2 ^ w) ^ ((bits - 1) / w) ≤ beVal bs) : rand w old alloc bits bs ≠ .ub := by
  obtain ⟨x, h1, -⟩ := rand_spec hw old (alloc := alloc) hb hl hV
  rw [h1]; exact fun h => by cases h

/-- C17: an upper bound of zero is an error. -/
theorem randRange_zero (w : Nat) (old : Bool) (alloc : Nat) (s : Bool) (bs : List Byte) :
    randRange w old alloc ⟨s, []⟩ bs = .err := by
  have : countBits w ⟨s, []⟩ = 0 := by simp [countBits]
  unfold randRange
  rw [this]
  have h : mod w .none ⟨false, []⟩ ⟨s, []⟩ = none := mod_zero w _ _ (norm_zero _ _) (by simp [Mpi.toInt])
  simp [rand, cmpAbs, h, cmpDigs]

example : rand 8 false 8 20 [0xff, 0x12, 0x34] = .ok ⟨false, [0x34, 0x12, 0x0f]⟩ := by decide +kernel
example : rand 8 false 8 20 [0x00, 0x12, 0x34] = .ok ⟨false, [0x34, 0x12]⟩ := by decide +kernel
example : randRange 8 false 8 ⟨false, [0x10, 0x01]⟩ [0x01, 0x12] = .ok ⟨false, [0x02]⟩ := by
  decide +kernel

end Verif.Mpi
