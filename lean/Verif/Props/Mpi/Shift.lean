import Verif.Lemmas.Mpi.Shift
namespace Verif.Mpi

/-- C08 (left): `cry_mpi_shl(c, a, n)` leaves `a · 2^n`, normalised, for every shift count. -/
theorem shl_correct {w : Nat} (hw : 0 < w) (x : Mpi) (hx : WF (2 ^ w) x) (n : Nat) :
    (shl w x n).toInt (2 ^ w) = x.toInt (2 ^ w) * 2 ^ n ∧ WF (2 ^ w) (shl w x n) := by
  obtain ⟨h1, h2, h3⟩ := shl_spec hw hx.toNorm n
  refine ⟨?_, h2, fun h0 => ?_⟩
  · unfold Mpi.toInt; rw [h1, h3]; split <;> push_cast <;> ring
  · rw [h3]
    apply hx.zero_nonneg
    rw [h0, val_nil] at h1
    have hp : 0 < 2 ^ n := Nat.two_pow_pos n
    have : val (2 ^ w) x.digs = 0 := by
      rcases Nat.mul_eq_zero.1 h1.symm with h | h
      · exact h
      · omega
    exact (val_eq_zero_iff (Nat.two_pow_pos w) hx.top).1 this

/-- C08 (right): `cry_mpi_shr(c, a, n)` leaves `a / 2^n` rounded towards zero, normalised. -/
theorem shr_correct {w : Nat} (hw : 0 < w) (x : Mpi) (hx : WF (2 ^ w) x) (n : Nat) :
    (shr w x n).toInt (2 ^ w) = Int.tdiv (x.toInt (2 ^ w)) (2 ^ n) ∧ Norm (2 ^ w) (shr w x n) := by
  obtain ⟨h1, h2, h3⟩ := shr_spec hw hx.toNorm n
  refine ⟨?_, h2⟩
  have e : ∀ m : Nat, (((m / 2 ^ n : Nat)) : Int) = Int.tdiv (m : Int) (2 ^ n) := by
    intro m
    have := Int.ofNat_tdiv m (2 ^ n)
    rw [this]; congr 1
  unfold Mpi.toInt
  rcases h3 with h | h
  · rw [h1, h]; split
    · rw [e, Int.neg_tdiv]
    · rw [e]
  · rw [h] at h1 ⊢
    simp only [val_nil] at h1 ⊢
    have h4 := e (val (2 ^ w) x.digs)
    rw [← h1] at h4
    simp only [Nat.cast_zero, neg_zero, ite_self] at h4 ⊢
    split
    · rw [Int.neg_tdiv, ← h4]; rfl
    · exact h4

/-- The right shift keeps zero unsigned whenever the operand is not negative or the result is
not zero … -/
theorem shr_wf {w : Nat} (hw : 0 < w) (x : Mpi) (hx : WF (2 ^ w) x) (n : Nat)
    (h : x.neg = false ∨ 2 ^ n ≤ (x.toInt (2 ^ w)).natAbs) : WF (2 ^ w) (shr w x n) := by
  obtain ⟨h1, h2, h3⟩ := shr_spec hw hx.toNorm n
  refine ⟨h2, fun h0 => ?_⟩
  rcases h with h | h
  · unfold shr
    split
    · exact h
    · simp only
      have hs : ∀ m, (shrd x m).neg = false := by
        intro m; unfold shrd; split
        · exact h
        · split
          · rfl
          · exact h
      split <;> split <;> simp [h, hs]
  · exfalso
    have hv : (x.toInt (2 ^ w)).natAbs = val (2 ^ w) x.digs := by
      unfold Mpi.toInt; split <;> simp
    rw [hv] at h
    rw [h0, val_nil] at h1
    have := Nat.div_pos h (Nat.two_pow_pos n)
    omega

/-- … but a negative number shifted down to zero becomes a *negative zero*, which
`cry_mpi_cmp` does not consider equal to zero. -/
theorem shr_negative_zero : shr 8 ⟨true, [1]⟩ 1 = ⟨true, []⟩ ∧
    cmp (shr 8 ⟨true, [1]⟩ 1) ⟨false, []⟩ ≠ 0 := by decide

/-- The digit moves done in place on the array are the list operations used above. -/
theorem shld_in_place (o : Obj) (n : Nat) : (shldObj o n).mpi = shld o.mpi n := shldObj_spec o n
theorem shrd_in_place (o : Obj) (n : Nat) : (shrdObj o n).mpi = shrd o.mpi n := shrdObj_spec o n

example : shl 8 ⟨true, [0x81, 0x80]⟩ 9 = ⟨true, [0, 2, 1, 1]⟩ := by decide
example : shr 8 ⟨true, [0x81, 0x80, 0x01]⟩ 9 = ⟨true, [0xc0]⟩ := by decide

/-- C19: bit length. `Nat.size` is the number of bits (`2^(size-1) ≤ v < 2^size`). -/
theorem countBits_correct {w : Nat} (hw : DigitWidth w) (x : Mpi) (hx : WF (2 ^ w) x) :
    countBits w x = Nat.size (x.toInt (2 ^ w)).natAbs := by
  have hv : (x.toInt (2 ^ w)).natAbs = val (2 ^ w) x.digs := by
    unfold Mpi.toInt; split <;> simp
  rw [hv, countBits_spec hw hx.toNorm]

/-- C19: byte length: the least number of bytes that hold the magnitude. -/
theorem countBytes_correct {w : Nat} (hw : DigitWidth w) (x : Mpi) (hx : WF (2 ^ w) x) (k : Nat) :
    countBytes w x ≤ k ↔ (x.toInt (2 ^ w)).natAbs < 256 ^ k := by
  unfold countBytes
  rw [countBits_correct hw x hx]
  have : (256 : Nat) ^ k = 2 ^ (8 * k) := by rw [pow_mul]; rfl
  rw [this, ← Nat.size_le]
  omega

/-- C19: zero test. -/
theorem isZero_correct {w : Nat} (x : Mpi) (hx : WF (2 ^ w) x) :
    isZero x = true ↔ x.toInt (2 ^ w) = 0 := by
  rw [toInt_eq_zero_iff (Nat.two_pow_pos w) hx.toNorm]
  unfold isZero
  simp [List.length_eq_zero_iff]

/-- C19: parity. -/
theorem isOdd_correct {w : Nat} (hw : 0 < w) (x : Mpi) :
    isOdd x = true ↔ x.toInt (2 ^ w) % 2 = 1 := by
  unfold isOdd Mpi.toInt
  cases h : x.digs with
  | nil => simp
  | cons d ds =>
    simp only [val_cons]
    obtain ⟨k, rfl⟩ : ∃ k, w = k + 1 := ⟨w - 1, by omega⟩
    have e : 2 ^ (k + 1) * val (2 ^ (k + 1)) ds = 2 * (2 ^ k * val (2 ^ (k + 1)) ds) := by ring
    rw [e]
    generalize 2 ^ k * val (2 ^ (k + 1)) ds = m
    rw [Nat.and_one_is_mod]
    simp only [bne_iff_ne, ne_eq]
    split <;> omega

theorem isEven_correct {w : Nat} (hw : 0 < w) (x : Mpi) :
    isEven x = true ↔ x.toInt (2 ^ w) % 2 = 0 := by
  have := isOdd_correct hw x
  unfold isEven
  cases h : isOdd x <;> simp [h] at this ⊢ <;> omega

example : countBits 64 ⟨true, [5, 2 ^ 40]⟩ = 105 := by decide

end Verif.Mpi
