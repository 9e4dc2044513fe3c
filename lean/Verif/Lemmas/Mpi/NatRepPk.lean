import Verif.Lemmas.Mpi.NatRep
import Mathlib.Data.Int.ModEq
/-! Further forms of the correctness theorems for non-negative numbers, used by the public-key code. -/
namespace Verif.Mpi
namespace NatRep
variable {w : Nat} {x y z : Mpi} {m n : Nat}

/-- Inverses; `R` is a common form for both a coprime and a non-coprime operand. -/
theorem inv (hw : DigitWidth w) (hx : NatRep w x m) (hy : NatRep w y n) (hn : 0 < n) :
    (Nat.Coprime m n → ∃ z k, Mpi.inv w x y = some z ∧ NatRep w z k ∧ k < n ∧ m * k ≡ 1 [MOD n]) ∧
    (¬ Nat.Coprime m n → Mpi.inv w x y = none) := by
  obtain ⟨h1, h2⟩ := inv_correct hw x y hx.wf hy.wf (by rw [hy.toInt]; omega)
  rw [hx.toInt, hy.toInt, Int.gcd_natCast_natCast] at h1 h2
  refine ⟨fun h => ?_, h2⟩
  obtain ⟨r, r1, r2, r3, r4, r5⟩ := h1 h
  obtain ⟨k, hk⟩ := Int.eq_ofNat_of_zero_le r3
  rw [hk] at r4 r5
  exact ⟨r, k, r1, of_wf r2 hk, by exact_mod_cast r4, by
    rw [← Int.natCast_modEq_iff]; exact_mod_cast r5⟩

/-- Inverse of an integer of any sign. -/
theorem inv_int (hw : DigitWidth w) (hx : WF (2 ^ w) x) (hy : NatRep w y n) (hn : 0 < n) :
    (Int.gcd (x.toInt (2 ^ w)) n = 1 → ∃ z k, Mpi.inv w x y = some z ∧ NatRep w z k ∧ k < n ∧
      x.toInt (2 ^ w) * k ≡ 1 [ZMOD n]) ∧
    (Int.gcd (x.toInt (2 ^ w)) n ≠ 1 → Mpi.inv w x y = none) := by
  obtain ⟨h1, h2⟩ := inv_correct hw x y hx hy.wf (by rw [hy.toInt]; omega)
  rw [hy.toInt] at h1 h2
  refine ⟨fun h => ?_, h2⟩
  obtain ⟨r, r1, r2, r3, r4, r5⟩ := h1 h
  obtain ⟨k, hk⟩ := Int.eq_ofNat_of_zero_le r3
  rw [hk] at r4 r5
  exact ⟨r, k, r1, of_wf r2 hk, by exact_mod_cast r4, r5⟩

theorem loadBin (hw : DigitWidth w) (bs : List Byte) : NatRep w (Mpi.loadBin w false bs) (beVal bs) :=
  of_wf (loadBin_correct_partial hw bs).1 (loadBin_correct_partial hw bs).2

/-- Storing with padding and loading again. -/
theorem storeBin (hw : DigitWidth w) (hx : NatRep w x m) {k : Nat} (h : m < 256 ^ k) (pad : Bool) :
    ∃ bs, Mpi.storeBin w x k pad = some bs ∧ beVal bs = m ∧ (pad = true → bs.length = k) := by
  obtain ⟨bs, h1, h2, h3, -⟩ := storeBin_correct hw x hx.wf k pad (by rw [hx.toInt]; simpa using h)
  exact ⟨bs, h1, by rw [h2, hx.toInt]; simp, h3⟩

theorem countBits (hw : DigitWidth w) (hx : NatRep w x m) : Mpi.countBits w x = Nat.size m := by
  rw [countBits_spec hw hx.norm, hx.value]

theorem countBytes_le (hw : DigitWidth w) (hx : NatRep w x m) (k : Nat) : countBytes w x ≤ k ↔ m < 256 ^ k := by
  unfold countBytes
  rw [hx.countBits hw, ← two_pow_eight_mul, ← Nat.size_le]
  omega

theorem lt_countBytes (hw : DigitWidth w) (hx : NatRep w x m) : m < 256 ^ countBytes w x :=
  (hx.countBytes_le hw _).1 (le_refl _)

theorem gcd (hw : 8 ≤ w) (jx jy : Nat) (hx : NatRep w x m) (hy : NatRep w y n) (hn : 0 < n) :
    ∃ z, Mpi.gcd w jx jy x y = some z ∧ z.toInt (2 ^ w) = Nat.gcd m n ∧ NatRep w z (Nat.gcd m n) := by
  obtain ⟨z, h1, h2, h3⟩ := gcd_correct_partial (by omega) jx jy x y hx.norm hy.wf (by rw [hy.toInt]; omega)
  rw [hx.toInt, hy.toInt, Int.gcd_natCast_natCast] at h3
  have hpos : 0 < Nat.gcd m n := Nat.gcd_pos_of_pos_right _ hn
  have hneg : z.neg = false := by
    cases hz : z.neg with
    | false => rfl
    | true =>
      exfalso
      have : z.toInt (2 ^ w) ≤ 0 := by
        unfold Mpi.toInt; rw [hz]; simp
      omega
  exact ⟨z, h1, h3, of_wf (wf_of_norm_false h2 hneg) h3⟩

/-- A random number below `n`, unless an access outside the allocated digits happens. -/
theorem randRange (hw : DigitWidth w) (alloc : Nat) (hy : NatRep w y n) (hn : 0 < n) (bs : List Byte)
    (hl : bs.length = (Mpi.countBits w y + 7) / 8) :
    Mpi.randRange w false alloc y bs = .ub ∨
    ∃ x k, Mpi.randRange w false alloc y bs = .ok x ∧ NatRep w x k ∧ k < n := by
  by_cases hub : Mpi.rand w false alloc (Mpi.countBits w y) bs = .ub
  · left; unfold Mpi.randRange; rw [hub]
  · right
    obtain ⟨x, h1, h2, h3, h4⟩ := randRange_correct_partial hw alloc y hy.wf (by rw [hy.toInt]; omega) bs hl hub
    obtain ⟨k, hk⟩ := Int.eq_ofNat_of_zero_le h3
    exact ⟨x, k, h1, of_wf h2 hk, by rw [hk, hy.toInt] at h4; exact_mod_cast h4⟩

/-- A random number of given size; only that it is non-negative. -/
theorem rand (hw : DigitWidth w) (alloc bits : Nat) (bs : List Byte) (hl : bs.length = (bits + 7) / 8) :
    Mpi.rand w false alloc bits bs = .ub ∨ ∃ x k, Mpi.rand w false alloc bits bs = .ok x ∧ NatRep w x k := by
  cases h : Mpi.rand w false alloc bits bs with
  | ub => left; rfl
  | err =>
    exfalso
    unfold Mpi.rand at h
    dsimp only at h
    split_ifs at h
  | ok x =>
    right
    obtain ⟨h1, h2⟩ := rand_wf hw alloc bits bs hl x h
    exact ⟨x, val (2 ^ w) x.digs, rfl, h1, h2, rfl⟩

end NatRep

/-- With at most `alloc` digits there is no access outside the allocated ones. -/
theorem rand_ne_ub {w : Nat} (alloc bits : Nat) (bs : List Byte) (old : Bool) (h : bits ≤ alloc * w) (h0 : 0 < w) :
    rand w old alloc bits bs ≠ .ub := by
  unfold rand
  split_ifs with hb
  · simp
  · dsimp only
    have h1 : (bits - 1) / w + 1 ≤ alloc := by
      have := (Nat.div_lt_iff_lt_mul h0 (x := bits - 1) (y := alloc)).2 (by omega)
      omega
    have h2 : ∀ d, alloc ≤ grow alloc d := by intro d; unfold grow; split_ifs <;> omega
    have := h2 (loadBin w old bs).digs.length
    rw [if_neg (by omega)]
    split_ifs <;> simp

end Verif.Mpi
