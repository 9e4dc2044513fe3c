import Verif.Model.LongInv
import Mathlib.Data.Int.ModEq
import Mathlib.Data.Int.GCD
import Mathlib.Tactic.Linarith
import Mathlib.Tactic.Ring
import Mathlib.Tactic.LinearCombination
/-!
# C60: inverses of machine words
-/
namespace Verif.LongInv

/-- What holds each time the loop is entered again: `r1 < r0`, the two rows of Euclid's algorithm, and the size of the
coefficients.  `a0` and `a1` are the absolute values of the coefficients, which have opposite signs. -/
structure Inv (v m : Nat) (r0 r1 : Nat) (S0 S1 : Int) : Prop where
  lt : r1 < r0
  row0 : (m : Int) ∣ S0 * v - r0
  row1 : (m : Int) ∣ S1 * v - r1
  gcd : Nat.gcd r0 r1 = Nat.gcd v m
  size : ∃ (σ : Int) (a0 a1 : Nat), (σ = 1 ∨ σ = -1) ∧ S0 = σ * a0 ∧ S1 = -σ * a1 ∧ a1 * r0 + a0 * r1 = m
  half : r1 = 0 → -(m : Int) ≤ 2 * S0 ∧ 2 * S0 ≤ m

theorem Inv.step {v m r0 r1 : Nat} {S0 S1 : Int} (h : Inv v m r0 r1 S0 S1) (h1 : r1 ≠ 0) :
    Inv v m r1 (r0 % r1) S1 (S0 - (r0 / r1 : Nat) * S1) := by
  obtain ⟨hlt, hr0, hr1, hg, ⟨σ, a0, a1, hσ, e0, e1, hm⟩, -⟩ := h
  have hd := Nat.div_add_mod r0 r1
  generalize hq : r0 / r1 = q at *
  generalize hr : r0 % r1 = r at *
  have hdz : (r0 : Int) = r1 * q + r := by exact_mod_cast hd.symm
  refine ⟨?_, hr1, ?_, ?_, ⟨-σ, a1, a0 + q * a1, by rcases hσ with rfl | rfl <;> simp, by rw [e1], ?_, ?_⟩, ?_⟩
  · rw [← hr]; exact Nat.mod_lt _ (by omega)
  · obtain ⟨x, hx⟩ := hr0
    obtain ⟨y, hy⟩ := hr1
    exact ⟨x - q * y, by linear_combination hx - q * hy + hdz⟩
  · rw [← hg, ← hr, Nat.gcd_comm r0 r1, Nat.gcd_rec r1 r0, Nat.gcd_comm]
  · rw [e0, e1]; push_cast; ring
  · rw [← hm, ← hd]; ring
  · intro hr'
    have hq2 : 2 ≤ q := by
      by_contra hc
      have : r1 * q ≤ r1 * 1 := Nat.mul_le_mul_left _ (by omega)
      omega
    have hb : 2 * a1 ≤ m := by
      have h3 : 2 ≤ r0 := by
        have : 1 * 2 ≤ r1 * q := Nat.mul_le_mul (by omega) hq2
        omega
      have : a1 * 2 ≤ a1 * r0 := Nat.mul_le_mul_left _ h3
      have : 0 ≤ a0 * r1 := Nat.zero_le _
      omega
    rcases hσ with rfl | rfl <;> rw [e1] <;> constructor <;> omega

theorem loop_correct {v m : Nat} : ∀ (fuel : Nat) (r0 r1 s0 s1 : BitVec 64) (S0 S1 : Int), r1.toNat ≤ fuel →
    s0 = BitVec.ofInt 64 S0 → s1 = BitVec.ofInt 64 S1 → Inv v m r0.toNat r1.toNat S0 S1 →
    ∃ r s S, loop fuel r0 r1 s0 s1 = some (r, s) ∧ s = BitVec.ofInt 64 S ∧ r.toNat = Nat.gcd v m ∧
      (m : Int) ∣ S * v - r.toNat ∧ -(m : Int) ≤ 2 * S ∧ 2 * S ≤ m := by
  intro fuel
  induction fuel with
  | zero =>
    intro r0 r1 s0 s1 S0 S1 hf h0 h1 h
    have hz : r1 = 0 := BitVec.eq_of_toNat_eq (by simpa using hf)
    subst hz
    have hg := h.gcd
    refine ⟨r0, s0, S0, by rw [loop, if_pos rfl], h0, by simpa using hg, h.row0, h.half rfl⟩
  | succ n ih =>
    intro r0 r1 s0 s1 S0 S1 hf h0 h1 h
    by_cases hz : r1 = 0
    · subst hz
      have hg := h.gcd
      exact ⟨r0, s0, S0, by rw [loop, if_pos rfl], h0, by simpa using hg, h.row0, h.half rfl⟩
    · have hz' : r1.toNat ≠ 0 := fun hc => hz (BitVec.eq_of_toNat_eq hc)
      have hs := h.step hz'
      rw [loop, if_neg hz]
      refine ih _ _ _ _ S1 (S0 - (r0.toNat / r1.toNat : Nat) * S1) ?_ h1 ?_ ?_
      · rw [BitVec.toNat_umod]
        have := Nat.mod_lt r0.toNat (Nat.pos_of_ne_zero hz')
        omega
      · have hq : r0 / r1 = BitVec.ofInt 64 (r0.toNat / r1.toNat : Nat) := by
          rw [BitVec.ofInt_natCast]
          apply BitVec.eq_of_toNat_eq
          rw [BitVec.toNat_udiv, BitVec.toNat_ofNat, Nat.mod_eq_of_lt]
          exact lt_of_le_of_lt (Nat.div_le_self _ _) r0.isLt
        rw [hq, h0, h1, sub_eq_add_neg S0, BitVec.ofInt_add, BitVec.ofInt_neg, BitVec.ofInt_mul, BitVec.sub_eq_add_neg]
      · rw [BitVec.toNat_umod]; exact hs

/-- `cry_long_inv` ends for every value and every modulus other than 0.  When the value is coprime to the modulus it
returns the inverse, reduced; otherwise it returns 0. -/
theorem longInv_correct (val mod : BitVec 64) (h0 : mod ≠ 0) :
    ∃ r, longInv val mod = some r ∧
      (Nat.Coprime val.toNat mod.toNat → r.toNat < mod.toNat ∧ r.toNat * val.toNat % mod.toNat = 1 % mod.toNat) ∧
      (¬ Nat.Coprime val.toNat mod.toNat → r = 0) := by
  have hm0 : mod.toNat ≠ 0 := fun hc => h0 (BitVec.eq_of_toNat_eq hc)
  have hml := mod.isLt
  have hinv : Inv val.toNat mod.toNat mod.toNat (val % mod).toNat 0 1 := by
    rw [BitVec.toNat_umod]
    refine ⟨Nat.mod_lt _ (by omega), ⟨-1, by ring⟩, ?_, ?_, ⟨-1, 0, 1, Or.inr rfl, by simp, by simp, by simp⟩, ?_⟩
    · refine ⟨(val.toNat / mod.toNat : Nat), ?_⟩
      have := Nat.div_add_mod val.toNat mod.toNat
      have h' : (val.toNat : Int) = mod.toNat * (val.toNat / mod.toNat : Nat) + (val.toNat % mod.toNat : Nat) := by
        exact_mod_cast this.symm
      linear_combination h'
    · rw [Nat.gcd_comm val.toNat, Nat.gcd_rec mod.toNat val.toNat, Nat.gcd_comm]
    · intro _; constructor <;> omega
  obtain ⟨r, s, S, hl, hs, hr, hd, hb1, hb2⟩ := loop_correct (v := val.toNat) (m := mod.toNat) mod.toNat mod (val % mod)
    0 1 0 1 (by rw [BitVec.toNat_umod]; exact le_of_lt (Nat.mod_lt _ (by omega))) rfl rfl hinv
  have hl' : loop (mod.toNat + 1) val mod 1 0 = some (r, s) := by
    rw [loop, if_neg h0]
    simpa using hl
  have hr1 : r = 1 ↔ Nat.Coprime val.toNat mod.toNat := by
    rw [Nat.Coprime, ← hr]
    exact ⟨fun h => by rw [h]; rfl, fun h => BitVec.eq_of_toNat_eq h⟩
  unfold longInv
  rw [hl', Option.map_some]
  dsimp only
  refine ⟨_, rfl, ?_, fun hc => by rw [if_pos (fun h => hc (hr1.mp h))]⟩
  intro hc
  have hr1' := hr1.mpr hc
  have hrn : r.toNat = 1 := by rw [hr1']; rfl
  rw [if_neg (by rw [hr1']; simp)]
  have hsi : s.toInt = S := by
    rw [hs, BitVec.toInt_ofInt, Int.bmod_eq_of_le] <;> omega
  rw [hrn] at hd
  have key : ∀ R : Nat, (∃ k : Int, (R : Int) = S + mod.toNat * k) → R * val.toNat % mod.toNat = 1 % mod.toNat := by
    rintro R ⟨k, hk⟩
    obtain ⟨c, hc⟩ := hd
    have : (R : Int) * val.toNat ≡ 1 [ZMOD mod.toNat] := by
      refine (Int.modEq_iff_dvd.mpr ⟨-(c + k * val.toNat), ?_⟩)
      rw [hk]
      push_cast at hc
      linear_combination -hc
    have h2 : ((R * val.toNat : Nat) : Int) ≡ ((1 : Nat) : Int) [ZMOD mod.toNat] := by exact_mod_cast this
    exact (Int.natCast_modEq_iff.mp h2)
  have hz0 : (0 : BitVec 64).toInt = 0 := rfl
  simp only [BitVec.slt_iff_toInt_lt, hsi, hz0]
  have hcase := BitVec.toInt_eq_toNat_cond s
  have hsl := s.isLt
  split_ifs with hneg
  · have hn : ((s + mod).toNat : Int) = S + mod.toNat := by
      rw [BitVec.toNat_add]
      split_ifs at hcase <;> omega
    exact ⟨by omega, key _ ⟨1, by rw [hn]; ring⟩⟩
  · have hn : (s.toNat : Int) = S := by
      split_ifs at hcase <;> omega
    exact ⟨by omega, key _ ⟨0, by rw [hn]; ring⟩⟩

example : longInv 7 256 = some 183 ∧ longInv 6 256 = some 0 := by decide +kernel

/-- The modulus 0 is no exception: the loop is not entered. -/
theorem longInv_zero (val : BitVec 64) : longInv val 0 = some (if val = 1 then 1 else 0) := by
  unfold longInv
  rw [loop, if_pos rfl, Option.map_some]
  dsimp only
  by_cases h : val = 1
  · rw [if_neg (by simp [h]), if_pos h]; rfl
  · rw [if_pos h, if_neg h]

end Verif.LongInv
