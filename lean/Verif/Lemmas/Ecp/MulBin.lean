import Verif.Model.Ecp.MulBin
import Verif.Lemmas.Ecp.Mul
import Verif.Lemmas.Mpi.ModExp
/-! Double and add. -/
namespace Verif.Ecp
open Verif.Mpi

section Abstract
variable {w : Nat} {g : Grp} {F : Prop} {Good : Pt → Nat → Prop}
  (hdbl : ∀ q k, Good q k → (F ∧ dbl w q g = none) ∨ ∃ r, dbl w q g = some r ∧ Good r (k + k))
  (hadd : ∀ q q' m n, Good q m → Good q' n → (F ∧ add w q q' g = none) ∨ ∃ r, add w q q' g = some r ∧ Good r (m + n))

include hdbl hadd in
theorem mulBinLoop_spec (hw : 8 ≤ w) {p1 : Pt} (hp1 : Good p1 1) {k : Mpi} (hk : Norm (2 ^ w) k) : ∀ (n : Nat) (r : Pt),
    Good r (val (2 ^ w) k.digs / 2 ^ n) →
    (F ∧ mulBinLoop w p1 k g n r = none) ∨ ∃ r', mulBinLoop w p1 k g n r = some r' ∧ Good r' (val (2 ^ w) k.digs)
  | 0, r, h => Or.inr ⟨r, rfl, by simpa using h⟩
  | n + 1, r, h => by
    rcases hdbl _ _ h with ⟨hF, e⟩ | ⟨r1, e1, h1⟩
    · exact Or.inl ⟨hF, by rw [mulBinLoop, e]; rfl⟩
    have hb := isBitSet_spec (show 0 < w by omega) hk n
    have hs : val (2 ^ w) k.digs / 2 ^ n = val (2 ^ w) k.digs / 2 ^ (n + 1) + val (2 ^ w) k.digs / 2 ^ (n + 1) +
        ((val (2 ^ w) k.digs).testBit n).toNat := by
      rw [Nat.testBit_eq_decide_div_mod_eq, pow_succ, ← Nat.div_div_eq_div_mul]
      have := Nat.div_add_mod (val (2 ^ w) k.digs / 2 ^ n) 2
      rcases Nat.mod_two_eq_zero_or_one (val (2 ^ w) k.digs / 2 ^ n) with e | e <;> simp [e] <;> omega
    rw [mulBinLoop, e1]
    cases hc : (val (2 ^ w) k.digs).testBit n with
    | false =>
      rw [hc] at hb hs
      rw [Bool.toNat_false, Nat.add_zero] at hs
      rw [← hs] at h1
      simp only [Option.bind_eq_bind, Option.bind_some, hb, Bool.false_eq_true, if_false]
      exact mulBinLoop_spec hw hp1 hk n r1 h1
    | true =>
      rw [hc] at hb hs
      simp only [Option.bind_eq_bind, Option.bind_some, hb, if_true]
      rcases hadd _ _ _ _ h1 hp1 with ⟨hF, e⟩ | ⟨r2, e2, h2⟩
      · exact Or.inl ⟨hF, by rw [e]; rfl⟩
      rw [Bool.toNat_true] at hs
      rw [← hs] at h2
      rw [e2, Option.bind_some]
      exact mulBinLoop_spec hw hp1 hk n r2 h2

end Abstract

open WeierstrassCurve WeierstrassCurve.Affine
variable {w p : Nat} {a b : ZMod p} [Fact p.Prime] {g : Grp}

/-- The right multiple, or an error, and no error when no multiple of the point has order two. -/
theorem mulBin_spec (hw : DigitWidth w) (hg : GrpRep w p a g) {q : Pt} {P : (curve p a b).Point} (h : PtRep w q P)
    (F : Prop) (hF : F ∨ ∀ k : Nat, k • P + k • P = 0 → k • P = 0) {k : Mpi} (hk : Norm (2 ^ w) k) :
    (F ∧ mulBin w q k g = none) ∨
    ∃ r, mulBin w q k g = some r ∧ PtRep w r (val (2 ^ w) k.digs • P) ∧ (PtRed w p q → PtRed w p r) := by
  have hz := ptRep_isZero h
  by_cases hP : P = 0
  · refine Or.inr ⟨q, ?_, by rwa [hP, nsmul_zero, ← hP], id⟩
    rw [mulBin, if_pos (hz.2 hP)]
  have hz' : isZeroPt q = false := by
    rw [← Bool.not_eq_true, hz]; exact hP
  let Good : Pt → Nat → Prop := fun r c => PtRep w r (c • P) ∧ (PtRed w p q → PtRed w p r)
  have hdbl : ∀ r k, Good r k → (F ∧ dbl w r g = none) ∨ ∃ r', dbl w r g = some r' ∧ Good r' (k + k) := by
    rintro r k ⟨h1, h2⟩
    by_cases hne : k • P = 0 ∨ k • P + k • P ≠ 0
    · obtain ⟨r', e1, e2, e3⟩ := (dbl_spec hw hg h1).1 hne
      refine Or.inr ⟨r', e1, by rwa [add_nsmul], fun hq => ?_⟩
      rcases e3 with ⟨-, rfl⟩ | e3
      · exact h2 hq
      · exact e3
    · simp only [not_or, not_not] at hne
      exact Or.inl ⟨hF.resolve_right fun hF => hne.1 (hF k hne.2), (dbl_spec hw hg h1).2 hne⟩
  have hadd : ∀ r s m n, Good r m → Good s n →
      (F ∧ add w r s g = none) ∨ ∃ r', add w r s g = some r' ∧ Good r' (m + n) := by
    rintro r s m n ⟨h1, h2⟩ ⟨h3, h4⟩
    by_cases hne : m • P = n • P ∧ m • P ≠ 0 ∧ m • P + m • P = 0
    · exact Or.inl ⟨hF.resolve_right fun hF => hne.2.1 (hF m hne.2.2), (add_spec hw hg h1 h3).2 hne⟩
    obtain ⟨r', e1, e2, e3⟩ := (add_spec hw hg h1 h3).1 hne
    refine Or.inr ⟨r', e1, by rwa [add_nsmul], fun hq => ?_⟩
    rcases e3 with ⟨-, rfl⟩ | ⟨-, rfl⟩ | e3
    · exact h4 hq
    · exact h2 hq
    · exact e3
  have h1 : Good q 1 := ⟨by rwa [one_nsmul], id⟩
  obtain ⟨z, d1, d2, d3⟩ := setZero_spec (p := p) (a := a) (b := b) hw
  have hz0 : Good z (val (2 ^ w) k.digs / 2 ^ countBits w k) := by
    rw [countBits_spec hw hk, Nat.div_eq_of_lt (Nat.lt_size_self _)]
    exact ⟨by rwa [zero_nsmul], fun _ => d3⟩
  have e : mulBin w q k g = mulBinLoop w q k g (countBits w k) z := by
    rw [mulBin, hz', if_neg (by simp), d1]; rfl
  rw [e]
  exact mulBinLoop_spec hdbl hadd hw.pos h1 hk _ z hz0

end Verif.Ecp
