import Verif.Lemmas.Ecp.Group
import Verif.Lemmas.Mpi.Shift
import Mathlib.GroupTheory.OrderOfElement
/-! The sliding-window scalar multiplication. -/
namespace Verif.Ecp
open Verif.Mpi

/-- The bit read at digit `i`, position `j`. -/
theorem bitAt_spec {w : Nat} {ds : List Nat} (hd : Digits (2 ^ w) ds) {i j : Nat} (hi : i < ds.length) (hj : j < w) :
    ∃ c, bitAt ds i j = .ok c ∧
      val (2 ^ w) ds / 2 ^ (i * w + j) = 2 * (val (2 ^ w) ds / 2 ^ (i * w + j + 1)) + (if c then 1 else 0) := by
  refine ⟨(ds[i] >>> j) &&& 1 ≠ 0, ?_, ?_⟩
  · unfold bitAt
    rw [List.getElem?_eq_getElem hi]
  · have h1 := val_drop (2 ^ w) hd i
    rw [List.drop_eq_getElem_cons hi, val_cons, ← pow_mul, Nat.mul_comm w] at h1
    have h2 : val (2 ^ w) ds / 2 ^ (i * w + j) = (ds[i] + 2 ^ w * val (2 ^ w) (ds.drop (i + 1))) / 2 ^ j := by
      rw [pow_add, ← Nat.div_div_eq_div_mul, ← h1]
    have h3 : val (2 ^ w) ds / 2 ^ (i * w + j + 1) = val (2 ^ w) ds / 2 ^ (i * w + j) / 2 := by
      rw [pow_succ, Nat.div_div_eq_div_mul]
    have h4 : (ds[i] + 2 ^ w * val (2 ^ w) (ds.drop (i + 1))) / 2 ^ j % 2 = ds[i] / 2 ^ j % 2 := by
      obtain ⟨k, rfl⟩ : ∃ k, w = j + 1 + k := ⟨w - j - 1, by omega⟩
      rw [show (2 : Nat) ^ (j + 1 + k) * val (2 ^ (j + 1 + k)) (ds.drop (i + 1)) =
        2 ^ j * (2 * (2 ^ k * val (2 ^ (j + 1 + k)) (ds.drop (i + 1)))) by rw [pow_add, pow_succ]; ring]
      rw [Nat.add_mul_div_left _ _ (Nat.two_pow_pos j), Nat.add_mul_mod_self_left]
    rw [h3, Nat.shiftRight_eq_div_pow, Nat.and_one_is_mod]
    have h5 := Nat.div_add_mod (val (2 ^ w) ds / 2 ^ (i * w + j)) 2
    rw [h2, h4] at h5
    rw [h2]
    rcases Nat.mod_two_eq_zero_or_one (ds[i] / 2 ^ j) with e | e <;> simp [e] at h5 ⊢ <;> omega

section Abstract
/-! `F` says whether doubling and addition may fail. -/
variable {w : Nat} {g : Grp} {F : Prop} {Good : Pt → Nat → Prop}
  (hdbl : ∀ q k, Good q k → (F ∧ dbl w q g = none) ∨ ∃ r, dbl w q g = some r ∧ Good r (k + k))
  (hadd : ∀ q q' m n, Good q m → Good q' n → (F ∧ add w q q' g = none) ∨ ∃ r, add w q q' g = some r ∧ Good r (m + n))

/-- What the accumulator says: nothing added yet, or a multiple of the point. -/
def Acc (Good : Pt → Nat → Prop) (r : Option Pt) (c : Nat) : Prop :=
  (r = none ∧ c = 0) ∨ (∃ q, r = some q ∧ Good q c ∧ c ≠ 0)

include hdbl in
theorem dblUnless_spec {r : Option Pt} {c : Nat} (h : Acc Good r c) :
    (F ∧ dblUnless w g r = .fail) ∨ ∃ r', dblUnless w g r = .ok r' ∧ Acc Good r' (2 * c) := by
  rcases h with ⟨rfl, rfl⟩ | ⟨q, rfl, h, h0⟩
  · exact Or.inr ⟨none, rfl, Or.inl ⟨rfl, rfl⟩⟩
  · rcases hdbl q c h with ⟨hF, e⟩ | ⟨r, e, h'⟩
    · exact Or.inl ⟨hF, by rw [dblUnless, e]; rfl⟩
    exact Or.inr ⟨some r, by rw [dblUnless, e]; rfl, Or.inr ⟨r, rfl, by rwa [two_mul], by omega⟩⟩

include hadd in
theorem addOrCopy_spec {r : Option Pt} {c : Nat} (h : Acc Good r c) {q : Pt} {n : Nat} (hq : Good q n) (hn : n ≠ 0) :
    (F ∧ addOrCopy w g q r = .fail) ∨ ∃ r', addOrCopy w g q r = .ok r' ∧ Acc Good r' (c + n) := by
  rcases h with ⟨rfl, rfl⟩ | ⟨s, rfl, h, h0⟩
  · exact Or.inr ⟨some q, rfl, Or.inr ⟨q, rfl, by rwa [Nat.zero_add], by omega⟩⟩
  · rcases hadd s q c n h hq with ⟨hF, e⟩ | ⟨r, e, h'⟩
    · exact Or.inl ⟨hF, by rw [addOrCopy, e]; rfl⟩
    exact Or.inr ⟨some r, by rw [addOrCopy, e]; rfl, Or.inr ⟨r, rfl, h', by omega⟩⟩

include hdbl hadd in
theorem winGen_spec {p1 : Pt} (h1 : Good p1 1) :
    (F ∧ winGen w p1 g = none) ∨
    ∃ win, winGen w p1 g = some win ∧ ∀ v, 8 ≤ v → v < 16 → ∃ q, win[v &&& 7]? = some q ∧ Good q v := by
  rcases hdbl _ _ h1 with ⟨hF, e⟩ | ⟨a1, e1, r1⟩
  · exact Or.inl ⟨hF, by unfold winGen; rw [e]; rfl⟩
  rcases hdbl _ _ r1 with ⟨hF, e⟩ | ⟨a2, e2, r2⟩
  · exact Or.inl ⟨hF, bindS e1 (by rw [e]; rfl)⟩
  rcases hdbl _ _ r2 with ⟨hF, e⟩ | ⟨b0, f0, s0⟩
  · exact Or.inl ⟨hF, bindS e1 (bindS e2 (by rw [e]; rfl))⟩
  rcases hadd _ _ _ _ s0 h1 with ⟨hF, e⟩ | ⟨b1, f1, s1⟩
  · exact Or.inl ⟨hF, bindS e1 (bindS e2 (bindS f0 (by rw [e]; rfl)))⟩
  rcases hadd _ _ _ _ s1 h1 with ⟨hF, e⟩ | ⟨b2, f2, s2⟩
  · exact Or.inl ⟨hF, bindS e1 (bindS e2 (bindS f0 (bindS f1 (by rw [e]; rfl))))⟩
  rcases hadd _ _ _ _ s2 h1 with ⟨hF, e⟩ | ⟨b3, f3, s3⟩
  · exact Or.inl ⟨hF, bindS e1 (bindS e2 (bindS f0 (bindS f1 (bindS f2 (by rw [e]; rfl)))))⟩
  rcases hadd _ _ _ _ s3 h1 with ⟨hF, e⟩ | ⟨b4, f4, s4⟩
  · exact Or.inl ⟨hF, bindS e1 (bindS e2 (bindS f0 (bindS f1 (bindS f2 (bindS f3 (by rw [e]; rfl))))))⟩
  rcases hadd _ _ _ _ s4 h1 with ⟨hF, e⟩ | ⟨b5, f5, s5⟩
  · exact Or.inl ⟨hF, bindS e1 (bindS e2 (bindS f0 (bindS f1 (bindS f2 (bindS f3 (bindS f4 (by rw [e]; rfl)))))))⟩
  rcases hadd _ _ _ _ s5 h1 with ⟨hF, e⟩ | ⟨b6, f6, s6⟩
  · exact Or.inl ⟨hF, bindS e1 (bindS e2 (bindS f0 (bindS f1 (bindS f2 (bindS f3 (bindS f4 (bindS f5 (by rw [e]; rfl))))))))⟩
  rcases hadd _ _ _ _ s6 h1 with ⟨hF, e⟩ | ⟨b7, f7, s7⟩
  · exact Or.inl ⟨hF, bindS e1 (bindS e2 (bindS f0 (bindS f1 (bindS f2 (bindS f3 (bindS f4 (bindS f5 (bindS f6 (by rw [e]; rfl)))))))))⟩
  refine Or.inr ⟨[b0, b1, b2, b3, b4, b5, b6, b7], bindS e1 (bindS e2 (bindS f0 (bindS f1 (bindS f2 (bindS f3 (bindS f4 (bindS f5
    (bindS f6 (bindS f7 rfl))))))))), ?_⟩
  intro v hv1 hv2
  have : v = 8 ∨ v = 9 ∨ v = 10 ∨ v = 11 ∨ v = 12 ∨ v = 13 ∨ v = 14 ∨ v = 15 := by omega
  rcases this with rfl | rfl | rfl | rfl | rfl | rfl | rfl | rfl
  exacts [⟨b0, rfl, s0⟩, ⟨b1, rfl, s1⟩, ⟨b2, rfl, s2⟩, ⟨b3, rfl, s3⟩, ⟨b4, rfl, s4⟩, ⟨b5, rfl, s5⟩, ⟨b6, rfl, s6⟩,
    ⟨b7, rfl, s7⟩]

include hdbl in
theorem window_spec (hw : 8 ≤ w) {ds : List Nat} (hd : Digits (2 ^ w) ds) : ∀ (s fuel i j v : Nat) (r : Option Pt) (c : Nat),
    s < fuel → s ≤ 3 → 2 ^ (3 - s) ≤ v → v < 2 ^ (4 - s) → i < ds.length → j ≤ w → s ≤ i * w + j → Acc Good r c →
    c + v = val (2 ^ w) ds / 2 ^ (i * w + j) → (F ∧ window w g ds fuel i j v r = .fail) ∨
    ∃ r' v' i' j' c', window w g ds fuel i j v r = .ok (r', v', i', j') ∧ 8 ≤ v' ∧ v' < 16 ∧ i' < ds.length ∧ j' ≤ w ∧
      Acc Good r' c' ∧ c' + v' = val (2 ^ w) ds / 2 ^ (i' * w + j') ∧ i' * (w + 1) + j' ≤ i * (w + 1) + j
  | 0, fuel + 1, i, j, v, r, c, _, _, hv1, hv2, hi, hj, _, hr, he => by
    refine Or.inr ⟨r, v, i, j, c, ?_, by omega, by omega, hi, hj, hr, he, Nat.le_refl _⟩
    rw [window, if_neg (by omega)]
  | s + 1, fuel + 1, i, j, v, r, c, hf, hs, hv1, hv2, hi, hj, hp, hr, he => by
    have hv8 : v < 8 := by
      have : 2 ^ (4 - (s + 1)) ≤ 2 ^ 3 := Nat.pow_le_pow_right (by omega) (by omega)
      omega
    have h0 : ¬ (j = 0 ∧ i = 0) := by rintro ⟨rfl, rfl⟩; omega
    rw [window, if_pos hv8, if_neg h0]
    dsimp only
    set i' := if j = 0 then i - 1 else i with hi'
    set j' := (if j = 0 then w else j) - 1 with hj'
    have hpos : i' * w + j' + 1 = i * w + j ∧ j' < w ∧ i' < ds.length ∧ i' * (w + 1) + j' ≤ i * (w + 1) + j := by
      by_cases hj0 : j = 0
      · subst hj0
        simp only [if_true] at hi' hj'
        obtain ⟨k, rfl⟩ : ∃ k, i = k + 1 := ⟨i - 1, by omega⟩
        simp only [Nat.add_sub_cancel] at hi'
        rw [hi', hj', Nat.succ_mul, Nat.succ_mul]
        omega
      · simp only [hj0, if_false] at hi' hj'
        rw [hi', hj']; omega
    rcases dblUnless_spec hdbl hr with ⟨hF, e1⟩ | ⟨r1, e1, h1⟩
    · exact Or.inl ⟨hF, by rw [e1, Out.bind]⟩
    obtain ⟨b, e2, h2⟩ := bitAt_spec hd hpos.2.2.1 hpos.2.1
    have hv : 2 ^ (3 - s) = 2 * 2 ^ (3 - (s + 1)) ∧ 2 ^ (4 - s) = 2 * 2 ^ (4 - (s + 1)) := by
      constructor <;> rw [← pow_succ'] <;> congr 1 <;> omega
    rw [hpos.1] at h2
    rw [e1, Out.bind, e2, Out.bind]
    rcases window_spec hw hd s fuel i' j'
      (2 * v + (if b then 1 else 0)) r1 (2 * c) (by omega) (by omega) (by split <;> omega) (by split <;> omega) hpos.2.2.1
      (by omega) (by omega) h1 (by rw [h2, ← he]; ring) with hF | ⟨r', v', i'', j'', c', g1, g2, g3, g4, g5, g6, g7, g8⟩
    · exact Or.inl hF
    exact Or.inr ⟨r', v', i'', j'', c', g1, g2, g3, g4, g5, g6, g7, by omega⟩

include hdbl hadd in
theorem mulLoop_spec (hw : 8 ≤ w) {ds : List Nat} (hd : Digits (2 ^ w) ds) {p1 : Pt} (hp1 : Good p1 1) {win : List Pt}
    (hwin : ∀ v, 8 ≤ v → v < 16 → ∃ q, win[v &&& 7]? = some q ∧ Good q v) : ∀ (fuel i j : Nat) (r : Option Pt),
    i * (w + 1) + j < fuel → j ≤ w → (j = 0 ∧ i ≤ ds.length ∨ i < ds.length) →
    Acc Good r (val (2 ^ w) ds / 2 ^ (i * w + j)) →
    (F ∧ mulLoop w g p1 win ds fuel i j r = .fail) ∨ ∃ r', mulLoop w g p1 win ds fuel i j r = .ok r' ∧ Acc Good r' (val (2 ^ w) ds)
  | 0, i, j, r, hf, _, _, _ => absurd hf (by omega)
  | fuel + 1, i, 0, r, hf, hj, hi, hr => by
    rw [mulLoop]
    by_cases h0 : i = 0
    · subst h0
      rw [if_pos rfl]
      exact Or.inr ⟨r, rfl, by simpa using hr⟩
    · rw [if_neg h0]
      obtain ⟨k, rfl⟩ : ∃ k, i = k + 1 := ⟨i - 1, by omega⟩
      rw [Nat.succ_mul] at hf
      refine mulLoop_spec hw hd hp1 hwin fuel k w r (by omega) (Nat.le_refl _) (Or.inr (by omega)) ?_
      rw [← Nat.succ_mul]; exact hr
  | fuel + 1, i, j + 1, r, hf, hj, hi, hr => by
    have hi : i < ds.length := by omega
    rw [mulLoop]
    rcases dblUnless_spec hdbl hr with ⟨hF, e1⟩ | ⟨r1, e1, h1⟩
    · exact Or.inl ⟨hF, by rw [e1, Out.bind]⟩
    obtain ⟨b, e2, h2⟩ := bitAt_spec hd hi (show j < w by omega)
    rw [e1, Out.bind, e2, Out.bind]
    rw [← Nat.add_assoc] at h1
    cases b with
    | false =>
      simp only [Bool.false_eq_true, if_false, Nat.add_zero] at h2 ⊢
      rw [← h2] at h1
      exact mulLoop_spec hw hd hp1 hwin fuel i j r1 (by omega) (by omega) (Or.inr hi) h1
    | true =>
      simp only [if_true] at h2 ⊢
      by_cases hc : i ≠ 0 ∨ j ≥ 3
      · rw [if_pos hc]
        have hp : 3 ≤ i * w + j := by
          rcases hc with hc | hc
          · have := Nat.mul_le_mul (show 1 ≤ i by omega) hw; omega
          · omega
        rcases window_spec hdbl hw hd 3 4 i j 1 r1
          (2 * (val (2 ^ w) ds / 2 ^ (i * w + j + 1))) (by omega) (by omega) (by norm_num) (by norm_num) hi (by omega) hp h1
          h2.symm with ⟨hF, g1⟩ | ⟨r', v', i', j', c', g1, g2, g3, g4, g5, g6, g7, g8⟩
        · exact Or.inl ⟨hF, by rw [g1, Out.bind]⟩
        rw [g1, Out.bind]
        obtain ⟨q, q1, q2⟩ := hwin v' g2 g3
        dsimp only
        rw [q1]
        dsimp only
        rcases addOrCopy_spec hadd g6 q2 (by omega) with ⟨hF, e3⟩ | ⟨r2, e3, h3⟩
        · exact Or.inl ⟨hF, by rw [e3, Out.bind]⟩
        rw [e3, Out.bind]
        rw [g7] at h3
        exact mulLoop_spec hw hd hp1 hwin fuel i' j' r2 (by omega) g5 (Or.inr g4) h3
      · rw [if_neg hc]
        rcases addOrCopy_spec hadd h1 hp1 (by omega) with ⟨hF, e3⟩ | ⟨r2, e3, h3⟩
        · exact Or.inl ⟨hF, by rw [e3, Out.bind]⟩
        rw [e3, Out.bind]
        rw [← h2] at h3
        exact mulLoop_spec hw hd hp1 hwin fuel i j r2 (by omega) (by omega) (Or.inr hi) h3

include hdbl hadd in
theorem mulPt_abstract (hw : 8 ≤ w) {p1 : Pt} (hp1 : Good p1 1) (hz : isZeroPt p1 = false) {k : Mpi}
    (hk : Digits (2 ^ w) k.digs) :
    (F ∧ mulPt w p1 k g = .fail) ∨ (val (2 ^ w) k.digs = 0 ∧ mulPt w p1 k g = call (setZero w)) ∨
    (∃ r, mulPt w p1 k g = .ok r ∧ Good r (val (2 ^ w) k.digs)) := by
  unfold mulPt
  rw [hz, if_neg (by simp)]
  rcases winGen_spec hdbl hadd hp1 with ⟨hF, e1⟩ | ⟨win, e1, h1⟩
  · exact Or.inl ⟨hF, by rw [e1]; rfl⟩
  have hs : val (2 ^ w) k.digs / 2 ^ (k.digs.length * w + 0) = 0 := by
    apply Nat.div_eq_of_lt
    have := val_lt hk
    rwa [← pow_mul, Nat.mul_comm w] at this
  rw [e1]
  rcases mulLoop_spec hdbl hadd hw hk hp1 h1 (k.digs.length * (w + 1) + 1) k.digs.length 0 none
    (by omega) (by omega) (Or.inl ⟨rfl, Nat.le_refl _⟩) (Or.inl ⟨rfl, hs⟩) with ⟨hF, e2⟩ | ⟨r, e2, h2⟩
  · exact Or.inl ⟨hF, by simp only [call, Out.bind, e2]⟩
  simp only [call, Out.bind, e2]
  rcases h2 with ⟨rfl, h2⟩ | ⟨q, rfl, h2, h0⟩
  · exact Or.inr (Or.inl ⟨h2, rfl⟩)
  · exact Or.inr (Or.inr ⟨q, rfl, h2⟩)

end Abstract

open WeierstrassCurve WeierstrassCurve.Affine
variable {w p : Nat} {a b : ZMod p} [Fact p.Prime] {g : Grp}

/-- In a cyclic group of odd order no element has order two. -/
theorem nsmul_two_torsion {A : Type} [AddGroup A] {P : A} (h : Odd (addOrderOf P)) (k : Nat) (hk : k • P + k • P = 0) :
    k • P = 0 := by
  rw [← add_nsmul, ← two_mul, ← addOrderOf_dvd_iff_nsmul_eq_zero] at hk
  rw [← addOrderOf_dvd_iff_nsmul_eq_zero]
  exact (Nat.Coprime.symm (Nat.coprime_two_left.2 h)).dvd_of_dvd_mul_left hk

/-- Scalar multiplication: the right multiple, or an error, and no error when no multiple of the point has order two. -/
theorem mulPt_spec (hw : DigitWidth w) (hg : GrpRep w p a g) {q : Pt} {P : (curve p a b).Point} (h : PtRep w q P)
    (F : Prop) (hF : F ∨ ∀ k : Nat, k • P + k • P = 0 → k • P = 0) {k : Mpi} (hk : Digits (2 ^ w) k.digs) :
    (F ∧ mulPt w q k g = .fail) ∨
    ∃ r, mulPt w q k g = .ok r ∧ PtRep w r (val (2 ^ w) k.digs • P) ∧ (PtRed w p q → PtRed w p r) := by
  have hz := ptRep_isZero h
  by_cases hP : P = 0
  · refine Or.inr ⟨q, ?_, by rwa [hP, nsmul_zero, ← hP], id⟩
    rw [mulPt, if_pos (hz.2 hP)]
  have hz' : isZeroPt q = false := by
    rw [← Bool.not_eq_true, hz]; exact hP
  let Good : Pt → Nat → Prop := fun r c => PtRep w r (c • P) ∧ (PtRed w p q → PtRed w p r)
  have hdbl : ∀ r k, Good r k → (F ∧ dbl w r g = none) ∨ ∃ r', dbl w r g = some r' ∧ Good r' (k + k) := by
    rintro r k ⟨h1, h2⟩
    by_cases hne : k • P = 0 ∨ k • P + k • P ≠ 0
    · obtain ⟨r', e1, e2, e3⟩ := (dbl_spec hw hg h1).1 hne
      refine Or.inr ⟨r', e1, by rwa [add_nsmul], fun hq => ?_⟩
      rcases e3 with ⟨-, rfl⟩ | e3
      · exact h2 hq
      · exact e3
    · simp only [not_or, not_not] at hne
      exact Or.inl ⟨hF.resolve_right fun hF => hne.1 (hF k hne.2), (dbl_spec hw hg h1).2 hne⟩
  have hadd : ∀ r s m n, Good r m → Good s n →
      (F ∧ add w r s g = none) ∨ ∃ r', add w r s g = some r' ∧ Good r' (m + n) := by
    rintro r s m n ⟨h1, h2⟩ ⟨h3, h4⟩
    by_cases hne : m • P = n • P ∧ m • P ≠ 0 ∧ m • P + m • P = 0
    · exact Or.inl ⟨hF.resolve_right fun hF => hne.2.1 (hF m hne.2.2), (add_spec hw hg h1 h3).2 hne⟩
    obtain ⟨r', e1, e2, e3⟩ := (add_spec hw hg h1 h3).1 hne
    refine Or.inr ⟨r', e1, by rwa [add_nsmul], fun hq => ?_⟩
    rcases e3 with ⟨-, rfl⟩ | ⟨-, rfl⟩ | e3
    · exact h4 hq
    · exact h2 hq
    · exact e3
  have h1 : Good q 1 := ⟨by rwa [one_nsmul], id⟩
  rcases mulPt_abstract hdbl hadd hw.pos h1 hz' hk with hF | ⟨h0, e⟩ | ⟨r, d1, d2, d3⟩
  · exact Or.inl hF
  · obtain ⟨r, d1, d2, d3⟩ := setZero_spec (p := p) (a := a) (b := b) hw
    exact Or.inr ⟨r, by rw [e, d1]; rfl, by rwa [h0, zero_nsmul], fun _ => d3⟩
  · exact Or.inr ⟨r, d1, d2, d3⟩

/-- The window table cannot be built for a point of order two, four or eight. -/
theorem mulPt_fail (hw : DigitWidth w) (hg : GrpRep w p a g) {q : Pt} {P : (curve p a b).Point} (h : PtRep w q P)
    (hP : P ≠ 0) (h8 : 8 • P = 0) (k : Mpi) : mulPt w q k g = .fail := by
  have hz : isZeroPt q = false := by
    rw [← Bool.not_eq_true, ptRep_isZero h]; exact hP
  have e8 : (P + P + (P + P)) + (P + P + (P + P)) = 0 := by rw [← h8]; abel
  have hn : winGen w q g = none := by
    by_cases h2 : P + P = 0
    · have e := (dbl_spec hw hg h).2 ⟨hP, h2⟩
      unfold winGen; rw [e]; rfl
    obtain ⟨q2, e2, r2, -⟩ := (dbl_spec hw hg h).1 (Or.inr h2)
    by_cases h4 : P + P + (P + P) = 0
    · have e := (dbl_spec hw hg r2).2 ⟨h2, h4⟩
      exact bindS e2 (by rw [e]; rfl)
    obtain ⟨q4, e4, r4, -⟩ := (dbl_spec hw hg r2).1 (Or.inr h4)
    have e := (dbl_spec hw hg r4).2 ⟨h4, e8⟩
    exact bindS e2 (bindS e4 (by rw [e]; rfl))
  rw [mulPt, hz, if_neg (by simp), hn]
  rfl

end Verif.Ecp
