import Verif.Lemmas.MemXor
import Verif.Spec.MemXor
namespace Verif.MemXor
open Spec

/-- C21: `cry_memxor` xors correctly for every overlap of its two buffers. -/
theorem memxor_correct (m : Mem) (dst src n : Nat) :
    XorInto m (memxor m dst src n) dst dst src n (fun _ => False) := by
  unfold memxor
  split
  next h =>
    obtain ⟨h1, h2⟩ := fwd1_spec m dst src n h n (Nat.le_refl _)
    exact ⟨h1, fun x hx _ => h2 x hx⟩
  next h =>
    obtain ⟨h1, h2⟩ := bwd1_spec dst src (by omega) n m
    exact ⟨h1, fun x hx _ => h2 x hx⟩

/-- An overlap at distance 1: three bytes at 4 xored with three bytes at 5. -/
example : memxor (fun a => BitVec.ofNat 8 (a * a)) 4 5 3 5 = 25 ^^^ 36 := by decide

/-- The overlap class on which `cry_memxor2` goes wrong: `dst` contains the last `d` bytes
of the lower source and the first bytes of the higher source, the sources are separated by
at least one byte, and `d` does not divide `n - 1`. -/
def BadOverlap (dst src1 src2 n : Nat) : Prop :=
  let s1 := min src1 src2
  let s2 := max src1 src2
  s1 < dst ∧ dst < s1 + n ∧ s1 + n < s2 ∧ s2 < dst + n ∧ (n - 1) % (s1 + n - dst) ≠ 0

/-- C22 (partial: the bad overlap class is excluded, and a needed temporary buffer must be
obtainable).  For every other placement of the three buffers `cry_memxor2` is correct; only
the temporary block, if one is allocated, changes besides the destination.

Missing for the full statement: the claim for `BadOverlap`, which is false
(`memxor2_wrong_on_bad_overlap`), and for allocation failure, where the destination is
silently left unchanged (`memxor2_alloc_failure`). -/
theorem memxor2_correct_partial (m : Mem) (dst src1 src2 n tmp : Nat) (rest : List (Option Nat))
    (ht1 : Disjoint tmp src1 n) (ht2 : Disjoint tmp src2 n) (_ht3 : Disjoint tmp dst n)
    (hgood : ¬ BadOverlap dst src1 src2 n) :
    XorInto m (memxor2 (some tmp :: rest) m dst src1 src2 n) dst src1 src2 n
      (fun x => tmp ≤ x ∧ x < tmp + n) := by
  have hsym : ∀ (m' : Mem) (T : Nat → Prop), XorInto m m' dst src2 src1 n T →
      XorInto m m' dst src1 src2 n T := by
    intro m' T h
    exact ⟨fun i hi => by rw [h.1 i hi, BitVec.xor_comm], h.2⟩
  -- the statement for ordered sources
  have key : ∀ s1 s2 : Nat, s1 ≤ s2 → Disjoint tmp s1 n → Disjoint tmp s2 n →
      ¬ (s1 < dst ∧ dst < s1 + n ∧ s1 + n < s2 ∧ s2 < dst + n ∧ (n - 1) % (s1 + n - dst) ≠ 0) →
      XorInto m (if dst ≤ s1 ∨ (s1 + n ≤ dst ∧ dst ≤ s2) then
          fwd2 m dst s1 s2 n
        else if s2 ≤ dst ∨ (s1 ≤ dst ∧ dst + n ≤ s2) then
          bwd2 m dst s1 s2 n
        else if s1 + n < s2 then
          case3 m dst s1 s2 n
        else memcpy (memxor2 rest m tmp s1 s2 n) dst tmp n) dst s1 s2 n
        (fun x => tmp ≤ x ∧ x < tmp + n) := by
    intro s1 s2 h12 ht1 ht2 hg
    unfold Disjoint at ht1 ht2
    split
    next h =>
      obtain ⟨h1, h2⟩ := fwd2_spec m dst s1 s2 n (by omega) (by omega) n (Nat.le_refl _)
      exact ⟨h1, fun x hx _ => h2 x hx⟩
    next hA =>
    split
    next h =>
      obtain ⟨h1, h2⟩ := bwd2_spec dst s1 s2 n (by omega) (by omega) n (Nat.le_refl _) m
      exact ⟨h1, fun x hx _ => h2 x hx⟩
    next hB =>
    split
    next h =>
      obtain ⟨h1, h2, h3⟩ := case3_spec m dst s1 s2 n (by omega) (by omega) h
      have hdiv : (n - 1) % (s1 + n - dst) = 0 := by
        refine Decidable.byContradiction fun hne => hg ⟨?_, ?_, ?_, ?_, hne⟩ <;> omega
      refine ⟨fun i hi => ?_, fun x hx _ => h3 x hx⟩
      by_cases hi2 : i < n - (s1 + n - dst)
      · exact h1 i hi2
      · have := h2 (i - (n - (s1 + n - dst))) (by omega)
        rw [Nat.add_mod, hdiv, Nat.zero_add, Nat.mod_mod, Nat.mod_eq_of_lt (by omega)] at this
        rw [show dst + (n - (s1 + n - dst)) + (i - (n - (s1 + n - dst))) = dst + i by omega,
          show n - (s1 + n - dst) + (i - (n - (s1 + n - dst))) = i by omega] at this
        exact this
    next hC =>
      -- the temporary buffer does not overlap the sources: case 1 or 2 applies to it
      have hin : XorInto m (memxor2 rest m tmp s1 s2 n) tmp s1 s2 n (fun _ => False) := by
        unfold memxor2
        simp only [if_neg (show ¬ s2 < s1 by omega)]
        split
        next h =>
          obtain ⟨h1, h2⟩ := fwd2_spec m tmp s1 s2 n (by omega) (by omega) n (Nat.le_refl _)
          exact ⟨h1, fun x hx _ => h2 x hx⟩
        next h1 =>
        split
        next h =>
          obtain ⟨h1, h2⟩ := bwd2_spec tmp s1 s2 n (by omega) (by omega) n (Nat.le_refl _) m
          exact ⟨h1, fun x hx _ => h2 x hx⟩
        next h2 => omega
      refine ⟨fun i hi => ?_, fun x hx hT => ?_⟩
      · unfold memcpy
        rw [if_pos (by omega), Nat.add_sub_cancel_left]
        exact hin.1 i hi
      · unfold memcpy
        rw [if_neg (by omega)]
        exact hin.2 x (by omega) (by simp)
  unfold memxor2
  simp only
  unfold BadOverlap at hgood
  by_cases hlt : src2 < src1
  · simp only [hlt, if_true]
    refine hsym _ _ (key src2 src1 (by omega) ht2 ht1 ?_)
    rwa [Nat.min_eq_right (by omega), Nat.max_eq_left (by omega)] at hgood
  · simp only [hlt, if_false]
    refine key src1 src2 (by omega) ht1 ht2 ?_
    rwa [Nat.min_eq_left (by omega), Nat.max_eq_right (by omega)] at hgood

/-- Hypotheses of `memxor2_correct_partial` are met by case 4, where a temporary is used:
sources at 0 and 4, destination at 2, eight bytes, temporary at 100. -/
example : Disjoint 100 0 8 ∧ Disjoint 100 4 8 ∧ Disjoint 100 2 8 ∧ ¬ BadOverlap 2 0 4 8 := by
  unfold Disjoint BadOverlap; decide

/-- ... and by the overlap exercised in the repository's test (n = 13, d = 3). -/
example : ¬ BadOverlap 10 0 14 13 := by unfold BadOverlap; decide

/-- The bad class is inhabited: n = 4, dst = src1 + 2, src2 = src1 + 5. -/
example : BadOverlap 2 0 5 4 := by unfold BadOverlap; decide

/-- C22 is false on the whole bad class: for every placement in `BadOverlap` there is a
memory content on which the destination is wrong. -/
theorem memxor2_wrong_on_bad_overlap (dst src1 src2 n : Nat) (allocs : List (Option Nat))
    (hbad : BadOverlap dst src1 src2 n) :
    ∃ m : Mem, ∃ i, i < n ∧
      memxor2 allocs m dst src1 src2 n (dst + i) ≠ m (src1 + i) ^^^ m (src2 + i) := by
  have key : ∀ s1 s2 : Nat, s1 < dst → dst < s1 + n → s1 + n < s2 → s2 < dst + n →
      (n - 1) % (s1 + n - dst) ≠ 0 →
      ∃ m : Mem, ∃ i, i < n ∧ case3 m dst s1 s2 n (dst + i) ≠ m (s1 + i) ^^^ m (s2 + i) := by
    intro s1 s2 h1 h2 h3 h4 h5
    refine ⟨fun a => if a = s1 + (n - (s1 + n - dst)) then 1 else 0,
      n - (s1 + n - dst), by omega, ?_⟩
    have hc := (case3_spec (fun a => if a = s1 + (n - (s1 + n - dst)) then 1 else 0)
      dst s1 s2 n h1 h2 h3).2.1 0 (by omega)
    rw [Nat.add_zero, Nat.add_zero] at hc
    rw [hc]
    show _ ≠ (if _ then (1 : Byte) else 0) ^^^ (if _ then (1 : Byte) else 0)
    have hlt := Nat.mod_lt (n - 1) (show s1 + n - dst > 0 by omega)
    rw [if_neg (by omega), if_neg (by omega), if_pos rfl, if_neg (by omega)]
    decide
  obtain ⟨h1, h2, h3, h4, h5⟩ := hbad
  unfold memxor2
  simp only
  by_cases hlt : src2 < src1
  · rw [Nat.min_eq_right (by omega)] at h1 h2 h3 h5
    rw [Nat.max_eq_left (by omega)] at h3 h4
    simp only [hlt, if_true]
    obtain ⟨m, i, hi, hne⟩ := key src2 src1 h1 h2 h3 h4 h5
    refine ⟨m, i, hi, ?_⟩
    rw [if_neg (by omega), if_neg (by omega), if_pos (by omega)]
    rw [BitVec.xor_comm]; exact hne
  · rw [Nat.min_eq_left (by omega)] at h1 h2 h3 h5
    rw [Nat.max_eq_right (by omega)] at h3 h4
    simp only [hlt, if_false]
    obtain ⟨m, i, hi, hne⟩ := key src1 src2 h1 h2 h3 h4 h5
    refine ⟨m, i, hi, ?_⟩
    rw [if_neg (by omega), if_neg (by omega), if_pos (by omega)]
    exact hne

/-- C22: when the temporary buffer cannot be allocated the routine silently does nothing. -/
theorem memxor2_alloc_failure (m : Mem) (dst s1 s2 n : Nat)
    (h1 : s1 < dst) (h2 : dst < s2) (h3 : s2 ≤ s1 + n) :
    memxor2 [none] m dst s1 s2 n = m := by
  unfold memxor2
  simp only [if_neg (show ¬ s2 < s1 by omega)]
  rw [if_neg (by omega), if_neg (by omega), if_neg (by omega)]

end Verif.MemXor
