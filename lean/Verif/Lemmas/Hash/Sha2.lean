import Verif.Lemmas.Hash.Md
/-! The SHA-2 message schedule and rounds. -/
namespace Verif.HashL
open Verif.Modes Verif.HashS

/-- The root found bit by bit is the whole part of the root. -/
theorem iroot_spec {k n bits : Nat} (hk : 0 < k) (h : n < (2 ^ bits) ^ k) :
    (irootFrom k n bits 0) ^ k ≤ n ∧ n < (irootFrom k n bits 0 + 1) ^ k := by
  have hgen : ∀ b acc, acc ^ k ≤ n → n < (acc + 2 ^ b) ^ k →
      (irootFrom k n b acc) ^ k ≤ n ∧ n < (irootFrom k n b acc + 1) ^ k := by
    intro b
    induction b with
    | zero => intro acc h1 h2; exact ⟨h1, h2⟩
    | succ b ih =>
      intro acc h1 h2
      rw [irootFrom]
      split_ifs with hc
      · exact ih _ hc (by rw [Nat.add_assoc, ← Nat.two_mul, ← Nat.pow_succ']; exact h2)
      · exact ih _ h1 (by omega)
  exact hgen bits 0 (by rw [Nat.zero_pow hk]; omega) (by rw [Nat.zero_add]; exact h)

theorem sched_low {n} (P : Sha2 n) (M : Nat → BitVec n) {t : Nat} (h : t < 16) : sched P M t = M t := by
  rw [sched, if_pos h]

theorem sched_high {n} (P : Sha2 n) (M : Nat → BitVec n) {t : Nat} (h : 16 ≤ t) : sched P M t =
    P.s1 (sched P M (t - 2)) + sched P M (t - 7) + P.s0 (sched P M (t - 15)) + sched P M (t - 16) := by
  rw [sched, if_neg (by omega)]

/-- `m` holds the first entries of the schedule. -/
def IsSched {n} (P : Sha2 n) (M : Nat → BitVec n) (m : List (BitVec n)) : Prop :=
  16 ≤ m.length ∧ ∀ t, t < m.length → m.getD t 0 = sched P M t

theorem IsSched.snoc {n} {P : Sha2 n} {M : Nat → BitVec n} {m : List (BitVec n)} (h : IsSched P M m) :
    IsSched P M (m ++ [P.s1 (m.getD (m.length - 2) 0) + m.getD (m.length - 7) 0 + P.s0 (m.getD (m.length - 15) 0) +
      m.getD (m.length - 16) 0]) := by
  obtain ⟨hl, hm⟩ := h
  refine ⟨by rw [List.length_append]; omega, ?_⟩
  intro t ht
  rw [List.length_append, List.length_singleton] at ht
  rw [List.getD_eq_getElem?_getD]
  by_cases h : t < m.length
  · rw [List.getElem?_append_left h, ← List.getD_eq_getElem?_getD, hm t h]
  · have he : t = m.length := by omega
    subst he
    rw [List.getElem?_append_right (Nat.le_refl _), Nat.sub_self, List.getElem?_cons_zero, Option.getD_some,
      sched_high P M hl, hm _ (by omega), hm _ (by omega), hm _ (by omega), hm _ (by omega)]

end Verif.HashL
