import Verif.Lemmas.Crypt.Crc
import Mathlib.Dynamics.PeriodicPts.Defs
import Mathlib.Algebra.Polynomial.AlgebraMap
import Mathlib.LinearAlgebra.Pi
/-! Periods of linear recurring sequences over GF(2), with powers of `X` modulo the polynomial computed on bit vectors. -/
namespace Verif.Period
open Polynomial Verif.CrcS Verif.Crc

/-! ### Arithmetic modulo `X ^ (n + 1) + reg P` -/

/-- The product of two residues, by Horner. -/
def mulm {n : Nat} (P a b : BitVec n) : BitVec n :=
  ((List.range n).map a.getLsbD).foldl (fun acc m => shift P acc ^^^ (if m then b else 0)) 0

theorem reg_zero (n : Nat) : reg (0 : BitVec n) = 0 := by
  unfold reg
  refine Finset.sum_eq_zero fun i _ => ?_
  simp [bit]

theorem pol_range (f : Nat → Bool) : ∀ m, pol ((List.range m).map f) = ∑ i ∈ Finset.range m, C (bit (f i)) * X ^ (m - 1 - i)
  | 0 => by simp [pol]
  | m + 1 => by
    rw [List.range_succ, List.map_append, pol_append, pol_range f m, Finset.sum_range_succ, Finset.sum_mul]
    congr 1
    · refine Finset.sum_congr rfl fun i hi => ?_
      rw [Finset.mem_range] at hi
      rw [mul_assoc, List.map_singleton, List.length_singleton, ← pow_add, show m - 1 - i + 1 = m + 1 - 1 - i by omega]
    · simp [pol]

theorem mulm_fold {n : Nat} (P b : BitVec (n + 1)) : ∀ (l : List Bool) (acc : BitVec (n + 1)),
    (X ^ (n + 1) + reg P) ∣ reg (l.foldl (fun acc m => shift P acc ^^^ (if m then b else 0)) acc) - (X ^ l.length * reg acc + pol l * reg b)
  | [], acc => by simp [pol]
  | m :: l, acc => by
    obtain ⟨c, hc⟩ := mulm_fold P b l (shift P acc ^^^ (if m then b else 0))
    have hm : reg (if m then b else 0) = C (bit m) * reg b := by
      cases m
      · simpa [bit] using reg_zero (n + 1)
      · simp [bit]
    rw [reg_xor, reg_shift, hm] at hc
    rw [List.foldl_cons, List.length_cons, pol]
    refine ⟨c + X ^ l.length * C (bit (acc.getLsbD 0)), ?_⟩
    linear_combination hc

theorem mulm_spec {n : Nat} (P a b : BitVec (n + 1)) : (X ^ (n + 1) + reg P) ∣ reg (mulm P a b) - reg a * reg b := by
  have h := mulm_fold P b ((List.range (n + 1)).map a.getLsbD) 0
  rw [reg_zero, mul_zero, zero_add, pol_range] at h
  exact h

/-- Each entry is the square of the one before, times `X` if marked. -/
def ladder {n : Nat} (P : BitVec n) : BitVec n → List (Bool × BitVec n) → Bool
  | _, [] => true
  | a, (b, c) :: l => ((if b then shift P (mulm P a a) else mulm P a a) == c) && ladder P c l

def expo {α : Type} (e : Nat) (l : List (Bool × α)) : Nat := l.foldl (fun e b => 2 * e + if b.1 then 1 else 0) e

def top {α : Type} (a : α) (l : List (Bool × α)) : α := l.foldl (fun _ b => b.2) a

theorem ladder_spec {n : Nat} (P : BitVec (n + 1)) : ∀ (l : List (Bool × BitVec (n + 1))) (a : BitVec (n + 1)) (e : Nat),
    (X ^ (n + 1) + reg P) ∣ reg a - X ^ e → ladder P a l = true → (X ^ (n + 1) + reg P) ∣ reg (top a l) - X ^ expo e l
  | [], a, e, h, _ => h
  | (b, c) :: l, a, e, h, hl => by
    rw [ladder, Bool.and_eq_true, beq_iff_eq] at hl
    refine ladder_spec P l c (2 * e + if b then 1 else 0) ?_ hl.2
    obtain ⟨u, hu⟩ := mulm_spec P a a
    obtain ⟨v, hv⟩ := h
    rw [← hl.1]
    cases b
    · refine ⟨u + v * (reg a + X ^ e), ?_⟩
      simp only [Bool.false_eq_true, if_false, add_zero]
      rw [two_mul, pow_add]
      linear_combination hu + (reg a + X ^ e) * hv
    · refine ⟨X * (u + v * (reg a + X ^ e)) + C (bit ((mulm P a a).getLsbD 0)), ?_⟩
      simp only [if_true]
      rw [reg_shift, two_mul, pow_add, pow_add]
      linear_combination X * hu + X * (reg a + X ^ e) * hv

theorem ladder_unit {n : Nat} {P x o i : BitVec (n + 1)} (hx : reg x = X) (ho : reg o = 1) {l : List (Bool × BitVec (n + 1))} (hl : ladder P x l = true)
    (hi : mulm P (top x l ^^^ o) i = o) {e : Nat} (he : e = expo 1 l) : ∃ j, (X ^ (n + 1) + reg P) ∣ (X ^ e - 1) * j - 1 := by
  subst he
  obtain ⟨u, hu⟩ := ladder_spec P l x 1 (by rw [hx, pow_one, sub_self]; exact dvd_zero _) hl
  obtain ⟨v, hv⟩ := mulm_spec P (top x l ^^^ o) i
  rw [hi, reg_xor, ho] at hv
  have h2 : (2 : Pol) = 0 := CharTwo.two_eq_zero
  refine ⟨reg i, -v - u * reg i, ?_⟩
  linear_combination (-1 : Pol) * hv - reg i * hu - reg i * h2

theorem ladder_one {n : Nat} {P x : BitVec (n + 1)} (hx : reg x = X) {l : List (Bool × BitVec (n + 1))} (hl : ladder P x l = true) (ht : top x l = x)
    (hc : IsCoprime (X ^ (n + 1) + reg P) X) {N : Nat} (hN : expo 1 l = N + 1) : (X ^ (n + 1) + reg P) ∣ X ^ N - 1 := by
  obtain ⟨u, hu⟩ := ladder_spec P l x 1 (by rw [hx, pow_one, sub_self]; exact dvd_zero _) hl
  rw [ht, hx, hN, pow_succ'] at hu
  exact hc.dvd_of_dvd_mul_left ⟨-u, by linear_combination (-1 : Pol) * hu⟩

/-! ### Sequences -/

/-- The sequence without its first term. -/
def tl : Module.End (ZMod 2) (Nat → ZMod 2) := LinearMap.funLeft (ZMod 2) (ZMod 2) Nat.succ

theorem tl_iter (x : Nat → ZMod 2) : ∀ d, (tl ^ d) x = fun n => x (n + d)
  | 0 => rfl
  | d + 1 => by
    rw [pow_succ', Module.End.mul_apply, tl_iter x d]
    funext n
    show x (n + 1 + d) = _
    rw [show n + 1 + d = n + (d + 1) by omega]

theorem aeval_pow (x : Nat → ZMod 2) (d : Nat) : aeval tl (X ^ d : Pol) x = fun n => x (n + d) := by
  rw [map_pow, aeval_X, tl_iter]

theorem aeval_dvd {g p : Pol} {x : Nat → ZMod 2} (hx : aeval tl g x = 0) (h : g ∣ p) : aeval tl p x = 0 := by
  obtain ⟨c, rfl⟩ := h
  rw [mul_comm, map_mul, Module.End.mul_apply, hx, map_zero]

/-- A sequence, not zero, with polynomial `g` has exactly the period `N` if `X ^ N` is 1 modulo `g` and `X ^ (N / p) - 1` is a unit for the primes `p` of `N`. -/
theorem period_iff {g : Pol} {x : Nat → ZMod 2} (hx : aeval tl g x = 0) (hne : x ≠ 0) {N : Nat} (hN : 0 < N) (h1 : g ∣ X ^ N - 1)
    (h2 : ∀ p, p.Prime → p ∣ N → ∃ i, g ∣ (X ^ (N / p) - 1) * i - 1) (d : Nat) : (∀ n, x (n + d) = x n) ↔ N ∣ d := by
  have hper : ∀ d, Function.IsPeriodicPt tl d x ↔ ∀ n, x (n + d) = x n := fun d => by
    rw [Function.IsPeriodicPt, Function.IsFixedPt, ← Module.End.pow_apply, tl_iter]
    exact funext_iff
  have hd : ∀ d, aeval tl (X ^ d - 1 : Pol) x = 0 ↔ ∀ n, x (n + d) = x n := fun d => by
    rw [map_sub, LinearMap.sub_apply, aeval_pow, map_one, Module.End.one_apply, sub_eq_zero]
    exact funext_iff
  have hNp : Function.IsPeriodicPt tl N x := (hper N).2 ((hd N).1 (aeval_dvd hx h1))
  have hm : Function.minimalPeriod tl x = N := by
    obtain ⟨c, hc⟩ := hNp.minimalPeriod_dvd
    by_contra hne'
    have hc1 : c ≠ 1 := fun h => hne' (by rw [hc, h, mul_one])
    obtain ⟨p, hp, hpc⟩ := Nat.exists_prime_and_dvd hc1
    obtain ⟨e, he⟩ := hpc
    have hNp' : N / p = Function.minimalPeriod tl x * e := by
      rw [hc, he, show Function.minimalPeriod tl x * (p * e) = Function.minimalPeriod tl x * e * p by ring]
      exact Nat.mul_div_cancel _ hp.pos
    have hpN : p ∣ N := by rw [hc, he]; exact Dvd.dvd.mul_left (Dvd.intro _ rfl) _
    obtain ⟨i, hi⟩ := h2 p hp hpN
    have h3 : aeval tl (X ^ (N / p) - 1 : Pol) x = 0 := by
      rw [hd, ← hper, hNp']
      exact (Function.isPeriodicPt_minimalPeriod tl x).mul_const e
    have h4 := aeval_dvd hx hi
    rw [map_sub, LinearMap.sub_apply, mul_comm, map_mul, Module.End.mul_apply, h3, map_zero, map_one, Module.End.one_apply, zero_sub, neg_eq_zero] at h4
    exact hne h4
  rw [← hper, ← hm]
  exact Function.isPeriodicPt_iff_minimalPeriod_dvd

end Verif.Period
