import Verif.Model.Mpi.Mul
import Verif.Lemmas.Mpi.Shift
import Mathlib.Algebra.BigOperators.Intervals
import Mathlib.Algebra.BigOperators.Ring.Finset
import Mathlib.Algebra.Order.BigOperators.Group.Finset
import Mathlib.Tactic.GCongr
import Mathlib.Tactic.Positivity
namespace Verif.Mpi
open Finset

/-! ## products as column sums -/

theorem dig_cons_zero (x : Nat) (xs : List Nat) : dig (x :: xs) 0 = x := rfl
theorem dig_cons_succ (x : Nat) (xs : List Nat) (i : Nat) : dig (x :: xs) (i + 1) = dig xs i := rfl
theorem dig_nil (i : Nat) : dig [] i = 0 := rfl
theorem dig_of_ge {xs : List Nat} {i : Nat} (h : xs.length ≤ i) : dig xs i = 0 := by
  unfold dig; simp [h]
theorem dig_lt {b : Nat} (hb : 0 < b) {xs : List Nat} (h : Digits b xs) (i : Nat) : dig xs i < b := by
  by_cases hi : i < xs.length
  · unfold dig
    rw [List.getD_eq_getElem?_getD, List.getElem?_eq_getElem hi]
    exact h _ (List.getElem_mem hi)
  · rw [dig_of_ge (by omega)]; exact hb

theorem val_eq_sum (b : Nat) (xs : List Nat) :
    val b xs = ∑ i ∈ range xs.length, dig xs i * b ^ i := by
  induction xs with
  | nil => simp
  | cons x xs ih =>
    rw [List.length_cons, sum_range_succ', val_cons, ih, mul_sum]
    simp only [dig_cons_succ, dig_cons_zero, pow_zero, mul_one]
    rw [Nat.add_comm]
    congr 1
    apply sum_congr rfl
    intro i _
    rw [pow_succ]; ring

theorem val_eq_sum_ge (b : Nat) (xs : List Nat) {n : Nat} (h : xs.length ≤ n) :
    val b xs = ∑ i ∈ range n, dig xs i * b ^ i := by
  rw [val_eq_sum]
  obtain ⟨k, rfl⟩ := Nat.exists_eq_add_of_le h
  rw [sum_range_add]
  have : ∑ x ∈ range k, dig xs (xs.length + x) * b ^ (xs.length + x) = 0 := by
    apply sum_eq_zero
    intro i _
    rw [dig_of_ge (by omega)]; simp
  rw [this, Nat.add_zero]

/-- Column `k` of the product. -/
def colSum (xs ys : List Nat) (k : Nat) : Nat :=
  ∑ i ∈ range (k + 1), dig xs i * dig ys (k - i)

theorem colSum_cons_succ (x : Nat) (xs ys : List Nat) (k : Nat) :
    colSum (x :: xs) ys (k + 1) = x * dig ys (k + 1) + colSum xs ys k := by
  unfold colSum
  rw [sum_range_succ']
  simp only [dig_cons_succ, dig_cons_zero, Nat.sub_zero]
  rw [Nat.add_comm]
  congr 1
  apply sum_congr rfl
  intro i _
  rw [Nat.add_sub_add_right]

theorem val_mul_eq_colSum (b : Nat) (xs ys : List Nat) :
    ∀ n, xs.length + ys.length ≤ n → val b xs * val b ys = ∑ k ∈ range n, colSum xs ys k * b ^ k := by
  induction xs with
  | nil =>
    intro n _
    simp [colSum, dig_nil]
  | cons x xs ih =>
    intro n hn
    obtain ⟨n, rfl⟩ : ∃ m, n = m + 1 := ⟨n - 1, by simp at hn; omega⟩
    rw [sum_range_succ']
    simp only [colSum_cons_succ]
    have e1 : ∑ k ∈ range n, (x * dig ys (k + 1) + colSum xs ys k) * b ^ (k + 1) =
        x * (∑ k ∈ range n, dig ys (k + 1) * b ^ (k + 1)) +
          b * ∑ k ∈ range n, colSum xs ys k * b ^ k := by
      rw [mul_sum, mul_sum, ← sum_add_distrib]
      apply sum_congr rfl
      intro k _
      rw [pow_succ]; ring
    rw [e1, ← ih n (by simp at hn; omega)]
    have e2 : colSum (x :: xs) ys 0 * b ^ 0 = x * (dig ys 0 * b ^ 0) := by
      simp [colSum, dig_cons_zero]
    rw [e2, val_cons, val_eq_sum_ge b ys (n := n + 1) (by simp at hn; omega), sum_range_succ']
    ring

/-! ## the accumulator -/

/-- Value of the three digit accumulator. -/
def acc (b : Nat) (c : Nat × Nat × Nat) : Nat := c.1 + b * (c.2.1 + b * c.2.2)

/-- Accumulator digits are digits. -/
def AccOK (b : Nat) (c : Nat × Nat × Nat) : Prop := c.1 < b ∧ c.2.1 < b ∧ c.2.2 < b

theorem sq_bound {b i j c : Nat} (hi : i < b) (hj : j < b) (hc : c < b) : c + i * j < b * b := by
  obtain ⟨b, rfl⟩ : ∃ k, b = k + 1 := ⟨b - 1, by omega⟩
  have : i * j ≤ b * b := Nat.mul_le_mul (by omega) (by omega)
  have e : (b + 1) * (b + 1) = b * b + 2 * b + 1 := by ring
  omega

theorem muladd_spec {w : Nat} {c : Nat × Nat × Nat} {i j : Nat} (hc : AccOK (2 ^ w) c)
    (hi : i < 2 ^ w) (hj : j < 2 ^ w) (hov : acc (2 ^ w) c + i * j < (2 ^ w) ^ 3) :
    acc (2 ^ w) (muladd w c i j) = acc (2 ^ w) c + i * j ∧ AccOK (2 ^ w) (muladd w c i j) := by
  obtain ⟨c0, c1, c2⟩ := c
  obtain ⟨h0, h1, h2⟩ := hc
  have e2 : 2 ^ (2 * w) = 2 ^ w * 2 ^ w := by rw [two_mul, pow_add]
  unfold muladd acc AccOK at *
  simp only [e2] at *
  have hb : 0 < 2 ^ w := Nat.two_pow_pos w
  generalize 2 ^ w = b at *
  have hlt : c0 + i * j < b * b := sq_bound hi hj h0
  have hb2 : b ≤ b * b := Nat.le_mul_of_pos_left b hb
  have hq : (c0 + i * j) / b < b := by rw [Nat.div_lt_iff_lt_mul hb]; exact hlt
  have hd := Nat.div_add_mod (c0 + i * j) b
  have hm := Nat.mod_lt (c0 + i * j) hb
  rw [Nat.mod_eq_of_lt hlt]
  generalize (c0 + i * j) / b = q at *
  generalize (c0 + i * j) % b = m at *
  have hlt2 : c1 + q < b * b := by
    by_cases hb1 : b = 1
    · subst hb1; omega
    · have : 2 * b ≤ b * b := Nat.mul_le_mul_right _ (by omega)
      omega
  rw [Nat.mod_eq_of_lt hlt2]
  have hd2 := Nat.div_add_mod (c1 + q) b
  have hm2 := Nat.mod_lt (c1 + q) hb
  generalize (c1 + q) / b = q2 at *
  generalize (c1 + q) % b = m2 at *
  have key : m + b * (m2 + b * (c2 + q2)) = c0 + b * (c1 + b * c2) + i * j := by
    have : c0 + b * (c1 + b * c2) + i * j = (c0 + i * j) + b * c1 + b * (b * c2) := by ring
    rw [this, ← hd]
    have : b * q + m + b * c1 + b * (b * c2) = m + b * (c1 + q) + b * (b * c2) := by ring
    rw [this, ← hd2]; ring
  have hc2 : c2 + q2 < b := by
    by_contra hcon
    have h3 : b * (b * b) ≤ b * (b * (c2 + q2)) :=
      Nat.mul_le_mul_left _ (Nat.mul_le_mul_left _ (by omega))
    have e3 : b ^ 3 = b * (b * b) := by ring
    rw [e3, ← key, Nat.mul_add] at hov
    omega
  rw [Nat.mod_eq_of_lt hc2]
  exact ⟨key, hm, hm2, hc2⟩

theorem combaCol_spec {w : Nat} {xs ys : List Nat} (hx : Digits (2 ^ w) xs)
    (hy : Digits (2 ^ w) ys) (tx ty : Nat) {c : Nat × Nat × Nat} (hc : AccOK (2 ^ w) c) :
    ∀ iy, acc (2 ^ w) c + ∑ iz ∈ range iy, dig xs (tx + iz) * dig ys (ty - iz) < (2 ^ w) ^ 3 →
    acc (2 ^ w) (combaCol w xs ys tx ty iy c) =
      acc (2 ^ w) c + ∑ iz ∈ range iy, dig xs (tx + iz) * dig ys (ty - iz) ∧
    AccOK (2 ^ w) (combaCol w xs ys tx ty iy c) := by
  intro iy
  induction iy with
  | zero => intro _; simp [combaCol, hc]
  | succ n ih =>
    intro hov
    rw [sum_range_succ] at hov ⊢
    obtain ⟨h1, h2⟩ := ih (by omega)
    have e : combaCol w xs ys tx ty (n + 1) c =
        muladd w (combaCol w xs ys tx ty n c) (dig xs (tx + n)) (dig ys (ty - n)) := by
      unfold combaCol
      rw [List.range_succ, List.foldl_append]; rfl
    rw [e]
    have hb : 0 < 2 ^ w := Nat.two_pow_pos w
    obtain ⟨h3, h4⟩ := muladd_spec h2 (dig_lt hb hx (tx + n)) (dig_lt hb hy (ty - n))
      (by rw [h1]; omega)
    exact ⟨by rw [h3, h1]; ring, h4⟩

/-- The index arithmetic of the Comba loop never leaves the operands. -/
theorem comba_reads {n m ix iz : Nat} (_hn : 0 < n) (hm : 0 < m) (hix : ix < n + m)
    (hiz : iz < min (n - (ix - min ix (m - 1))) (min ix (m - 1) + 1)) :
    ix - min ix (m - 1) + iz < n ∧ min ix (m - 1) - iz < m ∧ iz ≤ min ix (m - 1) := by
  omega

/-- The Comba inner loop sums column `ix`. -/
theorem comba_colSum (xs ys : List Nat) (hy : ys ≠ []) (ix : Nat) :
    ∑ iz ∈ range (min (xs.length - (ix - min ix (ys.length - 1))) (min ix (ys.length - 1) + 1)),
      dig xs (ix - min ix (ys.length - 1) + iz) * dig ys (min ix (ys.length - 1) - iz)
    = colSum xs ys ix := by
  have hl : 0 < ys.length := List.length_pos_iff.2 hy
  unfold colSum
  generalize hty : min ix (ys.length - 1) = ty
  generalize htx : ix - ty = tx
  have e1 : ix + 1 = tx + (ty + 1) := by omega
  rw [e1, sum_range_add]
  have z1 : ∑ i ∈ range tx, dig xs i * dig ys (ix - i) = 0 := by
    apply sum_eq_zero
    intro i hi
    rw [mem_range] at hi
    rw [dig_of_ge (xs := ys) (by omega), Nat.mul_zero]
  rw [z1, Nat.zero_add]
  generalize hiy : min (xs.length - tx) (ty + 1) = iy
  obtain ⟨k, hk⟩ : ∃ k, ty + 1 = iy + k := ⟨ty + 1 - iy, by omega⟩
  rw [hk, sum_range_add]
  have z2 : ∑ x ∈ range k, dig xs (tx + (iy + x)) * dig ys (ix - (tx + (iy + x))) = 0 := by
    apply sum_eq_zero
    intro i hi
    rw [mem_range] at hi
    rw [dig_of_ge (by omega), Nat.zero_mul]
  rw [z2, Nat.add_zero]
  apply sum_congr rfl
  intro i _
  congr 2
  omega

theorem colSum_le {b : Nat} (hb : 0 < b) {xs ys : List Nat} (hx : Digits b xs) (hy : Digits b ys)
    (k : Nat) : colSum xs ys k ≤ min xs.length ys.length * ((b - 1) * (b - 1)) := by
  have hterm : ∀ i j, dig xs i * dig ys j ≤ (b - 1) * (b - 1) := fun i j =>
    Nat.mul_le_mul (by have := dig_lt hb hx i; omega) (by have := dig_lt hb hy j; omega)
  by_cases hy0 : ys = []
  · subst hy0; simp [colSum, dig_nil]
  · rw [← comba_colSum xs ys hy0 k]
    have hl : 0 < ys.length := List.length_pos_iff.2 hy0
    calc _ ≤ ∑ _iz ∈ range (min (xs.length - (k - min k (ys.length - 1))) (min k (ys.length - 1) + 1)),
          (b - 1) * (b - 1) := sum_le_sum fun i _ => hterm _ _
      _ = min (xs.length - (k - min k (ys.length - 1))) (min k (ys.length - 1) + 1) *
          ((b - 1) * (b - 1)) := by simp
      _ ≤ _ := Nat.mul_le_mul_right _ (by omega)

/-- Generic argument for both Comba routines: a loop that adds column `k` to the accumulator,
stores the low digit and shifts computes the whole product, provided the number of terms per
column is below the base. -/
theorem comba_generic {b N : Nat} (hb : 1 < b) (hN : N < b) (col : Nat → Nat)
    (hcol : ∀ k, col k ≤ N * ((b - 1) * (b - 1)))
    (step : (Nat × Nat) × List Nat → Nat → (Nat × Nat) × List Nat) (n : Nat)
    (hstep : ∀ (s : (Nat × Nat) × List Nat) k, k < n → s.1.1 < b → s.1.2 < b →
      (s.1.1 + b * s.1.2) + col k < b ^ 3 →
      ∃ c : Nat × Nat × Nat, AccOK b c ∧ acc b c = (s.1.1 + b * s.1.2) + col k ∧
        step s k = ((c.2.1, c.2.2), s.2 ++ [c.1])) :
    ∀ m, m ≤ n → ∃ s, (List.range m).foldl step ((0, 0), []) = s ∧ s.1.1 < b ∧ s.1.2 < b ∧
      s.1.1 + b * s.1.2 ≤ N * b ∧ s.2.length = m ∧ Digits b s.2 ∧
      val b s.2 + b ^ m * (s.1.1 + b * s.1.2) = ∑ k ∈ range m, col k * b ^ k := by
  intro m
  induction m with
  | zero => intro _; exact ⟨((0, 0), []), rfl, (by show 0 < b; omega), (by show 0 < b; omega), by simp, rfl, by simp, by simp⟩
  | succ m ih =>
    intro hm
    obtain ⟨s, hs, h1, h2, h3, h4, h5, h6⟩ := ih (by omega)
    have hbb : (b - 1) * (b - 1) + b ≤ b * b := by
      obtain ⟨k, rfl⟩ : ∃ k, b = k + 1 := ⟨b - 1, by omega⟩
      simp only [Nat.add_sub_cancel]
      have : (k + 1) * (k + 1) = k * k + 2 * k + 1 := by ring
      omega
    have hsum : (s.1.1 + b * s.1.2) + col m ≤ N * (b * b) := by
      calc (s.1.1 + b * s.1.2) + col m ≤ N * b + N * ((b - 1) * (b - 1)) :=
            Nat.add_le_add h3 (hcol m)
        _ = N * ((b - 1) * (b - 1) + b) := by ring
        _ ≤ N * (b * b) := Nat.mul_le_mul_left _ hbb
    have hlt : (s.1.1 + b * s.1.2) + col m < b ^ 3 := by
      have : N * (b * b) < b * (b * b) := Nat.mul_lt_mul_of_pos_right hN (by positivity)
      have e : b ^ 3 = b * (b * b) := by ring
      omega
    obtain ⟨c, hc, hacc, hst⟩ := hstep s m (by omega) h1 h2 hlt
    rw [List.range_succ, List.foldl_append, hs]
    refine ⟨_, rfl, ?_⟩
    simp only [List.foldl_cons, List.foldl_nil, hst]
    obtain ⟨hc0, hc1, hc2⟩ := hc
    refine ⟨hc1, hc2, ?_, by simp [h4], by simp [h5, hc0], ?_⟩
    · have : b * (c.2.1 + b * c.2.2) ≤ b * (N * b) := by
        unfold acc at hacc
        have : b * (N * b) = N * (b * b) := by ring
        omega
      exact Nat.le_of_mul_le_mul_left this (by omega)
    · rw [sum_range_succ, ← h6, val_append, h4]
      simp only [val_cons, val_nil]
      unfold acc at hacc
      have : val b s.2 + b ^ m * (c.1 + b * 0) + b ^ (m + 1) * (c.2.1 + b * c.2.2) =
        val b s.2 + b ^ m * (c.1 + b * (c.2.1 + b * c.2.2)) := by rw [pow_succ]; ring
      rw [this, hacc]; ring

theorem combaDigs_spec {w : Nat} (hw : 0 < w) {xs ys : List Nat} (hx : Digits (2 ^ w) xs)
    (hy : Digits (2 ^ w) ys) (hy0 : ys ≠ []) (hN : min xs.length ys.length < 2 ^ w) :
    val (2 ^ w) (combaDigs w xs ys) = val (2 ^ w) xs * val (2 ^ w) ys ∧
    Digits (2 ^ w) (combaDigs w xs ys) := by
  have hb := one_lt_two_pow hw
  obtain ⟨s, hs, -, -, -, hl, hd, hv⟩ := comba_generic hb hN (colSum xs ys)
    (colSum_le (by omega) hx hy) (combaStep w xs ys) (xs.length + ys.length)
    (by
      intro s k hk h1 h2 hlt
      refine ⟨combaCol w xs ys (k - min k (ys.length - 1)) (min k (ys.length - 1))
        (min (xs.length - (k - min k (ys.length - 1))) (min k (ys.length - 1) + 1))
        (s.1.1, s.1.2, 0), ?_, ?_, rfl⟩
      all_goals
        have hc : AccOK (2 ^ w) (s.1.1, s.1.2, 0) := ⟨h1, h2, by simp⟩
        have ha : acc (2 ^ w) (s.1.1, s.1.2, 0) = s.1.1 + 2 ^ w * s.1.2 := by simp [acc]
        have := combaCol_spec hx hy (k - min k (ys.length - 1)) (min k (ys.length - 1)) hc
          (min (xs.length - (k - min k (ys.length - 1))) (min k (ys.length - 1) + 1))
          (by rw [comba_colSum xs ys hy0 k, ha]; exact hlt)
      · exact this.2
      · rw [this.1, comba_colSum xs ys hy0 k, ha])
    (xs.length + ys.length) (Nat.le_refl _)
  have e : combaDigs w xs ys = s.2 := by unfold combaDigs; rw [hs]
  rw [e]
  refine ⟨?_, hd⟩
  rw [← val_mul_eq_colSum (2 ^ w) xs ys _ (Nat.le_refl _)] at hv
  -- the carry out of the last column is zero
  have hlt : val (2 ^ w) xs * val (2 ^ w) ys < (2 ^ w) ^ (xs.length + ys.length) := by
    rw [pow_add]
    exact Nat.mul_lt_mul'' (val_lt hx) (val_lt hy)
  rcases Nat.eq_zero_or_pos (s.1.1 + 2 ^ w * s.1.2) with h0 | h0
  · rw [h0] at hv; omega
  · exfalso
    have : (2 ^ w) ^ (xs.length + ys.length) * 1 ≤
      (2 ^ w) ^ (xs.length + ys.length) * (s.1.1 + 2 ^ w * s.1.2) := Nat.mul_le_mul_left _ h0
    omega

/-! ## squaring columns -/

/-- `Σ_{i+j=k} a_i a_j` is twice the sum over `i < j` plus the square term. -/
theorem colSum_self (xs : List Nat) (k : Nat) :
    colSum xs xs k = 2 * (∑ i ∈ range ((k + 1) / 2), dig xs i * dig xs (k - i)) +
      (if k % 2 = 0 then dig xs (k / 2) * dig xs (k / 2) else 0) := by
  unfold colSum
  have hrefl : ∀ m h : Nat, m ≤ k + 1 → ∑ i ∈ range m, dig xs (k - (k + 1 - m + i)) * dig xs (k + 1 - m + i)
      = ∑ i ∈ range m, dig xs i * dig xs (k - i) := by
    intro m _ hm
    rw [← sum_range_reflect]
    apply sum_congr rfl
    intro i hi
    rw [mem_range] at hi
    congr 2 <;> omega
  by_cases he : k % 2 = 0
  · obtain ⟨m, rfl⟩ : ∃ m, k = 2 * m := ⟨k / 2, by omega⟩
    rw [if_pos he]
    have e1 : (2 * m + 1) / 2 = m := by omega
    have e2 : 2 * m / 2 = m := by omega
    rw [e1, e2, show 2 * m + 1 = m + (1 + m) by omega, sum_range_add, sum_range_add]
    have h1 := hrefl m 0 (by omega)
    simp only [range_one, sum_singleton, Nat.add_zero]
    have h2 : ∑ x ∈ range m, dig xs (m + (1 + x)) * dig xs (2 * m - (m + (1 + x))) =
        ∑ i ∈ range m, dig xs i * dig xs (2 * m - i) := by
      rw [← h1]
      apply sum_congr rfl
      intro i hi
      rw [Nat.mul_comm]
      congr 2 <;> omega
    rw [h2, show 2 * m - m = m by omega]
    ring
  · obtain ⟨m, rfl⟩ : ∃ m, k = 2 * m + 1 := ⟨k / 2, by omega⟩
    rw [if_neg he]
    have e1 : (2 * m + 1 + 1) / 2 = m + 1 := by omega
    rw [e1, show 2 * m + 1 + 1 = (m + 1) + (m + 1) by omega, sum_range_add]
    have h1 := hrefl (m + 1) 0 (by omega)
    have h2 : ∑ x ∈ range (m + 1), dig xs (m + 1 + x) * dig xs (2 * m + 1 - (m + 1 + x)) =
        ∑ i ∈ range (m + 1), dig xs i * dig xs (2 * m + 1 - i) := by
      rw [← h1]
      apply sum_congr rfl
      intro i hi
      rw [Nat.mul_comm]
      congr 2 <;> omega
    rw [h2]; ring

/-- The inner loop of the squaring Comba routine sums the terms with `i < j`. -/
theorem sqr_halfSum (xs : List Nat) (hx : xs ≠ []) (ix : Nat) (hix : ix < xs.length + xs.length) :
    ∑ iz ∈ range (min (min (xs.length - (ix - min ix (xs.length - 1))) (min ix (xs.length - 1) + 1))
        ((min ix (xs.length - 1) + 1 - (ix - min ix (xs.length - 1))) / 2)),
      dig xs (ix - min ix (xs.length - 1) + iz) * dig xs (min ix (xs.length - 1) - iz)
    = ∑ i ∈ range ((ix + 1) / 2), dig xs i * dig xs (ix - i) := by
  have hl : 0 < xs.length := List.length_pos_iff.2 hx
  generalize hty : min ix (xs.length - 1) = ty
  generalize htx : ix - ty = tx
  have e1 : (ix + 1) / 2 = tx + (ty + 1 - tx) / 2 := by omega
  have e2 : min (min (xs.length - tx) (ty + 1)) ((ty + 1 - tx) / 2) = (ty + 1 - tx) / 2 := by omega
  rw [e1, e2, sum_range_add]
  have z1 : ∑ i ∈ range tx, dig xs i * dig xs (ix - i) = 0 := by
    apply sum_eq_zero
    intro i hi
    rw [mem_range] at hi
    rw [dig_of_ge (i := ix - i) (by omega), Nat.mul_zero]
  rw [z1, Nat.zero_add]
  apply sum_congr rfl
  intro i _
  congr 2
  omega

/-- Doubling of the three digit accumulator by shifts. -/
theorem double_spec {w : Nat} (hw : 0 < w) {t : Nat × Nat × Nat} (ht : AccOK (2 ^ w) t)
    (hov : 2 * acc (2 ^ w) t < (2 ^ w) ^ 3) :
    ∃ t' : Nat × Nat × Nat,
      t' = ((t.1 <<< 1) % 2 ^ w, ((t.2.1 <<< 1) % 2 ^ w) ||| (t.1 >>> (w - 1)),
        ((t.2.2 <<< 1) % 2 ^ w) ||| (t.2.1 >>> (w - 1))) ∧
      AccOK (2 ^ w) t' ∧ acc (2 ^ w) t' = 2 * acc (2 ^ w) t := by
  obtain ⟨t0, t1, t2⟩ := t
  obtain ⟨h0, h1, h2⟩ := ht
  simp only at h0 h1 h2
  refine ⟨_, rfl, ?_⟩
  have hpow : 2 ^ w = 2 * 2 ^ (w - 1) := by
    conv_lhs => rw [show w = (w - 1) + 1 by omega, pow_succ]
    ring
  have hp : 0 < 2 ^ (w - 1) := Nat.two_pow_pos _
  have top : ∀ x, x < 2 ^ w → x >>> (w - 1) < 2 ^ 1 := by
    intro x hx
    rw [Nat.shiftRight_eq_div_pow, Nat.div_lt_iff_lt_mul hp]; omega
  have low : ∀ x, x < 2 ^ w → (x <<< 1) % 2 ^ w = (x % 2 ^ (w - 1)) * 2 ^ 1 := by
    intro x hx
    rw [Nat.shiftLeft_eq, hpow, Nat.mul_comm x, pow_one, Nat.mul_mod_mul_left, Nat.mul_comm]
  have lowlt : ∀ x, (x % 2 ^ (w - 1)) < 2 ^ (w - 1) := fun x => Nat.mod_lt _ hp
  have dm : ∀ x, 2 ^ (w - 1) * (x >>> (w - 1)) + x % 2 ^ (w - 1) = x := by
    intro x; rw [Nat.shiftRight_eq_div_pow]; exact Nat.div_add_mod _ _
  rw [low t0 h0, low t1 h1, low t2 h2, or_eq_add_mul (top t0 h0), or_eq_add_mul (top t1 h1)]
  have a0 := top t0 h0; have a1 := top t1 h1; have a2 := top t2 h2
  have d0 := dm t0; have d1 := dm t1; have d2 := dm t2
  have l0 := lowlt t0; have l1 := lowlt t1; have l2 := lowlt t2
  generalize t0 >>> (w - 1) = u0 at *
  generalize t1 >>> (w - 1) = u1 at *
  generalize t2 >>> (w - 1) = u2 at *
  generalize t0 % 2 ^ (w - 1) = v0 at *
  generalize t1 % 2 ^ (w - 1) = v1 at *
  generalize t2 % 2 ^ (w - 1) = v2 at *
  unfold acc AccOK at *
  simp only [pow_one] at *
  clear top low lowlt dm
  rw [hpow] at h0 h1 h2 hov ⊢
  clear hpow
  generalize 2 ^ (w - 1) = h at *
  -- the top bit of t2 must be clear
  have hu2 : u2 = 0 := by
    by_contra hne
    have hu : u2 = 1 := by omega
    subst hu
    have e : (2 * h) ^ 3 = 2 * (h * (2 * h * (2 * h))) := by ring
    rw [e] at hov
    have h3 : 2 * (2 * h * (2 * h * h)) ≤ 2 * (t0 + 2 * h * (t1 + 2 * h * t2)) := by
      have hh : h ≤ t2 := by omega
      have h4 : 2 * h * (2 * h * h) ≤ 2 * h * (2 * h * t2) :=
        Nat.mul_le_mul_left _ (Nat.mul_le_mul_left _ hh)
      rw [Nat.mul_add (2 * h) t1]
      omega
    have e2 : 2 * h * (2 * h * h) = h * (2 * h * (2 * h)) := by ring
    omega
  subst hu2
  refine ⟨⟨by omega, by omega, by omega⟩, ?_⟩
  rw [← d0, ← d1, ← d2]
  ring

theorem sqr_add_spec {w : Nat} {c t : Nat × Nat × Nat} (hc : AccOK (2 ^ w) c) (ht : AccOK (2 ^ w) t)
    (hov : acc (2 ^ w) c + acc (2 ^ w) t < (2 ^ w) ^ 3) :
    ∃ r : Nat × Nat × Nat,
      r = ((c.1 + t.1) % 2 ^ w, (c.2.1 + t.2.1 + (c.1 + t.1) / 2 ^ w) % 2 ^ w,
        (c.2.2 + t.2.2 + (c.2.1 + t.2.1 + (c.1 + t.1) / 2 ^ w) / 2 ^ w) % 2 ^ w) ∧
      AccOK (2 ^ w) r ∧ acc (2 ^ w) r = acc (2 ^ w) c + acc (2 ^ w) t := by
  refine ⟨_, rfl, ?_⟩
  have hb : 0 < 2 ^ w := Nat.two_pow_pos w
  obtain ⟨c0, c1, c2⟩ := c
  obtain ⟨t0, t1, t2⟩ := t
  unfold acc AccOK at *
  simp only at *
  generalize 2 ^ w = b at *
  have d0 := Nat.div_add_mod (c0 + t0) b
  have m0 := Nat.mod_lt (c0 + t0) hb
  generalize (c0 + t0) / b = q0 at *
  generalize (c0 + t0) % b = r0 at *
  have d1 := Nat.div_add_mod (c1 + t1 + q0) b
  have m1 := Nat.mod_lt (c1 + t1 + q0) hb
  generalize (c1 + t1 + q0) / b = q1 at *
  generalize (c1 + t1 + q0) % b = r1 at *
  have key : r0 + b * (r1 + b * (c2 + t2 + q1)) =
      c0 + b * (c1 + b * c2) + (t0 + b * (t1 + b * t2)) := by
    have : c0 + b * (c1 + b * c2) + (t0 + b * (t1 + b * t2)) =
      (c0 + t0) + b * (c1 + t1) + b * (b * (c2 + t2)) := by ring
    rw [this, ← d0]
    have : b * q0 + r0 + b * (c1 + t1) + b * (b * (c2 + t2)) =
      r0 + b * (c1 + t1 + q0) + b * (b * (c2 + t2)) := by ring
    rw [this, ← d1]; ring
  have hlt : c2 + t2 + q1 < b := by
    by_contra hcon
    have h3 : b * (b * b) ≤ b * (b * (c2 + t2 + q1)) :=
      Nat.mul_le_mul_left _ (Nat.mul_le_mul_left _ (by omega))
    have e3 : b ^ 3 = b * (b * b) := by ring
    rw [e3, ← key, Nat.mul_add] at hov
    omega
  rw [Nat.mod_eq_of_lt hlt]
  exact ⟨⟨m0, m1, hlt⟩, key⟩

theorem sqrCombaDigs_spec {w : Nat} (hw : 0 < w) {xs : List Nat} (hx : Digits (2 ^ w) xs)
    (hx0 : xs ≠ []) (hN : xs.length < 2 ^ w) :
    val (2 ^ w) (sqrCombaDigs w xs) = val (2 ^ w) xs * val (2 ^ w) xs ∧
    Digits (2 ^ w) (sqrCombaDigs w xs) := by
  have hb := one_lt_two_pow hw
  have hb0 : 0 < 2 ^ w := by omega
  obtain ⟨s, hs, -, -, -, hl, hd, hv⟩ := comba_generic hb (N := min xs.length xs.length)
    (by rw [Nat.min_self]; exact hN) (colSum xs xs)
    (colSum_le (by omega) hx hx) (sqrStep w xs) (xs.length + xs.length)
    (by
      intro s k hk h1 h2 hlt
      rw [colSum_self] at hlt ⊢
      have hhalf := sqr_halfSum xs hx0 k hk
      unfold sqrStep
      simp only
      generalize hty : min k (xs.length - 1) = ty at *
      generalize htx : k - ty = tx at *
      generalize hiy : min (min (xs.length - tx) (ty + 1)) ((ty + 1 - tx) / 2) = iy at *
      generalize hH : ∑ i ∈ range ((k + 1) / 2), dig xs i * dig xs (k - i) = H at *
      have hc : AccOK (2 ^ w) (s.1.1, s.1.2, 0) := ⟨h1, h2, hb0⟩
      have ha : acc (2 ^ w) (s.1.1, s.1.2, 0) = s.1.1 + 2 ^ w * s.1.2 := by simp [acc]
      -- after the doubled inner product
      have hmid : ∃ c : Nat × Nat × Nat, (if iy ≠ 0 then
          let t := combaCol w xs xs tx ty iy (0, 0, 0)
          let t2 := ((t.2.2 <<< 1) % 2 ^ w) ||| (t.2.1 >>> (w - 1))
          let t1 := ((t.2.1 <<< 1) % 2 ^ w) ||| (t.1 >>> (w - 1))
          let t0 := (t.1 <<< 1) % 2 ^ w
          let cc := s.1.1 + t0
          let c0 := cc % 2 ^ w
          let cc := s.1.2 + t1 + cc / 2 ^ w
          let c1 := cc % 2 ^ w
          let cc := 0 + t2 + cc / 2 ^ w
          (c0, c1, cc % 2 ^ w)
        else (s.1.1, s.1.2, 0)) = c ∧ AccOK (2 ^ w) c ∧
          acc (2 ^ w) c = (s.1.1 + 2 ^ w * s.1.2) + 2 * H := by
        by_cases hi : iy ≠ 0
        · rw [if_pos hi]
          obtain ⟨g1, g2⟩ := combaCol_spec hx hx tx ty (c := (0, 0, 0)) ⟨hb0, hb0, hb0⟩ iy
            (by rw [hhalf]; simp [acc]; omega)
          rw [hhalf] at g1
          have g1' : acc (2 ^ w) (combaCol w xs xs tx ty iy (0, 0, 0)) = H := by
            rw [g1]; simp [acc]
          obtain ⟨t', ht', k1, k2⟩ := double_spec hw g2 (by rw [g1']; omega)
          obtain ⟨r, hr, r1, r2⟩ := sqr_add_spec hc k1 (by rw [ha, k2, g1']; omega)
          refine ⟨r, ?_, r1, by rw [r2, ha, k2, g1']⟩
          rw [hr, ht']
        · rw [if_neg hi]
          have hi0 : iy = 0 := by omega
          refine ⟨_, rfl, hc, ?_⟩
          rw [hi0] at hhalf
          simp at hhalf
          rw [ha, ← hhalf]; simp
      obtain ⟨c, hceq, hcok, hcacc⟩ := hmid
      simp only at hceq
      rw [hceq]
      rw [Nat.and_one_is_mod]
      have e : k >>> 1 = k / 2 := by rw [Nat.shiftRight_eq_div_pow, pow_one]
      rw [e]
      by_cases hev : k % 2 = 0
      · rw [if_pos hev] at hlt ⊢
        rw [if_pos hev]
        obtain ⟨m1, m2⟩ := muladd_spec hcok (dig_lt hb0 hx (k / 2)) (dig_lt hb0 hx (k / 2))
          (by rw [hcacc]; omega)
        exact ⟨_, m2, by rw [m1, hcacc]; ring, rfl⟩
      · rw [if_neg hev] at hlt ⊢
        rw [if_neg hev]
        exact ⟨c, hcok, by rw [hcacc]; ring, rfl⟩)
    (xs.length + xs.length) (Nat.le_refl _)
  have e : sqrCombaDigs w xs = s.2 := by unfold sqrCombaDigs; rw [hs]
  rw [e]
  refine ⟨?_, hd⟩
  rw [← val_mul_eq_colSum (2 ^ w) xs xs _ (Nat.le_refl _)] at hv
  have hlt : val (2 ^ w) xs * val (2 ^ w) xs < (2 ^ w) ^ (xs.length + xs.length) := by
    rw [pow_add]
    exact Nat.mul_lt_mul'' (val_lt hx) (val_lt hx)
  rcases Nat.eq_zero_or_pos (s.1.1 + 2 ^ w * s.1.2) with h0 | h0
  · rw [h0] at hv; omega
  · exfalso
    have : (2 ^ w) ^ (xs.length + xs.length) * 1 ≤
      (2 ^ w) ^ (xs.length + xs.length) * (s.1.1 + 2 ^ w * s.1.2) := Nat.mul_le_mul_left _ h0
    omega

end Verif.Mpi
