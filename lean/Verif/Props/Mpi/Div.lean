import Verif.Lemmas.Mpi.Div
import Mathlib.Data.Int.ModEq
/-!
# Division and reduction (C05, C06, C07)

`val`, `Mpi.toInt`, `Norm`, `WF` are the independent specification in `Verif.Spec.Mpi.Value`.
-/
namespace Verif.Mpi

/-! ## C05: magnitudes -/

/-- C05: division by zero is an error. -/
theorem divAbs_zero (w : Nat) (a b : Mpi) (hb : b.toInt (2 ^ w) = 0) (hn : Norm (2 ^ w) b) :
    divAbs w a b = none := by
  unfold divAbs
  rw [if_pos ((toInt_eq_zero_iff (Nat.two_pow_pos w) hn).1 hb)]

/-- C05, partial.  Full statement: the remainder `r` also satisfies `0 ≤ r` for all operands.
Proved: quotient and remainder satisfy the division identity on magnitudes for all operands and
every digit width, and `0 ≤ r` unless `a < 0` and `|a| < |b|`.
Missing: that case, where the code hands out `a` itself (`divAbs_negative_wrong`). -/
theorem divAbs_correct_partial {w : Nat} (hw : DigitWidth w) (a b : Mpi) (ha : Norm (2 ^ w) a)
    (hb : Norm (2 ^ w) b) (h0 : b.toInt (2 ^ w) ≠ 0) :
    ∃ q r, divAbs w a b = some (q, r) ∧ WF (2 ^ w) q ∧ Norm (2 ^ w) r ∧ 0 ≤ q.toInt (2 ^ w) ∧
      |a.toInt (2 ^ w)| = q.toInt (2 ^ w) * |b.toInt (2 ^ w)| + |r.toInt (2 ^ w)| ∧
      |r.toInt (2 ^ w)| < |b.toInt (2 ^ w)| ∧
      (0 ≤ a.toInt (2 ^ w) ∨ |b.toInt (2 ^ w)| ≤ |a.toInt (2 ^ w)| → 0 ≤ r.toInt (2 ^ w)) := by
  have hb0 : b.digs ≠ [] := fun e => h0 ((toInt_eq_zero_iff (Nat.two_pow_pos w) hb).2 e)
  have hVb := val_pos_of_ne hb hb0
  obtain ⟨q, r, h1, h2, h3, h4, h5, h6, h7, h8⟩ := divAbs_total hw ha hb hb0
  have abs_eq : ∀ z : Mpi, |z.toInt (2 ^ w)| = val (2 ^ w) z.digs := fun z => by
    rw [Int.abs_eq_natAbs, natAbs_toInt]
  refine ⟨q, r, h1, wf_of_norm_false h2 h4, h3, ?_, ?_, ?_, ?_⟩
  · rw [toInt_false h4]; positivity
  · rw [abs_eq, abs_eq, abs_eq, toInt_false h4, h6, h7]
    have := Nat.div_add_mod (val (2 ^ w) a.digs) (val (2 ^ w) b.digs)
    rw [Nat.mul_comm] at this
    exact_mod_cast this.symm
  · rw [abs_eq, abs_eq, h7]
    exact_mod_cast Nat.mod_lt _ hVb
  · rw [abs_eq, abs_eq]
    intro h
    by_cases hlt : val (2 ^ w) a.digs < val (2 ^ w) b.digs
    · rw [h8 hlt]
      rcases h with h | h
      · exact h
      · exact absurd h (by push_cast; omega)
    · rw [if_neg hlt] at h5
      rw [toInt_false h5]; positivity

/-- C05 is false of the code: a negative dividend of smaller magnitude than the divisor is itself
the remainder, with its sign. -/
theorem divAbs_negative_wrong {w : Nat} (hw : DigitWidth w) (a b : Mpi) (ha : Norm (2 ^ w) a)
    (hb : Norm (2 ^ w) b) (hneg : a.toInt (2 ^ w) < 0)
    (hlt : |a.toInt (2 ^ w)| < |b.toInt (2 ^ w)|) :
    ∃ q r, divAbs w a b = some (q, r) ∧ r.toInt (2 ^ w) < 0 := by
  have h0 : b.toInt (2 ^ w) ≠ 0 := by
    intro h; rw [h] at hlt; simp at hlt
    have := abs_nonneg (a.toInt (2 ^ w)); omega
  have hb0 : b.digs ≠ [] := fun e => h0 ((toInt_eq_zero_iff (Nat.two_pow_pos w) hb).2 e)
  obtain ⟨q, r, h1, -, -, -, -, -, -, h8⟩ := divAbs_total hw ha hb hb0
  rw [Int.abs_eq_natAbs, Int.abs_eq_natAbs, natAbs_toInt, natAbs_toInt] at hlt
  exact ⟨q, r, h1, by rw [h8 (by omega)]; exact hneg⟩

/- 16-bit over 8-bit digits; the second one passes through the add-back step. -/
example : divAbs 8 ⟨false, [0x34, 0x12]⟩ ⟨false, [0x11]⟩ = some (⟨false, [0x12, 1]⟩, ⟨false, [2]⟩) := by
  decide +kernel
example : divAbs 8 ⟨false, [0, 0, 0, 0x80]⟩ ⟨false, [1, 0, 0x80]⟩ =
    some (⟨false, [0xff]⟩, ⟨false, [1, 0xff, 0x7f]⟩) := by decide +kernel
example : divAbs 8 ⟨true, [3]⟩ ⟨false, [5]⟩ = some (⟨false, []⟩, ⟨true, [3]⟩) := by decide +kernel

/-! ## C06: signed division -/

/-- The specification of signed division: `a = q·b + r` with `0 ≤ r < |b|`. -/
def EuclidDiv (a b q r : Int) : Prop := a = q * b + r ∧ 0 ≤ r ∧ r < |b|

/-- C06: division by zero is an error. -/
theorem div_zero (w : Nat) (al : DivAlias) (wq wr : Bool) (a b : Mpi)
    (hb : b.toInt (2 ^ w) = 0) (hn : Norm (2 ^ w) b) : div w al wq wr a b = .err := by
  unfold div; rw [divAbs_zero w a b hb hn]

private theorem toInt_cases (w : Nat) {z : Mpi} (_hz : Norm (2 ^ w) z) :
    (z.neg = true ∧ z.toInt (2 ^ w) = -(val (2 ^ w) z.digs : Int)) ∨
    (z.neg = false ∧ z.toInt (2 ^ w) = (val (2 ^ w) z.digs : Int)) := by
  unfold Mpi.toInt
  cases z.neg <;> simp

/-- C06, exactly what holds: with both outputs, outputs distinct from the divisor, the code
computes the Euclidean division if and only if the divisor is positive and (the dividend is
non-negative or not a multiple of the divisor), or the divisor is negative and the dividend is
a non-positive multiple of it.
Partial. Full statement: for all signs.  Missing: it is false there, by this very theorem. -/
theorem div_correct_iff_partial {w : Nat} (hw : DigitWidth w) (a b : Mpi) (ha : WF (2 ^ w) a)
    (hb : Norm (2 ^ w) b) (h0 : b.toInt (2 ^ w) ≠ 0) :
    ∃ q r, div w .none true true a b = .ok q r ∧ Norm (2 ^ w) q ∧ Norm (2 ^ w) r ∧
      (EuclidDiv (a.toInt (2 ^ w)) (b.toInt (2 ^ w)) (q.toInt (2 ^ w)) (r.toInt (2 ^ w)) ↔
        (0 < b.toInt (2 ^ w) ∧ (0 ≤ a.toInt (2 ^ w) ∨ ¬ b.toInt (2 ^ w) ∣ a.toInt (2 ^ w))) ∨
        (b.toInt (2 ^ w) < 0 ∧ a.toInt (2 ^ w) ≤ 0 ∧ b.toInt (2 ^ w) ∣ a.toInt (2 ^ w))) := by
  have hb0 : b.digs ≠ [] := fun e => h0 ((toInt_eq_zero_iff (Nat.two_pow_pos w) hb).2 e)
  have hVb := val_pos_of_ne hb hb0
  have hza : a.neg = true → 0 < val (2 ^ w) a.digs := fun h =>
    val_pos_of_ne ha.toNorm (fun e => by rw [ha.zero_nonneg e] at h; simp at h)
  have hdvd : b.toInt (2 ^ w) ∣ a.toInt (2 ^ w) ↔ val (2 ^ w) b.digs ∣ val (2 ^ w) a.digs := by
    rw [← natAbs_toInt (2 ^ w) a, ← natAbs_toInt (2 ^ w) b, Int.natAbs_dvd_natAbs]
  have habs : |b.toInt (2 ^ w)| = val (2 ^ w) b.digs := by
    rw [Int.abs_eq_natAbs, natAbs_toInt]
  rw [hdvd]
  unfold EuclidDiv
  rw [habs]
  have hdm := Nat.div_add_mod (val (2 ^ w) a.digs) (val (2 ^ w) b.digs)
  have hml := Nat.mod_lt (val (2 ^ w) a.digs) hVb
  have hdv : val (2 ^ w) b.digs ∣ val (2 ^ w) a.digs ↔
      val (2 ^ w) a.digs % val (2 ^ w) b.digs = 0 := Nat.dvd_iff_mod_eq_zero
  have hq0 : val (2 ^ w) a.digs < val (2 ^ w) b.digs →
      val (2 ^ w) a.digs / val (2 ^ w) b.digs = 0 := Nat.div_eq_of_lt
  have hq1 : ¬ val (2 ^ w) a.digs < val (2 ^ w) b.digs →
      1 ≤ val (2 ^ w) a.digs / val (2 ^ w) b.digs := fun h =>
    (Nat.le_div_iff_mul_le hVb).2 (by omega)
  have hq1' : ¬ val (2 ^ w) a.digs < val (2 ^ w) b.digs → val (2 ^ w) b.digs ≤
      val (2 ^ w) b.digs * (val (2 ^ w) a.digs / val (2 ^ w) b.digs) := fun h => by
    have := Nat.mul_le_mul_left (val (2 ^ w) b.digs) (hq1 h); omega
  have hq0' : val (2 ^ w) a.digs < val (2 ^ w) b.digs →
      val (2 ^ w) b.digs * (val (2 ^ w) a.digs / val (2 ^ w) b.digs) = 0 := fun h => by
    rw [hq0 h, Nat.mul_zero]
  by_cases hp : a.neg = b.neg ∨ (true = true ∧ val (2 ^ w) b.digs ∣ val (2 ^ w) a.digs)
  · obtain ⟨q, r, h1, h2, h3, h4, h5, h6, h7⟩ := div_plain hw .none true true ha.toNorm hb hb0 hp
    refine ⟨q, r, h1, h2, h3, ?_⟩
    rw [toInt_false h4, h6]
    have hrv := toInt_cases w h3
    rw [h5, h7] at hrv
    have hav := toInt_cases w ha.toNorm
    have hbv := toInt_cases w hb
    rw [hdv] at hp ⊢
    clear h1 h2 h3 h4 h6 h7 hdvd habs hdv hb0 h0
    push_cast
    generalize val (2 ^ w) a.digs = A at *
    generalize val (2 ^ w) b.digs = B at *
    generalize r.toInt (2 ^ w) = r at *
    generalize A % B = R at *
    generalize hQ : A / B = Q at *
    have e1 : (A : Int) = (B * Q : Nat) + R := by omega
    have e2 : (Q : Int) * (B : Int) = (B * Q : Nat) := by push_cast; ring
    rcases hav with ⟨sa, hav⟩ | ⟨sa, hav⟩ <;> rcases hbv with ⟨sb, hbv⟩ | ⟨sb, hbv⟩ <;>
      rw [hav, hbv] <;> rw [sa] at hrv hp hza <;> rw [sb] at hp <;>
      simp only [mul_neg, ← Int.natCast_ediv, hQ, e2] <;>
      generalize B * Q = P at * <;>
      simp only [if_true, Bool.true_eq_false, Bool.false_eq_true, true_and, false_or, false_and,
        or_false, true_or, ite_self, true_implies, false_implies, ite_eq_left_iff,
        ite_eq_right_iff, imp_false, not_lt] at hrv hp hza ⊢ <;> omega
  · obtain ⟨q, r, h1, h2, h3, h4, h5, h6⟩ := div_adjusted hw .none true (Or.inl rfl) ha.toNorm hb
      hb0 (fun h => hp (Or.inl h)) (fun h => hp (Or.inr ⟨rfl, h⟩))
    refine ⟨q, r, h1, h2.toNorm, h3.toNorm, ?_⟩
    rw [toInt_false h4, h5, h6]
    have hav := toInt_cases w ha.toNorm
    have hbv := toInt_cases w hb
    rw [hdv] at hp ⊢
    clear h1 h2 h3 h4 h5 h6 hdvd habs hdv hb0 h0
    generalize val (2 ^ w) a.digs = A at *
    generalize val (2 ^ w) b.digs = B at *
    generalize A % B = R at *
    generalize A / B = Q at *
    have e1 : (A : Int) = (B * Q : Nat) + R := by omega
    have e2 : (-(Q : Int) - 1) * (B : Int) = -(B * Q : Nat) - B := by push_cast; ring
    rcases hav with ⟨sa, hav⟩ | ⟨sa, hav⟩ <;> rcases hbv with ⟨sb, hbv⟩ | ⟨sb, hbv⟩ <;>
      rw [hav, hbv] <;> rw [sa, sb] at hp <;> simp only [mul_neg, e2] at * <;>
      generalize B * Q = P at * <;>
      simp at hp ⊢ <;> omega

/-- C06, partial: for `a ≥ 0`, `b > 0` the result is right for every choice of `NULL` outputs
and every coincidence of outputs with the divisor. -/
theorem div_nonneg_partial {w : Nat} (hw : DigitWidth w) (al : DivAlias) (wq wr : Bool) (a b : Mpi)
    (ha : WF (2 ^ w) a) (hb : WF (2 ^ w) b) (ha0 : 0 ≤ a.toInt (2 ^ w))
    (hb0 : 0 < b.toInt (2 ^ w)) :
    ∃ q r, div w al wq wr a b = .ok q r ∧ WF (2 ^ w) q ∧ WF (2 ^ w) r ∧
      EuclidDiv (a.toInt (2 ^ w)) (b.toInt (2 ^ w)) (q.toInt (2 ^ w)) (r.toInt (2 ^ w)) := by
  have hbn : b.neg = false := Rep.nonneg ⟨hb.toNorm, rfl⟩ hb0
  have han : a.neg = false := by
    rcases Int.lt_or_eq_of_le ha0 with h | h
    · exact Rep.nonneg ⟨ha.toNorm, rfl⟩ h
    · exact ha.zero_nonneg ((toInt_eq_zero_iff (Nat.two_pow_pos w) ha.toNorm).1 h.symm)
  have hbd : b.digs ≠ [] := fun e => by
    have := (toInt_eq_zero_iff (Nat.two_pow_pos w) hb.toNorm).2 e; omega
  have hVb := val_pos_of_ne hb.toNorm hbd
  obtain ⟨q, r, h1, h2, h3, h4, h5, h6, h7⟩ := div_plain hw al wq wr ha.toNorm hb.toNorm hbd
    (Or.inl (by rw [han, hbn]))
  have hrn : r.neg = false := by rw [h5, han]; simp
  refine ⟨q, r, h1, wf_of_norm_false h2 h4, wf_of_norm_false h3 hrn, ?_⟩
  unfold EuclidDiv
  rw [toInt_false h4, toInt_false hrn, toInt_false han, toInt_false hbn, h6, h7, Int.abs_eq_natAbs]
  have := Nat.div_add_mod (val (2 ^ w) a.digs) (val (2 ^ w) b.digs)
  rw [Nat.mul_comm] at this
  refine ⟨by exact_mod_cast this.symm, by positivity, ?_⟩
  rw [Int.natAbs_natCast]
  exact_mod_cast Nat.mod_lt _ hVb

/-- C06 is false of the code: with operands of different sign and a `NULL` remainder the
behaviour is undefined, for every non-zero divisor. -/
theorem div_null_remainder_ub {w : Nat} (hw : DigitWidth w) (al : DivAlias) (wq : Bool) (a b : Mpi)
    (ha : Norm (2 ^ w) a) (hb : Norm (2 ^ w) b) (hs : a.neg ≠ b.neg) (h0 : b.toInt (2 ^ w) ≠ 0) :
    div w al wq false a b = .ub := by
  have hb0 : b.digs ≠ [] := fun e => h0 ((toInt_eq_zero_iff (Nat.two_pow_pos w) hb).2 e)
  obtain ⟨q, r, h1, -⟩ := divAbs_total hw ha hb hb0
  unfold div
  rw [h1]
  have hx : (a.neg ^^ b.neg) = true := by
    revert hs; cases a.neg <;> cases b.neg <;> simp
  dsimp only
  rw [if_pos hx, if_neg (by simp)]

/- -8 / 5, and the wrong cases -10 / 5, 8 / -5, -8 / -5. -/
example : div 8 .none true true ⟨true, [8]⟩ ⟨false, [5]⟩ = .ok ⟨true, [2]⟩ ⟨false, [2]⟩ := by
  decide +kernel
example : div 8 .none true true ⟨true, [10]⟩ ⟨false, [5]⟩ = .ok ⟨false, [2]⟩ ⟨false, []⟩ := by
  decide +kernel
example : div 8 .none true true ⟨false, [8]⟩ ⟨true, [5]⟩ = .ok ⟨true, [2]⟩ ⟨false, [2]⟩ := by
  decide +kernel
example : div 8 .none true true ⟨true, [8]⟩ ⟨true, [5]⟩ = .ok ⟨false, [1]⟩ ⟨false, [3]⟩ := by
  decide +kernel
example : div 8 .none true false ⟨true, [8]⟩ ⟨false, [5]⟩ = .ub := by decide +kernel

/-! ## C07: reduction -/

/-- C07: for a positive modulus the result is the unique value in `[0, m)` congruent to `a`, for
every sign of `a` and with the result object distinct from the modulus (it may be `a`). -/
theorem mod_correct {w : Nat} (hw : DigitWidth w) (a m : Mpi) (ha : WF (2 ^ w) a)
    (hm : WF (2 ^ w) m) (hm0 : 0 < m.toInt (2 ^ w)) :
    ∃ r, mod w .none a m = some r ∧ WF (2 ^ w) r ∧
      r.toInt (2 ^ w) ≡ a.toInt (2 ^ w) [ZMOD m.toInt (2 ^ w)] ∧
      0 ≤ r.toInt (2 ^ w) ∧ r.toInt (2 ^ w) < m.toInt (2 ^ w) := by
  obtain ⟨r, h1, h2, h3⟩ := mod_rep hw ⟨ha.toNorm, rfl⟩ ha.zero_nonneg ⟨hm.toNorm, rfl⟩ hm0
  refine ⟨r, h1, wf_of_norm_false h2.1 h3, ?_, ?_, ?_⟩
  · rw [h2.2]; exact Int.mod_modEq _ _
  · rw [h2.2]; exact Int.emod_nonneg _ (by omega)
  · rw [h2.2]; exact Int.emod_lt_of_pos _ hm0

/-- C07: a zero modulus is an error. -/
theorem mod_zero (w : Nat) (a m : Mpi) (hm : Norm (2 ^ w) m) (h0 : m.toInt (2 ^ w) = 0) :
    mod w .none a m = none := by
  unfold mod; rw [div_zero w _ _ _ a m h0 hm]

example : mod 8 .none ⟨true, [8]⟩ ⟨false, [5]⟩ = some ⟨false, [2]⟩ := by decide +kernel
example : mod 8 .none ⟨true, [0x34, 0x12]⟩ ⟨false, [0xff, 3]⟩ = some ⟨false, [0xc7, 1]⟩ := by
  decide +kernel
/- With the result object equal to the modulus a negative operand gives 0. -/
example : mod 8 .rIsB ⟨true, [8]⟩ ⟨false, [5]⟩ = some ⟨false, []⟩ := by decide +kernel

end Verif.Mpi
