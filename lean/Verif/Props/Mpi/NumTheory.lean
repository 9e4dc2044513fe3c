import Verif.Lemmas.Mpi.Sqrt
/-!
# Exponentiation, inverse, gcd, lcm, square root (C09 – C13)

Integers are compared through `Mpi.toInt` (`Verif.Spec.Mpi.Value`) with Lean/Mathlib's
`^`, `%`, `Int.ModEq`, `Int.gcd`, `Int.lcm`.
-/
namespace Verif.Mpi

theorem neg_iff_of_wf {w : Nat} {x : Mpi} (hx : WF (2 ^ w) x) :
    x.neg = true ↔ x.toInt (2 ^ w) < 0 := by
  constructor
  · intro h
    have hne : x.digs ≠ [] := fun e => by rw [hx.zero_nonneg e] at h; simp at h
    have := val_pos_of_ne hx.toNorm hne
    unfold Mpi.toInt
    rw [h, if_pos rfl]; omega
  · intro h
    cases hn : x.neg with
    | true => rfl
    | false => rw [toInt_false hn] at h; omega

/-! ## C09 -/

/-- C09, partial.  Full statement: for every `e ≥ 0` and `m > 0`.
Proved: for all bases, all exponents and all moduli except `e = 0` with `m = 1`.
Missing: that pair, where the code returns 1 (`modExp_zero_one_wrong`). -/
theorem modExp_correct_partial {w : Nat} (hw : DigitWidth w) (b e m : Mpi) (hb : Norm (2 ^ w) b)
    (he : WF (2 ^ w) e) (hm : WF (2 ^ w) m) (he0 : 0 ≤ e.toInt (2 ^ w))
    (hm0 : 0 < m.toInt (2 ^ w)) (hx : e.toInt (2 ^ w) ≠ 0 ∨ m.toInt (2 ^ w) ≠ 1) :
    ∃ r, modExp w b e (some m) = some r ∧ WF (2 ^ w) r ∧
      r.toInt (2 ^ w) = b.toInt (2 ^ w) ^ (e.toInt (2 ^ w)).toNat % m.toInt (2 ^ w) := by
  have hen : e.neg = false := by
    rw [← Bool.not_eq_true, neg_iff_of_wf he]; omega
  have hmn : m.neg = false := by
    rw [← Bool.not_eq_true, neg_iff_of_wf hm]; omega
  obtain ⟨z, Z, h1, h2, h3, h4⟩ := expLoop_mod_full hw (⟨hb, rfl⟩ : Rep w b _) he.toNorm
    (⟨hm.toNorm, rfl⟩ : Rep w m _) hm0
  refine ⟨z, ?_, h3, ?_⟩
  · unfold modExp
    rw [if_neg (by simp [hen, hmn])]; exact h1
  · have hv : (e.toInt (2 ^ w)).toNat = val (2 ^ w) e.digs := by
      rw [toInt_false hen, Int.toNat_natCast]
    rw [h2.2, h4, hv]
    split
    next h0 =>
      rw [h0, pow_zero]
      have : e.toInt (2 ^ w) = 0 := by rw [toInt_false hen, h0]; rfl
      symm
      apply Int.emod_eq_of_lt (by omega)
      have := hx.resolve_left (by simpa using this)
      omega
    next => rfl

/-- C09 is false of the code for `e = 0`, `m = 1`: the result 1 is not below the modulus. -/
theorem modExp_zero_one_wrong (w : Nat) (b : Mpi) (m : Mpi) (hm : m.neg = false) :
    modExp w b ⟨false, []⟩ (some m) = some ⟨false, [1]⟩ := by
  unfold modExp
  rw [if_neg (by simp [hm])]
  rfl

/-- C09: negative exponents and negative moduli are rejected. -/
theorem modExp_rejects {w : Nat} (b e : Mpi) (m : Option Mpi) (he : WF (2 ^ w) e)
    (hm : ∀ x, m = some x → WF (2 ^ w) x)
    (h : e.toInt (2 ^ w) < 0 ∨ ∃ x, m = some x ∧ x.toInt (2 ^ w) < 0) :
    modExp w b e m = none := by
  unfold modExp
  rcases h with h | ⟨x, rfl, h⟩
  · rw [if_pos (by simp [(neg_iff_of_wf he).2 h])]
  · rw [if_pos (by simp [(neg_iff_of_wf (hm x rfl)).2 h])]

/-- C09: without modulus the result is the plain power. -/
theorem exp_correct {w : Nat} (hw : DigitWidth w) (b e : Mpi) (hb : Norm (2 ^ w) b)
    (he : WF (2 ^ w) e) (he0 : 0 ≤ e.toInt (2 ^ w)) :
    ∃ r, exp w b e = some r ∧ WF (2 ^ w) r ∧
      r.toInt (2 ^ w) = b.toInt (2 ^ w) ^ (e.toInt (2 ^ w)).toNat := by
  have hen : e.neg = false := by
    rw [← Bool.not_eq_true, neg_iff_of_wf he]; omega
  obtain ⟨z, h1, h2, h3⟩ := expLoop_plain_full hw (⟨hb, rfl⟩ : Rep w b _) he.toNorm
  refine ⟨z, ?_, h2, ?_⟩
  · unfold exp modExp
    rw [if_neg (by simp [hen])]; exact h1
  · rw [h3.2]
    congr 1
    rw [toInt_false hen, Int.toNat_natCast]

example : modExp 8 ⟨true, [3]⟩ ⟨false, [0x2c, 1]⟩ (some ⟨false, [0xfb]⟩) = some ⟨false, [219]⟩ := by
  decide +kernel
example : exp 8 ⟨true, [3]⟩ ⟨false, [7]⟩ = some ⟨true, [0x8b, 8]⟩ := by decide +kernel
example : modExp 8 ⟨false, [3]⟩ ⟨false, []⟩ (some ⟨false, [1]⟩) = some ⟨false, [1]⟩ := by
  decide +kernel

/-! ## C10 -/

/-- C10: for `m > 0` the inverse exists exactly when `gcd(a, m) = 1`, and then the result is the
representative in `[0, m)`. -/
theorem inv_correct {w : Nat} (hw : DigitWidth w) (a m : Mpi) (ha : WF (2 ^ w) a)
    (hm : WF (2 ^ w) m) (hm0 : 0 < m.toInt (2 ^ w)) :
    (Int.gcd (a.toInt (2 ^ w)) (m.toInt (2 ^ w)) = 1 → ∃ r, inv w a m = some r ∧ WF (2 ^ w) r ∧
      0 ≤ r.toInt (2 ^ w) ∧ r.toInt (2 ^ w) < m.toInt (2 ^ w) ∧
      a.toInt (2 ^ w) * r.toInt (2 ^ w) ≡ 1 [ZMOD m.toInt (2 ^ w)]) ∧
    (Int.gcd (a.toInt (2 ^ w)) (m.toInt (2 ^ w)) ≠ 1 → inv w a m = none) := by
  obtain ⟨h1, h2⟩ := inv_rep hw (⟨ha.toNorm, rfl⟩ : Rep w a _) ha (⟨hm.toNorm, rfl⟩ : Rep w m _) hm0
  refine ⟨fun h => ?_, h2⟩
  obtain ⟨r, R, r1, r2, r3, r4, r5, r6⟩ := h1 h
  refine ⟨r, r1, r3, ?_, ?_, ?_⟩
  · rw [r2.2]; exact r4
  · rw [r2.2]; exact r5
  · rw [r2.2]; exact r6

example : inv 8 ⟨true, [3]⟩ ⟨false, [0xe9, 3]⟩ = some ⟨false, [0x9b, 2]⟩ := by decide +kernel
example : inv 8 ⟨false, [6]⟩ ⟨false, [9]⟩ = none := by decide +kernel

/-! ## C11 -/

/-- C11, partial.  Full statement: the result is `gcd x y` for all `x`, `y`.
Proved: for every `y > 0` and every `x` (zero and negative too), whatever uninitialised digits
contain.  Missing: `y ≤ 0`, where it is false: `gcd_zero_wrong`, `gcd_negative_wrong`. -/
theorem gcd_correct_partial {w : Nat} (hw : 0 < w) (jx jy : Nat) (x y : Mpi) (hx : Norm (2 ^ w) x)
    (hy : WF (2 ^ w) y) (hy0 : 0 < y.toInt (2 ^ w)) :
    ∃ z, gcd w jx jy x y = some z ∧ Norm (2 ^ w) z ∧
      z.toInt (2 ^ w) = Int.gcd (x.toInt (2 ^ w)) (y.toInt (2 ^ w)) := by
  have hyn : y.neg = false := by
    rw [← Bool.not_eq_true, neg_iff_of_wf hy]; omega
  have hyd : y.digs ≠ [] := fun e => by
    have := (toInt_eq_zero_iff (Nat.two_pow_pos w) hy.toNorm).2 e; omega
  have hyv := val_pos_of_ne hy.toNorm hyd
  by_cases hx0 : x.digs = []
  · obtain ⟨z, h1, h2, h3⟩ := gcd_zero_left hw jx jy hx0 hy.toNorm hyv
    refine ⟨z, h1, h2, ?_⟩
    rw [h3, (toInt_eq_zero_iff (Nat.two_pow_pos w) hx).2 hx0, Int.gcd_zero_left]
    omega
  · obtain ⟨z, h1, h2, h3, h4⟩ := gcd_spec hw jx jy hx hy.toNorm (val_pos_of_ne hx hx0) hyv
    have hz : z.neg = false := by
      cases h : z.neg with
      | false => rfl
      | true => have := h4 h; rw [hyn] at this; simp at this
    refine ⟨z, h1, h2, ?_⟩
    rw [toInt_false hz, h3, Int.gcd_def, natAbs_toInt, natAbs_toInt]

/-- C11, partial: for non-zero operands of any sign the magnitude is the gcd. -/
theorem gcd_magnitude_partial {w : Nat} (hw : 0 < w) (jx jy : Nat) (x y : Mpi)
    (hx : Norm (2 ^ w) x) (hy : Norm (2 ^ w) y) (hx0 : x.toInt (2 ^ w) ≠ 0)
    (hy0 : y.toInt (2 ^ w) ≠ 0) :
    ∃ z, gcd w jx jy x y = some z ∧
      (z.toInt (2 ^ w)).natAbs = Int.gcd (x.toInt (2 ^ w)) (y.toInt (2 ^ w)) := by
  have hxd : x.digs ≠ [] := fun e => hx0 ((toInt_eq_zero_iff (Nat.two_pow_pos w) hx).2 e)
  have hyd : y.digs ≠ [] := fun e => hy0 ((toInt_eq_zero_iff (Nat.two_pow_pos w) hy).2 e)
  obtain ⟨z, h1, h2, h3, h4⟩ := gcd_spec hw jx jy hx hy (val_pos_of_ne hx hxd) (val_pos_of_ne hy hyd)
  exact ⟨z, h1, by rw [natAbs_toInt, h3, Int.gcd_def, natAbs_toInt, natAbs_toInt]⟩

/-- C11 is false of the code: `gcd(x, 0)` is 0, for every `x ≠ 0`. -/
theorem gcd_zero_wrong {w : Nat} (hw : 0 < w) (jx jy : Nat) (x y : Mpi) (hx : Norm (2 ^ w) x)
    (hy : Norm (2 ^ w) y) (hx0 : x.toInt (2 ^ w) ≠ 0) (hy0 : y.toInt (2 ^ w) = 0) :
    ∃ z, gcd w jx jy x y = some z ∧ z.toInt (2 ^ w) = 0 ∧
      z.toInt (2 ^ w) ≠ Int.gcd (x.toInt (2 ^ w)) (y.toInt (2 ^ w)) := by
  refine ⟨y, gcd_zero_right hw jx jy hx ((toInt_eq_zero_iff (Nat.two_pow_pos w) hy).1 hy0), hy0, ?_⟩
  rw [hy0, Int.gcd_zero_right]
  omega

/-- C11 is false of the code: the sign of `y` can leak into the result. -/
theorem gcd_negative_wrong : gcd 8 0 0 ⟨false, [4]⟩ ⟨true, [2]⟩ = some ⟨true, [2]⟩ := by
  decide +kernel

example : gcd 8 77 0 ⟨true, [0x5a, 1]⟩ ⟨false, [0x90, 6]⟩ = some ⟨false, [2]⟩ := by decide +kernel
example : gcd 8 77 1 ⟨false, [60]⟩ ⟨false, []⟩ = some ⟨false, []⟩ := by decide +kernel

/-! ## C12 -/

/-- C12, partial.  Full statement: the result is `lcm x y` for all `x`, `y`.
Proved: for `y > 0` and `x ≥ 0`.
Missing: `x < 0` or `y ≤ 0`, where it is false: `lcm_zero_error`, `lcm_sign_ub`. -/
theorem lcm_correct_partial {w : Nat} (hw : DigitWidth w) (jx jy : Nat) (x y : Mpi)
    (hx : WF (2 ^ w) x) (hy : WF (2 ^ w) y) (hx0 : 0 ≤ x.toInt (2 ^ w))
    (hy0 : 0 < y.toInt (2 ^ w)) :
    ∃ q r, lcm w jx jy x y = .ok q r ∧ WF (2 ^ w) q ∧
      q.toInt (2 ^ w) = Int.lcm (x.toInt (2 ^ w)) (y.toInt (2 ^ w)) := by
  have hw8 := hw.pos
  obtain ⟨g, g1, g2, g3⟩ := gcd_correct_partial (by omega) jx jy x y hx.toNorm hy hy0
  obtain ⟨p, p1, p2, p3⟩ := mul_rep hw8 false (⟨hx.toNorm, rfl⟩ : Rep w x _)
    (⟨hy.toNorm, rfl⟩ : Rep w y _)
  have hpn : p.neg = false := by
    rw [← Bool.not_eq_true, neg_iff_of_wf p3, p2.2]
    have := mul_nonneg hx0 hy0.le
    omega
  have hgpos : 0 < g.toInt (2 ^ w) := by
    rw [g3]
    have := Int.gcd_pos_of_ne_zero_right (x.toInt (2 ^ w)) (show y.toInt (2 ^ w) ≠ 0 by omega)
    omega
  obtain ⟨q, r, e1, e2, e3, -, -⟩ := div_rep_nonneg hw .none true false p2 hpn
    (⟨g2, rfl⟩ : Rep w g _) hgpos
  refine ⟨q, r, ?_, wf_of_norm_false e2.1 e3, ?_⟩
  · unfold lcm; rw [g1]; dsimp only; rw [p1]; exact e1
  · rw [e2.2, g3]
    generalize x.toInt (2 ^ w) = a at *
    generalize y.toInt (2 ^ w) = b at *
    obtain ⟨m, rfl⟩ := Int.eq_ofNat_of_zero_le hx0
    obtain ⟨n, rfl⟩ := Int.eq_ofNat_of_zero_le hy0.le
    rw [Int.lcm_def, Int.gcd_def, Int.natAbs_natCast, Int.natAbs_natCast, Nat.lcm]
    push_cast
    rfl

/-- C12 is false of the code: `lcm(x, 0)` is an error for every `x ≠ 0`. -/
theorem lcm_zero_error {w : Nat} (hw : DigitWidth w) (jx jy : Nat) (x y : Mpi)
    (hx : Norm (2 ^ w) x) (hy : Norm (2 ^ w) y)
    (hy0 : y.toInt (2 ^ w) = 0) : lcm w jx jy x y = .err := by
  have hw8 := hw.pos
  obtain ⟨p, p1, -, -⟩ := mul_rep hw8 false (⟨hx, rfl⟩ : Rep w x _) (⟨hy, rfl⟩ : Rep w y _)
  have hyd := (toInt_eq_zero_iff (Nat.two_pow_pos w) hy).1 hy0
  unfold lcm
  rw [gcd_zero_right (by omega) jx jy hx hyd]
  dsimp only
  rw [p1]
  dsimp only
  unfold div divAbs
  rw [if_pos hyd]

/-- C12 is false of the code: for `x < 0 < y` the behaviour is undefined. -/
theorem lcm_sign_ub {w : Nat} (hw : DigitWidth w) (jx jy : Nat) (x y : Mpi)
    (hx : WF (2 ^ w) x) (hy : WF (2 ^ w) y) (hx0 : x.toInt (2 ^ w) < 0)
    (hy0 : 0 < y.toInt (2 ^ w)) : lcm w jx jy x y = .ub := by
  have hw8 := hw.pos
  obtain ⟨g, g1, g2, g3⟩ := gcd_correct_partial (by omega) jx jy x y hx.toNorm hy hy0
  obtain ⟨p, p1, p2, p3⟩ := mul_rep hw8 false (⟨hx.toNorm, rfl⟩ : Rep w x _)
    (⟨hy.toNorm, rfl⟩ : Rep w y _)
  have hpn : p.neg = true := by
    rw [neg_iff_of_wf p3, p2.2]; exact mul_neg_of_neg_of_pos hx0 hy0
  have hgpos : 0 < g.toInt (2 ^ w) := by
    rw [g3]
    have := Int.gcd_pos_of_ne_zero_right (x.toInt (2 ^ w)) (show y.toInt (2 ^ w) ≠ 0 by omega)
    omega
  have hgn : g.neg = false := Rep.nonneg ⟨g2, rfl⟩ hgpos
  have hgd : g.digs ≠ [] := fun e => by
    have := (toInt_eq_zero_iff (Nat.two_pow_pos w) g2).2 e; omega
  obtain ⟨q, r, d1, -⟩ := divAbs_total hw p2.1 g2 hgd
  unfold lcm; rw [g1]; dsimp only; rw [p1]; dsimp only
  unfold div
  rw [d1]
  dsimp only
  rw [if_pos (by rw [hpn, hgn]; rfl), if_neg (by simp)]

example : lcm 8 0 0 ⟨false, [60]⟩ ⟨false, [84]⟩ = .ok ⟨false, [0xa4, 1]⟩ ⟨false, []⟩ := by
  decide +kernel
example : lcm 8 0 0 ⟨true, [6]⟩ ⟨false, [4]⟩ = .ub := by decide +kernel

/-! ## C13 -/

/-- C13: the result is the floor of the square root, for every non-negative number. -/
theorem sqrt_correct {w : Nat} (hw : DigitWidth w) (a : Mpi) (ha : WF (2 ^ w) a)
    (h0 : 0 ≤ a.toInt (2 ^ w)) :
    ∃ z, sqrt w a = some z ∧ WF (2 ^ w) z ∧ 0 ≤ z.toInt (2 ^ w) ∧
      z.toInt (2 ^ w) ^ 2 ≤ a.toInt (2 ^ w) ∧ a.toInt (2 ^ w) < (z.toInt (2 ^ w) + 1) ^ 2 := by
  have han : a.neg = false := by
    rw [← Bool.not_eq_true, neg_iff_of_wf ha]; omega
  have hr : Rep w a (val (2 ^ w) a.digs : Nat) := ⟨ha.toNorm, toInt_false han⟩
  obtain ⟨z, s, h1, h2, h3, h4, h5⟩ := sqrt_spec hw hr han
  refine ⟨z, h1, wf_of_norm_false h2.1 h3, ?_, ?_, ?_⟩
  · rw [h2.2]; positivity
  · rw [h2.2, toInt_false han, pow_two]; exact_mod_cast h4
  · rw [h2.2, toInt_false han, pow_two]; exact_mod_cast h5

/-- C13: negative numbers are rejected. -/
theorem sqrt_rejects {w : Nat} (a : Mpi) (ha : WF (2 ^ w) a) (h0 : a.toInt (2 ^ w) < 0) :
    sqrt w a = none := by
  unfold sqrt
  rw [if_pos ((neg_iff_of_wf ha).2 h0)]

/- 4096² - 1 and 4096². -/
example : sqrt 8 ⟨false, [255, 255, 255]⟩ = some ⟨false, [255, 15]⟩ := by decide +kernel
example : sqrt 8 ⟨false, [0, 0, 0, 1]⟩ = some ⟨false, [0, 16]⟩ := by decide +kernel

end Verif.Mpi
