import Verif.Spec.Ecp
/-! The group law of Mathlib in the form the code computes it. -/
namespace Verif.Ecp
open WeierstrassCurve WeierstrassCurve.Affine

variable {p : Nat} [Fact p.Prime] {a b : ZMod p}

theorem curve_negY (x y : ZMod p) : (curve p a b).negY x y = -y := by
  simp [negY]

/-- Chord. -/
theorem point_add_chord {x1 y1 x2 y2 : ZMod p} (h1 : (curve p a b).Nonsingular x1 y1) (h2 : (curve p a b).Nonsingular x2 y2)
    (hx : x2 - x1 ≠ 0) (l x3 y3 : ZMod p) (hl : l = (y2 - y1) * (x2 - x1)⁻¹) (h3 : x3 = l * l - x1 - x2)
    (h4 : y3 = (x1 - x3) * l - y1) :
    ∃ h, Point.some x1 y1 h1 + Point.some x2 y2 h2 = Point.some x3 y3 h := by
  have hx' : x1 ≠ x2 := fun e => hx (by rw [e, sub_self])
  have hs : (curve p a b).slope x1 x2 y1 y2 = l := by
    rw [slope_of_X_ne hx', hl, ← neg_sub y2, ← neg_sub x2, neg_div_neg_eq, div_eq_mul_inv]
  have e3 : (curve p a b).addX x1 x2 l = x3 := by rw [h3, addX]; ring
  have e4 : (curve p a b).addY x1 x2 y1 l = y3 := by
    rw [addY, negAddY, curve_negY, e3, h4]; ring
  have h := Point.add_of_X_ne (h₁ := h1) (h₂ := h2) hx'
  refine ⟨?_, ?_⟩
  · have := nonsingular_add h1 h2 (fun e => hx' e.1)
    rwa [hs, e3, e4] at this
  · rw [h]
    simp only [hs, e3, e4]

/-- Tangent. -/
theorem point_add_tangent {x1 y1 : ZMod p} (h1 : (curve p a b).Nonsingular x1 y1)
    (hy : 2 * y1 ≠ 0) (l x3 y3 : ZMod p) (hl : l = (3 * x1 * x1 + a) * (2 * y1)⁻¹) (h3 : x3 = l * l - x1 - x1)
    (h4 : y3 = (x1 - x3) * l - y1) :
    ∃ h, Point.some x1 y1 h1 + Point.some x1 y1 h1 = Point.some x3 y3 h := by
  have hy' : y1 ≠ (curve p a b).negY x1 y1 := by
    rw [curve_negY]; intro e; apply hy; rw [two_mul]; nth_rewrite 1 [e]; ring
  have hs : (curve p a b).slope x1 x1 y1 y1 = l := by
    rw [slope_of_Y_ne rfl hy', hl, curve_negY, div_eq_mul_inv]
    congr 1
    · simp; ring
    · congr 1; ring
  have e3 : (curve p a b).addX x1 x1 l = x3 := by rw [h3, addX]; ring
  have e4 : (curve p a b).addY x1 x1 y1 l = y3 := by
    rw [addY, negAddY, curve_negY, e3, h4]; ring
  have h := Point.add_self_of_Y_ne (h₁ := h1) hy'
  refine ⟨?_, ?_⟩
  · have := nonsingular_add h1 h1 (fun e => hy' e.2)
    rwa [hs, e3, e4] at this
  · rw [h]
    simp only [hs, e3, e4]

/-- A point whose ordinate doubles to 0 is its own opposite. -/
theorem point_add_self_zero {x1 y1 : ZMod p} (h1 : (curve p a b).Nonsingular x1 y1) :
    Point.some x1 y1 h1 + Point.some x1 y1 h1 = 0 ↔ 2 * y1 = 0 := by
  by_cases hy : 2 * y1 = 0
  · simp only [hy, iff_true]
    apply Point.add_self_of_Y_eq
    rw [curve_negY, eq_neg_iff_add_eq_zero, ← two_mul, hy]
  · simp only [hy, iff_false]
    obtain ⟨h, e⟩ := point_add_tangent h1 hy _ _ _ rfl rfl rfl
    rw [e]; exact Point.some_ne_zero _

/-- Opposite points. -/
theorem point_add_opp {x1 y1 x2 y2 : ZMod p} (h1 : (curve p a b).Nonsingular x1 y1) (h2 : (curve p a b).Nonsingular x2 y2)
    (hx : x1 = x2) (hy : y1 ≠ y2) : Point.some x1 y1 h1 + Point.some x2 y2 h2 = 0 := by
  rcases Y_eq_of_X_eq h1.1 h2.1 hx with h | h
  · exact absurd h hy
  · exact Point.add_of_Y_eq hx h

end Verif.Ecp
