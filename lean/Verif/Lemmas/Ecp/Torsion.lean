import Verif.Lemmas.Ecp.Ecpp
import Mathlib.GroupTheory.Perm.Cycle.Type
/-!
# Groups of points without elements of order two

A point of order two is a root of x³ + ax + b.  If there is a root r modulo p, then x^p, reduced modulo the cubic, has at r
the value r; so an inverse of x^p - x modulo the cubic shows that there is none.  The kernel computes the power.
-/
namespace Verif.Ecp
open WeierstrassCurve WeierstrassCurve.Affine

/-- Product modulo x³ + ax + b and `N`; `M` is `N - 1`. -/
def cmul (N M a b c0 c1 c2 d0 d1 d2 : Nat) (k : Nat → Nat → Nat → Bool) : Bool :=
  force ((c1 * d2 + c2 * d1) % N) fun e3 =>
  force (c2 * d2 % N) fun e4 =>
  force ((c0 * d0 + M * (b * e3)) % N) fun r0 =>
  force ((c0 * d1 + c1 * d0 + M * (a * e3 + b * e4)) % N) fun r1 =>
  force ((c0 * d2 + c1 * d1 + c2 * d0 + M * (a * e4)) % N) fun r2 => k r0 r1 r2

/-- The power `x ^ m`, from bit `i - 1` downwards. -/
def cpow (N M a b m : Nat) (k : Nat → Nat → Nat → Bool) : Nat → Nat → Nat → Nat → Bool
  | 0, c0, c1, c2 => k c0 c1 c2
  | i + 1, c0, c1, c2 =>
    cmul N M a b c0 c1 c2 c0 c1 c2 fun c0 c1 c2 =>
      if m.testBit i then cmul N M a b c0 c1 c2 0 1 0 fun c0 c1 c2 => cpow N M a b m k i c0 c1 c2
      else cpow N M a b m k i c0 c1 c2

/-- `v0 + v1 x + v2 x²` is an inverse of `x ^ p - x` modulo the cubic; `p` has `i + 1` bits. -/
def noRoot (p a b v0 v1 v2 i : Nat) : Bool :=
  Nat.ble 2 p && Nat.beq (p / 2 ^ i) 1 &&
  cpow p (p - 1) a b p (fun c0 c1 c2 =>
    cmul p (p - 1) a b c0 (c1 + (p - 1)) c2 v0 v1 v2 fun r0 r1 r2 => Nat.beq r0 1 && Nat.beq r1 0 && Nat.beq r2 0) i 0 1 0

section
variable {p : Nat} [Fact p.Prime] {a b : Nat} {r : ZMod p}

/-- Value at `r`. -/
def cval (r : ZMod p) (c0 c1 c2 : Nat) : ZMod p := c0 + c1 * r + c2 * r ^ 2

theorem cmul_spec (hr : r ^ 3 + a * r + b = 0) (c0 c1 c2 d0 d1 d2 : Nat) (k : Nat → Nat → Nat → Bool) :
    ∃ r0 r1 r2, cmul p (p - 1) a b c0 c1 c2 d0 d1 d2 k = k r0 r1 r2 ∧
      cval r r0 r1 r2 = cval r c0 c1 c2 * cval r d0 d1 d2 := by
  have h0 := (Fact.out : p.Prime).pos
  simp only [cmul, force_eq]
  refine ⟨_, _, _, rfl, ?_⟩
  simp only [cval, cast_mod_of_dvd (dvd_refl p), Nat.cast_add, Nat.cast_mul, cast_pred (dvd_refl p) h0]
  linear_combination (-(c1 * d2 + c2 * d1 : ZMod p) - c2 * d2 * r) * hr

theorem cpow_spec (hr : r ^ 3 + a * r + b = 0) {m : Nat} {k : Nat → Nat → Nat → Bool} :
    ∀ (i c0 c1 c2 : Nat), cpow p (p - 1) a b m k i c0 c1 c2 = true → cval r c0 c1 c2 = r ^ (m / 2 ^ i) →
      ∃ r0 r1 r2, k r0 r1 r2 = true ∧ cval r r0 r1 r2 = r ^ m
  | 0, c0, c1, c2, h, hv => ⟨c0, c1, c2, h, by simpa using hv⟩
  | i + 1, c0, c1, c2, h, hv => by
    rw [cpow] at h
    obtain ⟨s0, s1, s2, e, es⟩ := cmul_spec hr c0 c1 c2 c0 c1 c2 (fun c0 c1 c2 =>
      if m.testBit i then cmul p (p - 1) a b c0 c1 c2 0 1 0 fun c0 c1 c2 => cpow p (p - 1) a b m k i c0 c1 c2
      else cpow p (p - 1) a b m k i c0 c1 c2)
    rw [e] at h
    have hs := div_pow_step m i
    by_cases hb : m.testBit i = true
    · simp only [hb, if_true] at h hs
      obtain ⟨t0, t1, t2, e', et⟩ := cmul_spec hr s0 s1 s2 0 1 0 (fun c0 c1 c2 => cpow p (p - 1) a b m k i c0 c1 c2)
      rw [e'] at h
      refine cpow_spec hr i t0 t1 t2 h ?_
      rw [et, es, hv, hs]
      generalize m / 2 ^ (i + 1) = t
      simp [cval]; ring
    · simp only [hb] at h hs
      refine cpow_spec hr i s0 s1 s2 h ?_
      rw [es, hv, hs, if_neg (by simp), add_zero]
      generalize m / 2 ^ (i + 1) = t
      ring

theorem noRoot_spec {v0 v1 v2 i : Nat} (h : noRoot p a b v0 v1 v2 i = true) (r : ZMod p) : r ^ 3 + a * r + b ≠ 0 := by
  intro hr
  simp only [noRoot, Bool.and_eq_true, Nat.ble_eq, Nat.beq_eq] at h
  obtain ⟨⟨-, hi⟩, h⟩ := h
  obtain ⟨c0, c1, c2, hk, hv⟩ := cpow_spec hr _ _ _ _ h (by rw [hi]; simp [cval])
  obtain ⟨r0, r1, r2, e, es⟩ := cmul_spec hr c0 (c1 + (p - 1)) c2 v0 v1 v2
    (fun r0 r1 r2 => Nat.beq r0 1 && Nat.beq r1 0 && Nat.beq r2 0)
  rw [e] at hk
  simp only [Bool.and_eq_true, Nat.beq_eq] at hk
  obtain ⟨⟨rfl, rfl⟩, rfl⟩ := hk
  rw [ZMod.pow_card] at hv
  have h0 : cval r c0 (c1 + (p - 1)) c2 = 0 := by
    have : cval r c0 (c1 + (p - 1)) c2 = cval r c0 c1 c2 - r := by
      simp only [cval, Nat.cast_add, cast_pred (dvd_refl p) (Fact.out : p.Prime).pos]; ring
    rw [this, hv, sub_self]
  rw [h0, zero_mul] at es
  simp [cval] at es

end

section
variable {p : Nat} [Fact p.Prime] {a b : ZMod p}

/-- Without roots of the cubic there is no point of order two. -/
theorem no_two_torsion (h2 : p ≠ 2) (hr : ∀ r : ZMod p, r ^ 3 + a * r + b ≠ 0) (P : (curve p a b).Point) (h : P + P = 0) :
    P = 0 := by
  cases P with
  | zero => rfl
  | some x y hn =>
    rw [point_add_self_zero] at h
    have h20 : (2 : ZMod p) ≠ 0 := by
      intro e
      have : ((2 : Nat) : ZMod p) = 0 := by exact_mod_cast e
      rw [ZMod.natCast_eq_zero_iff] at this
      exact h2 (((Nat.prime_dvd_prime_iff_eq Fact.out Nat.prime_two).1 this))
    have hy : y = 0 := (mul_eq_zero.1 h).resolve_left h20
    have := hn.1
    rw [equation_iff, hy] at this
    exact absurd (by linear_combination -this) (hr x)

/-- At most two points for each abscissa, and infinity. -/
theorem point_code_injective (h2 : p ≠ 2) : Function.Injective (fun P : (curve p a b).Point =>
    match P with
    | .zero => (none : Option (ZMod p × Bool))
    | .some x y _ => some (x, decide (2 * y.val < p))) := by
  have hodd : p % 2 = 1 := (Fact.out : p.Prime).eq_two_or_odd.resolve_left h2
  rintro (_ | ⟨x, y, h⟩) (_ | ⟨x', y', h'⟩) e
  · rfl
  · cases e
  · cases e
  · simp only [Option.some.injEq, Prod.mk.injEq, decide_eq_decide] at e
    obtain ⟨rfl, e⟩ := e
    rcases Y_eq_of_X_eq h.1 h'.1 rfl with hy | hy
    · subst hy; rfl
    · rw [curve_negY] at hy
      by_cases h0 : y' = 0
      · have : y = y' := by rw [hy, h0, neg_zero]
        subst this; rfl
      · have : NeZero y' := ⟨h0⟩
        have hv := ZMod.val_neg_of_ne_zero y'
        have := ZMod.val_lt y'
        rw [hy, hv] at e
        omega

/-- The number of points, when one has large prime order and none has order two. -/
theorem card_eq_of_order {n : Nat} (hn : n.Prime) (h2 : p ≠ 2) {P : (curve p a b).Point} (hP : addOrderOf P = n)
    (h3 : 2 * p + 1 < 3 * n) (ht : ∀ Q : (curve p a b).Point, Q + Q = 0 → Q = 0) : Nat.card (curve p a b).Point = n := by
  have hinj := point_code_injective (a := a) (b := b) h2
  have hfin : Finite (curve p a b).Point := Finite.of_injective _ hinj
  have hle := Nat.card_le_card_of_injective _ hinj
  rw [Nat.card_eq_fintype_card (α := Option (ZMod p × Bool)), Fintype.card_option, Fintype.card_prod, ZMod.card,
    Fintype.card_bool] at hle
  obtain ⟨k, hk⟩ : n ∣ Nat.card (curve p a b).Point := hP ▸ addOrderOf_dvd_natCard P
  have hpos : 0 < Nat.card (curve p a b).Point := Nat.card_pos
  have hk3 : k < 3 := by
    by_contra hge
    have := Nat.mul_le_mul_left n (show 3 ≤ k by omega)
    omega
  rcases (show k = 0 ∨ k = 1 ∨ k = 2 by omega) with rfl | rfl | rfl
  · omega
  · omega
  · exfalso
    have : Fact (Nat.Prime 2) := ⟨Nat.prime_two⟩
    obtain ⟨Q, hQ⟩ := exists_prime_addOrderOf_dvd_card' (G := (curve p a b).Point) 2 ⟨n, by omega⟩
    have h0 := addOrderOf_nsmul_eq_zero Q
    rw [hQ, two_smul] at h0
    rw [ht Q h0] at hQ
    simp at hQ

/-- Every point has odd order. -/
theorem odd_order (h2 : p ≠ 2) (ht : ∀ Q : (curve p a b).Point, Q + Q = 0 → Q = 0) (P : (curve p a b).Point) :
    Odd (addOrderOf P) := by
  have hfin : Finite (curve p a b).Point := Finite.of_injective _ (point_code_injective (a := a) (b := b) h2)
  by_contra h
  rw [Nat.not_odd_iff_even] at h
  obtain ⟨m, hm⟩ := h
  have hpos := addOrderOf_pos P
  have h1 : m • P = 0 := ht _ (by rw [← add_smul, ← hm]; exact addOrderOf_nsmul_eq_zero P)
  have := Nat.le_of_dvd (by omega) (addOrderOf_dvd_of_nsmul_eq_zero h1)
  omega

end

end Verif.Ecp
