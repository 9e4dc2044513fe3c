import Verif.Lemmas.Mpi.NatRepPk
import Mathlib.Data.ZMod.Basic
import Mathlib.FieldTheory.Finite.Basic
/-! Arithmetic of the multi-precision integers read modulo a prime. -/
namespace Verif.Ecp
open Verif.Mpi

/-- `x` is a well-formed integer congruent to `u`. -/
structure ZRep (w p : Nat) (x : Mpi) (u : ZMod p) : Prop where
  wf : WF (2 ^ w) x
  val : ((x.toInt (2 ^ w) : Int) : ZMod p) = u

/-- In addition, `x` lies between 0 and `p - 1`. -/
structure ZRed (w p : Nat) (x : Mpi) (u : ZMod p) : Prop where
  rep : ∃ n, NatRep w x n ∧ n < p ∧ (n : ZMod p) = u

namespace ZRed
variable {w p : Nat} {x y : Mpi} {u v : ZMod p}

theorem toZRep (h : ZRed w p x u) : ZRep w p x u := by
  obtain ⟨n, h1, -, h3⟩ := h.rep
  exact ⟨h1.wf, by rw [h1.toInt, Int.cast_natCast, h3]⟩

theorem isZero_iff (h : ZRed w p x u) : isZero x = true ↔ u = 0 := by
  obtain ⟨n, h1, h2, rfl⟩ := h.rep
  rw [h1.isZero_iff]
  constructor
  · rintro rfl; simp
  · intro h0
    rw [ZMod.natCast_eq_zero_iff] at h0
    exact Nat.eq_zero_of_dvd_of_lt h0 h2

end ZRed

namespace ZRep
variable {w p : Nat} {x y m : Mpi} {u v : ZMod p}

theorem add (hw : DigitWidth w) (hx : ZRep w p x u) (hy : ZRep w p y v) :
    ∃ z, Mpi.add (2 ^ w) x y = some z ∧ ZRep w p z (u + v) := by
  have hw8 := hw.pos
  obtain ⟨z, h1, h2, h3, h4⟩ := add_norm (one_lt_two_pow (w := w) (by omega)) hx.wf.toNorm hy.wf.toNorm
  refine ⟨z, h1, ⟨h3, fun e => ?_⟩, by rw [h2, Int.cast_add, hx.val, hy.val]⟩
  cases hz : z.neg with
  | false => rfl
  | true =>
    obtain ⟨a1, a2, -⟩ := h4 e hz
    rw [hx.wf.zero_nonneg a2] at a1; simp at a1

theorem sub (hw : DigitWidth w) (hx : ZRep w p x u) (hy : ZRep w p y v) :
    ∃ z, Mpi.sub (2 ^ w) x y = some z ∧ ZRep w p z (u - v) := by
  have hw8 := hw.pos
  obtain ⟨z, h1, h2, h3, h4⟩ := sub_norm (one_lt_two_pow (w := w) (by omega)) hx.wf.toNorm hy.wf.toNorm
  refine ⟨z, h1, ⟨h3, fun e => ?_⟩, by rw [h2, Int.cast_sub, hx.val, hy.val]⟩
  cases hz : z.neg with
  | false => rfl
  | true =>
    obtain ⟨a1, a2, -⟩ := h4 e hz
    rw [hx.wf.zero_nonneg a2] at a1; simp at a1

theorem mul (hw : DigitWidth w) (old : Bool) (hx : ZRep w p x u) (hy : ZRep w p y v) :
    ∃ z, Mpi.mul w old x y = some z ∧ ZRep w p z (u * v) := by
  obtain ⟨z, h1, h2, h3⟩ := mul_rep hw.pos old (⟨hx.wf.toNorm, rfl⟩ : Rep w x _) (⟨hy.wf.toNorm, rfl⟩ : Rep w y _)
  exact ⟨z, h1, h3, by rw [h2.2, Int.cast_mul, hx.val, hy.val]⟩

theorem sqr (hw : DigitWidth w) (hx : ZRep w p x u) : ∃ z, Mpi.sqr w false x = some z ∧ ZRep w p z (u * u) := by
  obtain ⟨z, h1, h2, h3⟩ := sqr_rep hw.pos (⟨hx.wf.toNorm, rfl⟩ : Rep w x _)
  exact ⟨z, h1, h3, by rw [h2.2, Int.cast_mul, hx.val]⟩

theorem mod (hw : DigitWidth w) (hx : ZRep w p x u) (hp : NatRep w m p) (h0 : 0 < p) :
    ∃ z, Mpi.mod w .none x m = some z ∧ ZRed w p z u := by
  obtain ⟨z, h1, h2⟩ := NatRep.mod_int hw hx.wf hp h0
  refine ⟨z, h1, ⟨_, h2, ?_, ?_⟩⟩
  · have := Int.emod_lt_of_pos (x.toInt (2 ^ w)) (show (0 : Int) < p by omega)
    have := Int.emod_nonneg (x.toInt (2 ^ w)) (show (p : Int) ≠ 0 by omega)
    omega
  · rw [← hx.val, ← Int.cast_natCast, Int.toNat_of_nonneg (Int.emod_nonneg _ (by omega))]
    exact ZMod.intCast_mod _ _

theorem inv [Fact p.Prime] (hw : DigitWidth w) (hx : ZRep w p x u) (hp : NatRep w m p) :
    (u ≠ 0 → ∃ z, Mpi.inv w x m = some z ∧ ZRed w p z u⁻¹) ∧ (u = 0 → Mpi.inv w x m = none) := by
  have hpp : p.Prime := Fact.out
  obtain ⟨h1, h2⟩ := NatRep.inv_int hw hx.wf hp hpp.pos
  have hd : u = 0 ↔ (p : Int) ∣ x.toInt (2 ^ w) := by
    rw [← hx.val, ZMod.intCast_zmod_eq_zero_iff_dvd]
  have hg : Int.gcd (x.toInt (2 ^ w)) p = 1 ↔ u ≠ 0 := by
    rw [Ne, hd, ← Int.isCoprime_iff_gcd_eq_one, isCoprime_comm, (Nat.prime_iff_prime_int.1 hpp).coprime_iff_not_dvd]
  constructor
  · intro hu
    obtain ⟨z, k, e1, e2, e3, e4⟩ := h1 (hg.2 hu)
    refine ⟨z, e1, ⟨k, e2, e3, ?_⟩⟩
    have := (ZMod.intCast_eq_intCast_iff _ _ _).2 e4
    rw [Int.cast_mul, hx.val, Int.cast_natCast, Int.cast_one] at this
    exact (inv_eq_of_mul_eq_one_right this).symm
  · intro hu
    exact h2 (fun h => hg.1 h hu)

end ZRep

/-- Small constants. -/
theorem zrep_setInt {w : Nat} (hw : DigitWidth w) (p v : Nat) (hv : v < 2 ^ 63) :
    ∃ x, setInt w (v : Int) = some x ∧ ZRep w p x v ∧ NatRep w x v := by
  obtain ⟨x, h1, h2⟩ := natRep_setInt hw hv
  exact ⟨x, h1, ⟨h2.wf, by rw [h2.toInt, Int.cast_natCast]⟩, h2⟩

/-- The coefficient `a` of a group: a well-formed integer, or the constant of one zero digit that three of the built-in
groups have (src/ecp/ecp_curves.c), which is not normalised. -/
def CoefRep (w p : Nat) (x : Mpi) (u : ZMod p) : Prop := ZRep w p x u ∨ (x = ⟨false, [0]⟩ ∧ u = 0)

/-- Adding the coefficient and reducing: a reduced number, or again the single zero digit. -/
theorem coef_add_mod {w p : Nat} (hw : DigitWidth w) {x a m : Mpi} {u v : ZMod p} (hx : ZRed w p x u)
    (ha : CoefRep w p a v) (hp : NatRep w m p) (h0 : 0 < p) :
    ∃ z z', Mpi.add (2 ^ w) x a = some z ∧ Mpi.mod w .none z m = some z' ∧
      (ZRed w p z' (u + v) ∨ (z' = ⟨false, [0]⟩ ∧ u + v = 0)) := by
  rcases ha with ha | ⟨rfl, rfl⟩
  · obtain ⟨z, h1, h2⟩ := hx.toZRep.add hw ha
    obtain ⟨z', h3, h4⟩ := h2.mod hw hp h0
    exact ⟨z, z', h1, h3, Or.inl h4⟩
  · obtain ⟨n, n1, n2, n3⟩ := hx.rep
    obtain ⟨s, ds⟩ := x
    have hs : s = false := n1.neg
    subst hs
    cases ds with
    | nil =>
      have hu : u = 0 := by
        rw [← n3, ← n1.value]; simp
      refine ⟨⟨false, [0]⟩, ⟨false, [0]⟩, by simp [Mpi.add, addAbs, addLoop, addCarry], ?_, Or.inr ⟨rfl, by simp [hu]⟩⟩
      have hm0 : m.digs ≠ [] := fun e => by rw [hp.digs_nil_iff] at e; omega
      have hmn := hp.neg
      have hc : cmpAbs ⟨false, [0]⟩ m < 0 := by
        unfold cmpAbs
        have hl : 0 < m.digs.length := List.length_pos_iff.2 hm0
        simp only [List.length_singleton]
        split_ifs with h1 h2
        · simp
        · omega
        · obtain ⟨d, hd⟩ : ∃ d, m.digs = [d] := List.length_eq_one_iff.1 (by omega)
          have hv := hp.value
          rw [hd] at hv ⊢
          simp at hv
          have : d ≠ 0 := by omega
          have h0 : cmpDigs [] [] = 0 := by simp [cmpDigs]
          unfold cmpDigs
          simp [this, h0]
          omega
      unfold Mpi.mod Mpi.div divAbs
      rw [if_neg hm0, if_pos hc]
      simp [hmn]
    | cons d ds =>
      have hadd : Mpi.add (2 ^ w) ⟨false, d :: ds⟩ ⟨false, [0]⟩ = some ⟨false, d :: ds⟩ := by
        have hd : d < 2 ^ w := n1.norm.digits d (by simp)
        have hac : ∀ l, addCarry (2 ^ w) l 0 = l := by intro l; cases l <;> simp [addCarry]
        simp [Mpi.add, addAbs, addLoop, Nat.mod_eq_of_lt hd, hac]
      obtain ⟨z', h3, h4⟩ := hx.toZRep.mod hw hp h0
      exact ⟨_, z', hadd, h3, Or.inl (by simpa using h4)⟩

/-- Multiplying it. -/
theorem coef_mul {w p : Nat} (hw : DigitWidth w) {x y : Mpi} {u v : ZMod p}
    (hx : ZRed w p x u ∨ (x = ⟨false, [0]⟩ ∧ u = 0)) (hy : ZRep w p y v) :
    ∃ z, Mpi.mul w false x y = some z ∧ ZRep w p z (u * v) := by
  rcases hx with hx | ⟨rfl, rfl⟩
  · exact hx.toZRep.mul hw false hy
  · have hw8 := hw.pos
    have hb := one_lt_two_pow (w := w) (by omega)
    obtain ⟨h1, h2, h3⟩ := mulComba_spec (show 0 < w by omega) false (x := ⟨false, [0]⟩) (y := y) (by simp [Digits])
      hy.wf.digits (by simp only [List.length_singleton]; omega)
    have e : mulAbs w (min [0].length y.digs.length + 1) false ⟨false, [0]⟩ y = some (mulComba w false ⟨false, [0]⟩ y) := by
      unfold mulAbs
      simp only [List.length_singleton]
      rw [if_neg (by omega), if_neg (by omega)]
    unfold Mpi.mul mulWith
    simp only [e, Option.map_some]
    generalize mulComba w false ⟨false, [0]⟩ y = z at *
    simp only [val_cons, val_nil, Nat.mul_zero, Nat.add_zero, Nat.zero_mul] at h1
    have hz : z.digs = [] := by
      by_contra hz
      have := h2.top
      have : (z.toInt (2 ^ w)) = 0 := by unfold Mpi.toInt; simp [h1]
      exact hz ((toInt_eq_zero_iff (by omega) h2).1 this)
    have hn : z.neg = false := by
      cases h : z.neg with
      | false => rfl
      | true => exact absurd (h3 h) (by simp)
    refine ⟨z, by rw [if_neg (by simpa using hz)], ⟨h2, fun _ => hn⟩, ?_⟩
    unfold Mpi.toInt
    simp [h1]

end Verif.Ecp
