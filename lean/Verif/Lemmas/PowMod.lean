import Verif.Lemmas.Ecp.Ecpp
import Mathlib.Data.Nat.Size
/-! Powers modulo a number, in a form the kernel evaluates quickly. -/
namespace Verif
open Verif.Ecp

/-- `c * b ^ e` modulo `m`, `f` bits of `e` left, handed to `k`. -/
def powMod (m : Nat) (k : Nat → Bool) : Nat → Nat → Nat → Nat → Bool
  | 0, _, _, c => k c
  | f + 1, b, e, c =>
    force (b * b % m) fun b' => force (e / 2) fun e' => force (if e % 2 = 1 then c * b % m else c) fun c' =>
      powMod m k f b' e' c'

theorem powMod_spec (m : Nat) (k : Nat → Bool) : ∀ (f b e c : Nat), e < 2 ^ f → c < m →
    powMod m k f b e c = k (c * b ^ e % m)
  | 0, b, e, c, h, hc => by
    have : e = 0 := by omega
    subst this
    rw [powMod, pow_zero, mul_one, Nat.mod_eq_of_lt hc]
  | f + 1, b, e, c, h, hc => by
    simp only [powMod, force_eq]
    rw [pow_succ] at h
    have hc' : (if e % 2 = 1 then c * b % m else c) < m := by
      split
      · exact Nat.mod_lt _ (by omega)
      · exact hc
    rw [powMod_spec m k f _ _ _ (by omega) hc']
    congr 1
    have hb : (b * b % m) ^ (e / 2) ≡ (b * b) ^ (e / 2) [MOD m] := (Nat.mod_modEq _ _).pow _
    have hd := Nat.div_add_mod e 2
    rw [show (b * b) ^ (e / 2) = b ^ (2 * (e / 2)) by rw [pow_mul, sq]] at hb
    split
    · rename_i h1
      have he : e = 2 * (e / 2) + 1 := by omega
      refine ((Nat.mod_modEq (c * b) m).mul hb).trans ?_
      conv_rhs => rw [he]
      rw [pow_succ, show c * b * b ^ (2 * (e / 2)) = c * (b ^ (2 * (e / 2)) * b) by ring]
    · have he : e = 2 * (e / 2) := by omega
      refine ((Nat.ModEq.refl c).mul hb).trans ?_
      conv_rhs => rw [he]

theorem powMod_lt {m f b e : Nat} (he : e < 2 ^ f) (hm : 1 < m) (h : powMod m (fun r => decide (1 < r)) f b e 1 = true) :
    1 < b ^ e % m := by
  rw [powMod_spec m _ f b e 1 he hm, one_mul, decide_eq_true_eq] at h
  exact h

theorem size_eq {n k : Nat} (h1 : 2 ^ k ≤ n) (h2 : n < 2 ^ (k + 1)) : Nat.size n = k + 1 :=
  le_antisymm (Nat.size_le.2 h2) (Nat.lt_size.2 h1)

end Verif
