import Verif.Lemmas.Ecp.Prime.Secp192r1
import Verif.Lemmas.Ecp.Prime.Secp224r1
import Verif.Lemmas.Ecp.Prime.Secp256r1
import Verif.Lemmas.Ecp.Prime.Secp384r1
import Verif.Lemmas.Ecp.Prime.Secp521r1
import Verif.Lemmas.Ecp.Prime.Secp192k1
import Verif.Lemmas.Ecp.Prime.Secp224k1
import Verif.Lemmas.Ecp.Prime.Secp256k1
import Verif.Lemmas.Ecp.Prime.BrainpoolP256r1
import Verif.Lemmas.Ecp.Prime.BrainpoolP384r1
import Verif.Lemmas.Ecp.Prime.BrainpoolP512r1
import Verif.Lemmas.Ecp.Group
import Verif.Model.Ecp.Curves
/-! The built-in groups: facts computed by the kernel, put together. -/
namespace Verif.Ecp
open Verif.Mpi WeierstrassCurve WeierstrassCurve.Affine

/-- All that is computed about a group. -/
structure Good (c : Params) : Prop where
  p_prime : c.p.Prime
  n_prime : c.n.Prime
  check : ∃ i, ecppCheck c.p (c.a % c.p).toNat c.gx c.gy c.n i = true
  root : ∃ v0 v1 v2 i, noRoot c.p (c.a % c.p).toNat c.b v0 v1 v2 i = true
  num : c.gx < c.p ∧ c.gy < c.p ∧ c.b < c.p ∧ 2 * c.p + 1 < 3 * c.n ∧ 2 < c.p ∧ 2 < c.n
  on : ((c.gy : Int) ^ 2 - (c.gx ^ 3 + c.a * c.gx + c.b)) % c.p = 0
  disc : (4 * c.a ^ 3 + 27 * c.b ^ 2) % c.p ≠ 0

theorem good_named : ∀ c ∈ namedGroups, Good c := by
  simp only [namedGroups, List.forall_mem_cons]
  refine ⟨?_, ?_, ?_, ?_, ?_, ?_, ?_, ?_, ?_, ?_, ?_, by simp⟩
  · exact ⟨Secp192r1.p_prime, Secp192r1.n_prime, ⟨_, Secp192r1.check⟩, ⟨_, _, _, _, Secp192r1.no_root⟩,
      by decide +kernel, by decide +kernel, by decide +kernel⟩
  · exact ⟨Secp224r1.p_prime, Secp224r1.n_prime, ⟨_, Secp224r1.check⟩, ⟨_, _, _, _, Secp224r1.no_root⟩,
      by decide +kernel, by decide +kernel, by decide +kernel⟩
  · exact ⟨Secp256r1.p_prime, Secp256r1.n_prime, ⟨_, Secp256r1.check⟩, ⟨_, _, _, _, Secp256r1.no_root⟩,
      by decide +kernel, by decide +kernel, by decide +kernel⟩
  · exact ⟨Secp384r1.p_prime, Secp384r1.n_prime, ⟨_, Secp384r1.check⟩, ⟨_, _, _, _, Secp384r1.no_root⟩,
      by decide +kernel, by decide +kernel, by decide +kernel⟩
  · exact ⟨Secp521r1.p_prime, Secp521r1.n_prime, ⟨_, Secp521r1.check⟩, ⟨_, _, _, _, Secp521r1.no_root⟩,
      by decide +kernel, by decide +kernel, by decide +kernel⟩
  · exact ⟨Secp192k1.p_prime, Secp192k1.n_prime, ⟨_, Secp192k1.check⟩, ⟨_, _, _, _, Secp192k1.no_root⟩,
      by decide +kernel, by decide +kernel, by decide +kernel⟩
  · exact ⟨Secp224k1.p_prime, Secp224k1.n_prime, ⟨_, Secp224k1.check⟩, ⟨_, _, _, _, Secp224k1.no_root⟩,
      by decide +kernel, by decide +kernel, by decide +kernel⟩
  · exact ⟨Secp256k1.p_prime, Secp256k1.n_prime, ⟨_, Secp256k1.check⟩, ⟨_, _, _, _, Secp256k1.no_root⟩,
      by decide +kernel, by decide +kernel, by decide +kernel⟩
  · exact ⟨BrainpoolP256r1.p_prime, BrainpoolP256r1.n_prime, ⟨_, BrainpoolP256r1.check⟩, ⟨_, _, _, _, BrainpoolP256r1.no_root⟩,
      by decide +kernel, by decide +kernel, by decide +kernel⟩
  · exact ⟨BrainpoolP384r1.p_prime, BrainpoolP384r1.n_prime, ⟨_, BrainpoolP384r1.check⟩, ⟨_, _, _, _, BrainpoolP384r1.no_root⟩,
      by decide +kernel, by decide +kernel, by decide +kernel⟩
  · exact ⟨BrainpoolP512r1.p_prime, BrainpoolP512r1.n_prime, ⟨_, BrainpoolP512r1.check⟩, ⟨_, _, _, _, BrainpoolP512r1.no_root⟩,
      by decide +kernel, by decide +kernel, by decide +kernel⟩

section
variable {c : Params} [Fact c.p.Prime]

theorem cast_a : (((c.a % c.p).toNat : Nat) : ZMod c.p) = (c.a : ZMod c.p) := by
  have hp := (Fact.out : c.p.Prime).pos
  have h := Int.emod_nonneg c.a (show (c.p : Int) ≠ 0 by omega)
  rw [← Int.cast_natCast, Int.toNat_of_nonneg h]
  exact ZMod.intCast_mod _ _

theorem Good.equation (h : Good c) : (curve c.p c.a c.b).Equation c.gx c.gy := by
  have := (ZMod.intCast_zmod_eq_zero_iff_dvd _ c.p).2 (Int.dvd_of_emod_eq_zero h.on)
  push_cast at this
  rw [equation_iff]
  linear_combination this

/-- The base point and its order. -/
theorem Good.order (h : Good c) : ∃ hg : (curve c.p c.a c.b).Nonsingular c.gx c.gy,
    addOrderOf (Point.some (c.gx : ZMod c.p) c.gy hg) = c.n := by
  obtain ⟨i, hc⟩ := h.check
  have hE := h.equation
  have h1 := ecppCheck_spec (dvd_refl c.p) hc (c.b : ZMod c.p)
  rw [cast_a] at h1
  obtain ⟨hg, e⟩ := h1 hE
  have : Fact c.n.Prime := ⟨h.n_prime⟩
  exact ⟨hg, addOrderOf_eq_prime e (Point.some_ne_zero _)⟩

theorem Good.torsion (h : Good c) (P : (curve c.p c.a c.b).Point) (hP : P + P = 0) : P = 0 := by
  obtain ⟨v0, v1, v2, i, hc⟩ := h.root
  refine no_two_torsion (by have := h.num.2.2.2.2.1; omega) (fun r => ?_) P hP
  have := noRoot_spec hc r
  rwa [cast_a] at this

theorem Good.card (h : Good c) : Nat.card (curve c.p c.a c.b).Point = c.n := by
  obtain ⟨hg, e⟩ := h.order
  exact card_eq_of_order h.n_prime (by have := h.num.2.2.2.2.1; omega) e h.num.2.2.2.1 h.torsion

theorem Good.odd (h : Good c) (P : (curve c.p c.a c.b).Point) : Odd (addOrderOf P) :=
  odd_order (by have := h.num.2.2.2.2.1; omega) h.torsion P

end

/-! ## The loaded objects -/

/-- Test for `NatRep`. -/
def repB (w : Nat) (x : Mpi) (n : Nat) : Bool :=
  !x.neg && x.digs.all (fun d => decide (d < 2 ^ w)) && (x.digs.getLast? != some 0) && Nat.beq (val (2 ^ w) x.digs) n

theorem repB_spec {w : Nat} {x : Mpi} {n : Nat} (h : repB w x n = true) : NatRep w x n := by
  simp only [repB, Bool.and_eq_true, Bool.not_eq_true', List.all_eq_true, decide_eq_true_eq, bne_iff_ne, Nat.beq_eq] at h
  exact ⟨⟨h.1.1.2, h.1.2⟩, h.1.1.1, h.2⟩

/-- Test for the group object. -/
def carriesB (w : Nat) (g : Grp) (c : Params) : Bool :=
  repB w g.p c.p && repB w g.b c.b && repB w g.g.x c.gx && repB w g.g.y c.gy && repB w g.g.z 1 && repB w g.n c.n &&
  (if 0 < c.a then repB w g.a c.a.toNat else if c.a = 0 then g.a == ⟨false, [0]⟩ else
    (g.a.neg && repB w ⟨false, g.a.digs⟩ (-c.a).toNat))

theorem carries_named (w : Nat) (hw : w = 32 ∨ w = 64) : ∀ i < 11, ∃ g c, grpLoad w (i : Nat) = some g ∧
    namedGroups[i]? = some c ∧ carriesB w g c = true := by
  have key : ∀ i < 11, (match grpLoad w (i : Nat), namedGroups[i]? with
      | some g, some c => carriesB w g c
      | _, _ => false) = true := by
    rcases hw with rfl | rfl <;> decide +kernel
  intro i hi
  have h := key i hi
  cases hg : grpLoad w (i : Nat) with
  | none => rw [hg] at h; simp at h
  | some g =>
    cases hc : namedGroups[i]? with
    | none => rw [hg, hc] at h; simp at h
    | some c => rw [hg, hc] at h; exact ⟨g, c, rfl, rfl, h⟩

end Verif.Ecp
