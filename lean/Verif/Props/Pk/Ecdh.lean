import Verif.Model.Pk.Ecdh
import Verif.Lemmas.Ecp.Unique
import Verif.Props.Ecp.Ecp
/-!
# C57: elliptic-curve Diffie-Hellman
-/
namespace Verif.Ecdh
open Verif.Mpi Verif.Ecp WeierstrassCurve WeierstrassCurve.Affine

variable {w p : Nat} {a b : ZMod p} [Fact p.Prime]

/-- Both halves of the exchange: each party computes its point, receives the one of the other, and computes the shared
point. -/
def exchange (w : Nat) (ca cb : Ctx) : Out (Pt × Pt) :=
  (agree w ca).bind fun ca' => (agree w cb).bind fun cb' =>
  (final w { ca' with q := cb'.q }).bind fun ca'' => (final w { cb' with q := ca'.q }).bind fun cb'' =>
  .ok (ca''.z, cb''.z)

/-- C57: for every group whose base point has odd order and all secret scalars the exchange succeeds, both parties hold
the same object, and it denotes the multiple of the base point by the product of the scalars. -/
theorem ecdh_agree (hw : DigitWidth w) (ca cb : Ctx) (hgrp : ca.ec = cb.ec) (hg : GrpRep w p a ca.ec)
    {G : (curve p a b).Point} (hG : PtRep w ca.ec.g G) (hR : PtRed w p ca.ec.g) (hodd : Odd (addOrderOf G))
    {da db : Nat} (ha : NatRep w ca.d da) (hb : NatRep w cb.d db) :
    ∃ z, exchange w ca cb = .ok (z, z) ∧ PtRep w z ((da * db) • G) ∧ PtRed w p z := by
  have odd' : ∀ k : Nat, Odd (addOrderOf (k • G)) := fun k =>
    hodd.of_dvd_nat (addOrderOf_smul_dvd k)
  have hav : (ca.d.toInt (2 ^ w)).natAbs = da := by rw [ha.toInt]; rfl
  have hbv : (cb.d.toInt (2 ^ w)).natAbs = db := by rw [hb.toInt]; rfl
  obtain ⟨qa, e1, r1, s1⟩ := ecp_mul_partial hw hg hG hodd ha.norm.digits
  obtain ⟨qb, e2, r2, s2⟩ := ecp_mul_partial hw hg hG hodd hb.norm.digits
  rw [hav] at r1
  rw [hbv] at r2
  obtain ⟨za, e3, r3, s3⟩ := ecp_mul_partial hw hg r2 (odd' db) ha.norm.digits
  obtain ⟨zb, e4, r4, s4⟩ := ecp_mul_partial hw hg r1 (odd' da) hb.norm.digits
  rw [hav, ← mul_nsmul'] at r3
  rw [hbv, ← mul_nsmul', Nat.mul_comm] at r4
  have hz : za = zb := ptRed_unique (by have := hw.pos; omega) r3 (s3 (s2 hR)) r4 (s4 (s1 hR))
  subst hz
  refine ⟨za, ?_, r3, s3 (s2 hR)⟩
  unfold exchange agree final
  rw [← hgrp]
  simp only [e1, e2, e3, e4, Out.bind]

/-- For a base point of any order: if all four calls succeed, both hold the same object. -/
theorem ecdh_agree_any (hw : DigitWidth w) (ca cb : Ctx) (hgrp : ca.ec = cb.ec) (hg : GrpRep w p a ca.ec)
    {G : (curve p a b).Point} (hG : PtRep w ca.ec.g G) (hR : PtRed w p ca.ec.g) {da db : Nat} (ha : NatRep w ca.d da)
    (hb : NatRep w cb.d db) :
    exchange w ca cb = .fail ∨
    ∃ z, exchange w ca cb = .ok (z, z) ∧ PtRep w z ((da * db) • G) ∧ PtRed w p z := by
  have hav : (ca.d.toInt (2 ^ w)).natAbs = da := by rw [ha.toInt]; rfl
  have hbv : (cb.d.toInt (2 ^ w)).natAbs = db := by rw [hb.toInt]; rfl
  unfold exchange agree final
  rw [← hgrp]
  rcases ecp_mul_sound hw hg hG ha.norm.digits with e1 | ⟨qa, e1, r1, s1⟩
  · left; simp only [e1, Out.bind]
  rcases ecp_mul_sound hw hg hG hb.norm.digits with e2 | ⟨qb, e2, r2, s2⟩
  · left; simp only [e1, e2, Out.bind]
  rw [hav] at r1
  rw [hbv] at r2
  rcases ecp_mul_sound hw hg r2 ha.norm.digits with e3 | ⟨za, e3, r3, s3⟩
  · left; simp only [e1, e2, e3, Out.bind]
  rcases ecp_mul_sound hw hg r1 hb.norm.digits with e4 | ⟨zb, e4, r4, s4⟩
  · left; simp only [e1, e2, e3, e4, Out.bind]
  rw [hav, ← mul_nsmul'] at r3
  rw [hbv, ← mul_nsmul', Nat.mul_comm] at r4
  have hz : za = zb := ptRed_unique (by have := hw.pos; omega) r3 (s3 (s2 hR)) r4 (s4 (s1 hR))
  subst hz
  right
  exact ⟨za, by simp only [e1, e2, e3, e4, Out.bind], r3, s3 (s2 hR)⟩

/-- A party with secret `d` on the curve modulo 17. -/
def toyCtx (d : Nat) : Ctx := ⟨toyG, ⟨false, [d]⟩, ⟨⟨false, []⟩, ⟨false, []⟩, ⟨false, []⟩⟩, ⟨⟨false, []⟩, ⟨false, []⟩, ⟨false, []⟩⟩⟩

/-- The hypotheses are met with the secrets 3 and 5; the shared point is 15 P = (3, 16). -/
example : PtRep 8 (toyCtx 3).ec.g toyPt ∧ PtRed 8 17 (toyCtx 3).ec.g ∧ Odd (addOrderOf toyPt) ∧
    NatRep 8 (toyCtx 3).d 3 ∧ NatRep 8 (toyCtx 5).d 5 ∧
    exchange 8 (toyCtx 3) (toyCtx 5) = .ok (⟨⟨false, [3]⟩, ⟨false, [16]⟩, ⟨false, [1]⟩⟩, ⟨⟨false, [3]⟩, ⟨false, [16]⟩, ⟨false, [1]⟩⟩) :=
  ⟨toyPt_rep, toyPt_red, by rw [toyPt_order]; decide, NatRep.digit (by omega) (by omega) (by omega),
    NatRep.digit (by omega) (by omega) (by omega), by decide +kernel⟩

end Verif.Ecdh
