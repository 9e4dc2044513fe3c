import Verif.Lemmas.Ecp.Builtin
import Verif.Props.Ecp.Ecp
import Verif.Props.Pk.Ecdh
import Verif.Props.Pk.Ecdsa
/-!
# C58, C61, C62: the built-in groups

`namedGroups` (Spec/Curves.lean) are the published parameters.  The primality of the moduli and orders is proved with
elliptic-curve certificates checked by the kernel (Lemmas/Ecp/Ecpp.lean, Lemmas/Ecp/Prime).
-/
namespace Verif.Ecp
open Verif.Mpi WeierstrassCurve WeierstrassCurve.Affine

/-- The group object carries the parameters. -/
structure Carries (w : Nat) (g : Grp) (c : Params) : Prop where
  p : NatRep w g.p c.p
  a : g.a.toInt (2 ^ w) = c.a
  a_wf : WF (2 ^ w) g.a ∨ g.a = ⟨false, [0]⟩
  b : NatRep w g.b c.b
  gx : NatRep w g.g.x c.gx
  gy : NatRep w g.g.y c.gy
  gz : NatRep w g.g.z 1
  n : NatRep w g.n c.n

theorem carriesB_spec {w : Nat} {g : Grp} {c : Params} (h : carriesB w g c = true) : Carries w g c := by
  simp only [carriesB, Bool.and_eq_true] at h
  obtain ⟨⟨⟨⟨⟨⟨h1, h2⟩, h3⟩, h4⟩, h5⟩, h6⟩, h7⟩ := h
  have ha : g.a.toInt (2 ^ w) = c.a ∧ (WF (2 ^ w) g.a ∨ g.a = ⟨false, [0]⟩) := by
    by_cases hp : 0 < c.a
    · rw [if_pos hp] at h7
      have := repB_spec h7
      exact ⟨by rw [this.toInt]; omega, Or.inl this.wf⟩
    · rw [if_neg hp] at h7
      by_cases h0 : c.a = 0
      · rw [if_pos h0] at h7
        have e := beq_iff_eq.1 h7
        exact ⟨by rw [e, h0]; simp [Mpi.toInt], Or.inr e⟩
      · rw [if_neg h0, Bool.and_eq_true] at h7
        obtain ⟨hn, hr⟩ := h7
        have := repB_spec hr
        have hv := this.value
        simp only at hv
        refine ⟨?_, Or.inl ⟨⟨this.norm.digits, this.norm.top⟩, fun e => ?_⟩⟩
        · unfold Mpi.toInt
          rw [if_pos hn, hv]; omega
        · rw [e] at hv
          simp at hv; omega
  exact ⟨repB_spec h1, ha.1, ha.2, repB_spec h2, repB_spec h3, repB_spec h4, repB_spec h5, repB_spec h6⟩

/-- `cry_ecp_grp_load` succeeds exactly for the numbers 0 to 10 and loads the published parameters of that number.
(Digits of 32 and 64 bits; the library is built with 64.) -/
theorem grpLoad_iff {w : Nat} (hw : w = 32 ∨ w = 64) (id : Int) :
    ((∃ g, grpLoad w id = some g) ↔ 0 ≤ id ∧ id < 11) ∧
    ∀ g, grpLoad w id = some g → ∃ c, namedGroups[id.toNat]? = some c ∧ Carries w g c := by
  by_cases h : 0 ≤ id ∧ id < 11
  · obtain ⟨h0, h1⟩ := h
    obtain ⟨g, c, e1, e2, e3⟩ := carries_named w hw id.toNat (by omega)
    rw [Int.toNat_of_nonneg h0] at e1
    refine ⟨⟨fun _ => ⟨h0, h1⟩, fun _ => ⟨g, e1⟩⟩, fun g' hg' => ?_⟩
    rw [e1] at hg'
    cases hg'
    exact ⟨c, e2, carriesB_spec e3⟩
  · have hn : grpLoad w id = none := by
      unfold grpLoad
      rw [if_neg (by omega), if_neg (by omega), if_neg (by omega), if_neg (by omega), if_neg (by omega), if_neg (by omega),
        if_neg (by omega), if_neg (by omega), if_neg (by omega), if_neg (by omega), if_neg (by omega)]
    rw [hn]
    exact ⟨⟨fun ⟨_, e⟩ => (by cases e), fun h' => absurd h' h⟩, fun _ e => (by cases e)⟩

/-- C58: in every built-in group the coordinates of the base point are reduced, the base point satisfies the equation of
the curve, and the discriminant of the curve is not 0 modulo `p`. -/
theorem builtin_base_point {w : Nat} (hw : w = 32 ∨ w = 64) {id : Int} {g : Grp} (h : grpLoad w id = some g) :
    ∃ p b x y : Nat, ∃ a : Int, NatRep w g.p p ∧ g.a.toInt (2 ^ w) = a ∧ NatRep w g.b b ∧ NatRep w g.g.x x ∧
      NatRep w g.g.y y ∧ NatRep w g.g.z 1 ∧ x < p ∧ y < p ∧ (y : Int) ^ 2 ≡ x ^ 3 + a * x + b [ZMOD p] ∧
      ¬ (p : Int) ∣ 4 * a ^ 3 + 27 * b ^ 2 := by
  obtain ⟨c, e, hc⟩ := (grpLoad_iff hw id).2 g h
  have hg := good_named c (List.mem_of_getElem? e)
  refine ⟨c.p, c.b, c.gx, c.gy, c.a, hc.p, hc.a, hc.b, hc.gx, hc.gy, hc.gz, hg.num.1, hg.num.2.1, ?_, fun hd => ?_⟩
  · exact (Int.modEq_iff_dvd.2 (Int.dvd_of_emod_eq_zero hg.on)).symm
  · exact hg.disc (Int.emod_eq_zero_of_dvd hd)

/-- C61: for every built-in group, `p` and `n` are prime, the group of points has exactly `n` elements and the base point
has order `n`; so every point is a multiple of the base point. -/
theorem builtin_prime_order {w : Nat} (hw : w = 32 ∨ w = 64) {id : Int} {g : Grp} (h : grpLoad w id = some g) :
    ∃ p n b x y : Nat, ∃ a : Int, NatRep w g.p p ∧ NatRep w g.n n ∧ g.a.toInt (2 ^ w) = a ∧ NatRep w g.b b ∧
      NatRep w g.g.x x ∧ NatRep w g.g.y y ∧ n.Prime ∧ ∃ _ : Fact p.Prime, Nat.card (curve p a b).Point = n ∧
      ∃ hg : (curve p a b).Nonsingular x y, addOrderOf (Point.some (x : ZMod p) y hg) = n ∧
      ∀ P : (curve p a b).Point, ∃ k < n, P = k • Point.some (x : ZMod p) y hg := by
  obtain ⟨c, e, hc⟩ := (grpLoad_iff hw id).2 g h
  have hg := good_named c (List.mem_of_getElem? e)
  have hf : Fact c.p.Prime := ⟨hg.p_prime⟩
  obtain ⟨hn, ho⟩ := hg.order
  refine ⟨c.p, c.n, c.b, c.gx, c.gy, c.a, hc.p, hc.n, hc.a, hc.b, hc.gx, hc.gy, hg.n_prime, hf, hg.card, hn, ho,
    fun P => ?_⟩
  have hcard := hg.card
  have hpr : Fact c.n.Prime := ⟨hg.n_prime⟩
  have hfin : Finite (curve c.p c.a c.b).Point := Nat.finite_of_card_ne_zero (by rw [hcard]; exact hg.n_prime.ne_zero)
  have hmem := mem_zmultiples_of_prime_card (p := c.n) hcard (Point.some_ne_zero hn) (g' := P)
  rw [AddSubgroup.mem_zmultiples_iff] at hmem
  obtain ⟨k, hk⟩ := hmem
  have hn0 : (c.n : Int) ≠ 0 := by have := hg.n_prime.pos; omega
  refine ⟨(k % c.n).toNat, ?_, ?_⟩
  · have := Int.emod_lt_of_pos k (show (0 : Int) < c.n by have := hg.n_prime.pos; omega)
    have := Int.emod_nonneg k hn0
    omega
  · rw [← natCast_zsmul, Int.toNat_of_nonneg (Int.emod_nonneg k hn0), ← hk, ← ho, mod_addOrderOf_zsmul]

/-! ## Consequences for the operations -/

/-- The curve of a named group. -/
abbrev Params.curve (c : Params) : WeierstrassCurve.Affine (ZMod c.p) := Ecp.curve c.p (c.a : ZMod c.p) (c.b : ZMod c.p)

theorem Carries.grpRep {w : Nat} {g : Grp} {c : Params} (h : Carries w g c) : GrpRep w c.p (c.a : ZMod c.p) g := by
  refine ⟨h.p, ?_⟩
  rcases h.a_wf with hw | e
  · exact Or.inl ⟨hw, by rw [h.a]⟩
  · refine Or.inr ⟨e, ?_⟩
    have := h.a
    rw [e] at this
    rw [← this]; simp [Mpi.toInt]

/-- C62: on a built-in curve `cry_ecp_dbl`, `cry_ecp_add` and `cry_ecp_mul` are right for all points and all scalars
without exception (the sign of the scalar being ignored). -/
theorem builtin_arith {w : Nat} (hw : w = 32 ∨ w = 64) {id : Int} {g : Grp} (h : grpLoad w id = some g) :
    ∃ c : Params, ∃ _ : Fact c.p.Prime, Carries w g c ∧ ∀ (q1 q2 : Pt) (P Q : c.curve.Point),
      PtRep w q1 P → PtRep w q2 Q →
      (∃ r, dbl w q1 g = some r ∧ PtRep w r (P + P) ∧ (PtRed w c.p q1 → PtRed w c.p r)) ∧
      (∃ r, add w q1 q2 g = some r ∧ PtRep w r (P + Q) ∧ (PtRed w c.p q1 → PtRed w c.p q2 → PtRed w c.p r)) ∧
      (∀ k : Mpi, Digits (2 ^ w) k.digs → ∃ r, mulPt w q1 k g = .ok r ∧ PtRep w r ((k.toInt (2 ^ w)).natAbs • P) ∧
        (PtRed w c.p q1 → PtRed w c.p r)) := by
  obtain ⟨c, e, hc⟩ := (grpLoad_iff hw id).2 g h
  have hg := good_named c (List.mem_of_getElem? e)
  have hf : Fact c.p.Prime := ⟨hg.p_prime⟩
  have hw' : DigitWidth w := by rcases hw with rfl | rfl <;> simp [DigitWidth]
  refine ⟨c, hf, hc, fun q1 q2 P Q h1 h2 => ⟨?_, ?_, fun k hk => ?_⟩⟩
  · obtain ⟨r, e1, e2, -, e3⟩ := ecp_dbl_partial hw' hc.grpRep h1 (or_iff_not_imp_left.2 fun h0 e => h0 (hg.torsion P e))
    exact ⟨r, e1, e2, e3⟩
  · obtain ⟨r, e1, e2, -, e3⟩ := ecp_add_partial hw' hc.grpRep h1 h2 (fun e => e.2.1 (hg.torsion P e.2.2))
    exact ⟨r, e1, e2, e3⟩
  · exact ecp_mul_partial hw' hc.grpRep h1 (hg.odd P) hk

/-- The built-in groups satisfy the conditions under which ECDSA was treated. -/
theorem builtin_dom {w : Nat} (hw : w = 32 ∨ w = 64) {id : Int} {g : Grp} (h : grpLoad w id = some g) :
    ∃ c : Params, ∃ _ : Fact c.p.Prime, namedGroups[id.toNat]? = some c ∧ ∃ hn : c.curve.Nonsingular c.gx c.gy,
      Ecdsa.Dom w c.p (c.a : ZMod c.p) g (Point.some (c.gx : ZMod c.p) c.gy hn) c.n ∧
      ∀ P : c.curve.Point, Odd (addOrderOf P) := by
  obtain ⟨c, e, hc⟩ := (grpLoad_iff hw id).2 g h
  have hg := good_named c (List.mem_of_getElem? e)
  have hf : Fact c.p.Prime := ⟨hg.p_prime⟩
  obtain ⟨hn, ho⟩ := hg.order
  refine ⟨c, hf, e, hn, ⟨hc.grpRep, ?_, ?_, hc.n, hg.n_prime, by have := hg.num; omega, ho⟩, hg.odd⟩
  · exact ptRep_some hn ⟨c.gx, hc.gx, hg.num.1, rfl⟩ ⟨c.gy, hc.gy, hg.num.2.1, rfl⟩ hc.gz
  · exact Or.inr ⟨c.gx, c.gy, hc.gx, hg.num.1, hc.gy, hg.num.2.1, hc.gz⟩

/-- C62: ECDH over a built-in group: for all secrets, both parties get the same point. -/
theorem builtin_ecdh {w : Nat} (hw : w = 32 ∨ w = 64) {id : Int} {g : Grp} (h : grpLoad w id = some g) (ca cb : Ecdh.Ctx)
    (ha : ca.ec = g) (hb : cb.ec = g) {da db : Nat} (hda : NatRep w ca.d da) (hdb : NatRep w cb.d db) :
    ∃ z, Ecdh.exchange w ca cb = .ok (z, z) := by
  obtain ⟨c, hf, -, hn, hd, -⟩ := builtin_dom hw h
  subst ha
  have hw' : DigitWidth w := by rcases hw with rfl | rfl <;> simp [DigitWidth]
  obtain ⟨z, e, -⟩ := Ecdh.ecdh_agree hw' ca cb hb.symm hd.grp hd.base hd.red hd.hodd hda hdb
  exact ⟨z, e⟩

/-- C62: ECDSA over a built-in group with any key pair: what `cry_ecdsa_sign` produces with a nonce other than 0 is accepted
if and only if its second component is not 0 and its first one is below `n`. -/
theorem builtin_ecdsa {w : Nat} (hw : w = 32 ∨ w = 64) {id : Int} {g : Grp} (h : grpLoad w id = some g) :
    ∃ c : Params, ∃ _ : Fact c.p.Prime, Carries w g c ∧ ∃ hn : c.curve.Nonsingular c.gx c.gy,
      ∀ (x : Ecdsa.Ctx) (d : Nat), x.grp = g → NatRep w x.d d →
        PtRep w x.q (d • Point.some (c.gx : ZMod c.p) c.gy hn) → PtRed w c.p x.q →
        ∀ (old : Ecdsa.Sig) (msg bs : List Byte), bs.length = (countBits w g.n + 7) / 8 →
          Ecdsa.sign w x old msg bs ≠ .ub →
          ∃ k sig, Ecdsa.sign w x old msg bs = .ok 0 sig ∧ k < c.n ∧ (k = 0 → sig.s = old.s) ∧
            (k ≠ 0 → (Ecdsa.verify w x sig msg = .ok true ↔
              sig.s ≠ ⟨false, []⟩ ∧ ptX (k • Point.some (c.gx : ZMod c.p) c.gy hn) < c.n)) := by
  obtain ⟨c, hf, e, hn, hd, -⟩ := builtin_dom hw h
  obtain ⟨c', e', hc⟩ := (grpLoad_iff hw id).2 g h
  rw [e] at e'
  obtain rfl := Option.some.inj e'
  have hw' : DigitWidth w := by rcases hw with rfl | rfl <;> simp [DigitWidth]
  refine ⟨c, hf, hc, hn, fun x d hx hdd hq hr old msg bs hl hub => ?_⟩
  subst hx
  exact Ecdsa.ecdsa_sign_verify_partial hw' x ⟨hd, hdd, hq, hr⟩ old msg bs hl hub

/-- The hypotheses are met: the group number 2 (secp256r1) with 64-bit digits; doubling its base point gives the published
double. -/
example : ∃ g, grpLoad 64 2 = some g ∧ (dbl 64 g.g g).map (fun r => val (2 ^ 64) r.x.digs) =
    some 0x7cf27b188d034f7e8a52380304b51ac3c08969e277f21b35a60b48fc47669978 :=
  ⟨_, rfl, by decide +kernel⟩

/-- Unknown numbers are refused. -/
example : grpLoad 64 11 = none ∧ grpLoad 64 (-1) = none := by decide +kernel

end Verif.Ecp
