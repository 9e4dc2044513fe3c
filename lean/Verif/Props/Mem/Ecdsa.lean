import Verif.Lemmas.Mem.EcdsaLost
import Verif.Props.Mem.EcpLife
import Verif.Props.Mem.Dsa
/-!
# C87: ECDSA in memory

`cry_ecdsa_sign` and `cry_ecdsa_verify` with all their local numbers and points.
-/
namespace Verif.Mem
open Verif.Mpi
open WeierstrassCurve WeierstrassCurve.Affine
open Verif.Ecp (curve ptX)

section
variable {w p : Nat} {a b : ZMod p} [Fact p.Prime] {s : St} {sp g d q r t n : Nat} {G Q : (curve p a b).Point} {D R T : Int}

theorem DomainAt.dom (h : DomainAt w p a b s g G n) : ∃ za, DomAt w p a b (Now s) g za G n := by
  obtain ⟨za, hg⟩ := h.grp.grp
  obtain ⟨x, y, z, c, o⟩ := h.base
  obtain ⟨x', y', z', c', o'⟩ := h.red
  obtain ⟨rfl, rfl, rfl⟩ := same_coords c c'
  exact ⟨za, hg, ⟨x, y, z, c.at3, o, o'⟩, fun o ho => by rw [ho]; exact h.ord, h.prime, h.odd, h.order⟩

/-- C87, partial.  Full statement: `cry_ecdsa_verify` returns 0 exactly for the signatures that satisfy the verification equation,
and a failing allocation is reported.  Proved: when no allocation fails, the caller's objects and the allocated blocks are as
before; the status is 0 only if the equation holds, and, for a public key of odd order, also if it does.  Missing, because
false: a failing allocation may be undefined behaviour (`mem_ecdsa_verify_ub`). -/
theorem mem_ecdsa_verify_partial (hw : DigitWidth w) (hs : Plenty s) (hg : g + 6 < sp) (hq : q + 2 < sp) (hr : r < sp) (ht : t < sp)
    (hd : DomainAt w p a b s g G n) (hQ : PointAt w s q Q) (hQs : StdAt p w s q) (ar : (s.obj r).Shows w R) (at' : (s.obj t).Shows w T)
    (msg : List Byte) :
    (EndsSame sp s (ecdsaVerify w sp g q r t msg) 0 ∧ Ecdsa.Equation n G Q (cutVal w n msg) R T) ∨
    (EndsSame sp s (ecdsaVerify w sp g q r t msg) (-1) ∧ (Odd (addOrderOf Q) → ¬ Ecdsa.Equation n G Q (cutVal w n msg) R T)) := by
  obtain ⟨za, hd⟩ := hd.dom
  obtain ⟨x, y, z, c, o⟩ := hQ
  obtain ⟨x', y', z', c', o'⟩ := hQs
  obtain ⟨rfl, rfl, rfl⟩ := same_coords c c'
  obtain ⟨st, s', e, h, h0, h1, h2⟩ := ecdsaVerify_calm hw (K := ctxOf sp s) hs (at_now sp s) hg hq hr ht hd c.at3 o o'
    (fun o ho => by rw [ho]; exact ar) (fun o ho => by rw [ho]; exact at') msg
  have hsame := At.same rfl h
  rcases h0 with rfl | rfl
  · exact Or.inl ⟨⟨s', e, hsame⟩, h1 rfl⟩
  · exact Or.inr ⟨⟨s', e, hsame⟩, fun ho he => absurd (h2 ho he) (by decide)⟩

/-- C87, where it fails: whatever the key, the message and the signature, when the numbers `z` and `w` could be allocated and the
next request fails, `cry_ecdsa_verify` clears numbers that were never initialised. -/
theorem mem_ecdsa_verify_ub (w sp g q r t : Nat) (msg : List Byte) (hf : ∀ k, k < 2 → s.fails (s.tick + k) = false)
    (hf2 : s.fails (s.tick + 2) = true) : ecdsaVerify w sp g q r t msg s = .ub :=
  ecdsaVerify_ub w sp msg hf hf2

/-- C87, partial.  Full statement: `cry_ecdsa_sign` returns 0 with a signature made with the random number of the generator, or
reports that it cannot.  Proved: when no allocation fails, for bytes that reach the top digit and a signature that is not among
the objects of the context: with a random number `k` other than 0, `r` is the abscissa of `k G` and `s` fits.  Missing, because
false: with `k = 0` the status is 0 too, `r` is 1 and `s` is the old one; failing allocations (`mem_ecdsa_sign_lost`). -/
theorem mem_ecdsa_sign_partial (hw : DigitWidth w) (hs : Plenty s) (hg : g + 6 < sp) (hd : d < sp) (hr : r < sp) (ht : t < sp)
    (hG : DomainAt w p a b s g G n) (rd : r ≠ d) (rn : r ≠ g + 6) (rt : r ≠ t) (tn : t ≠ g + 6) (ad : (s.obj d).Shows w D)
    (ar : (s.obj r).Is w R) (at' : (s.obj t).Is w T) (msg bs : List Byte) (hl : bs.length = (n.size + 7) / 8)
    (hV : (2 ^ w) ^ ((n.size - 1) / w) ≤ beVal bs) :
    ∃ s' k, ecdsaSign w sp g d r t msg bs s = .ok (0, s') ∧ k = (beVal bs % 2 ^ (n.size - 1) + 2 ^ (n.size - 1)) % n ∧
      (s'.obj r).Is w (ptX (k • G)) ∧ (k = 0 → s'.obj t = s.obj t) ∧
      (k ≠ 0 → ∃ T', (s'.obj t).Is w T' ∧ 0 ≤ T' ∧ T' < n ∧ k * T' ≡ cutVal w n msg + D * ptX (k • G) [ZMOD n]) ∧
      (∀ v, v < sp → v ≠ r → v ≠ t → s'.obj v = s.obj v) ∧ s'.fails = s.fails ∧
      s'.live - ((s'.obj r).owns + (s'.obj t).owns) = s.live - ((s.obj r).owns + (s.obj t).owns) := by
  obtain ⟨za, hG⟩ := hG.dom
  obtain ⟨s', e, h0, h1⟩ := ecdsaSign_calm hw (K := ctxOf sp s) hs (at_now sp s) hg hd hr ht hG rd rn rt tn (fun o ho => by rw [ho]; exact ad)
    (fun o ho => by rw [ho]; exact ⟨R, V.of_is ar⟩) (fun o ho => by rw [ho]; exact ⟨T, V.of_is at'⟩) msg bs hl hV
  have bal : ∀ {E : Env}, At (ctxOf sp s) E sp s' → (∀ v, v < sp → v ≠ r → v ≠ t → s'.obj v = s.obj v) →
      s'.live - ((s'.obj r).owns + (s'.obj t).owns) = s.live - ((s.obj r).owns + (s.obj t).owns) := by
    intro E h hf
    have hb := h.bal
    have e1 := sum_change (f := fun v => (s.obj v).owns) (g := Function.update (fun v => (s.obj v).owns) r (s'.obj r).owns) hr
      fun v _ hv => by rw [Function.update_of_ne hv]
    have e2 := sum_change (f := Function.update (fun v => (s.obj v).owns) r (s'.obj r).owns) (g := fun v => (s'.obj v).owns) ht
      fun v hv hv' => by
        by_cases h1 : v = r
        · subst h1; rw [Function.update_self]
        · rw [Function.update_of_ne h1, hf v hv h1 hv']
    have : (ctxOf sp s).B = s.live - ∑ v ∈ Finset.range sp, (s.obj v).owns := rfl
    rw [Function.update_self] at e1
    rw [Function.update_of_ne (Ne.symm rt)] at e2
    rw [this] at hb
    omega
  refine ⟨s', _, e, rfl, ?_⟩
  by_cases hk : rangeVal n bs = 0
  · have h := h0 hk
    have hf : ∀ v, v < sp → v ≠ r → s'.obj v = s.obj v := fun v hv h1 => by
      have := h.objs v hv; rwa [Function.update_of_ne h1] at this
    have vr := h.objs r hr
    rw [Function.update_self] at vr
    refine ⟨?_, fun _ => hf t ht rt.symm, fun h => absurd hk h, fun v hv h1 _ => hf v hv h1, h.orc, bal h fun v hv h1 _ => hf v hv h1⟩
    have : ptX (rangeVal n bs • G) = 1 := by rw [hk, zero_nsmul]; rfl
    show (s'.obj r).Is w (ptX (rangeVal n bs • G))
    rw [this]; exact vr.is
  · obtain ⟨T', h, t0, t1, t2⟩ := h1 hk
    have vr := h.objs r hr
    rw [Function.update_of_ne rt, Function.update_self] at vr
    have vt := h.objs t ht
    rw [Function.update_self] at vt
    have hf : ∀ v, v < sp → v ≠ r → v ≠ t → s'.obj v = s.obj v := fun v hv h1 h2 => by
      have := h.objs v hv; rwa [Function.update_of_ne h2, Function.update_of_ne h1] at this
    exact ⟨vr.is, fun h => absurd h hk, fun _ => ⟨T', vt.is, t0, t1, t2⟩, hf, h.orc, bal h hf⟩

/-- C87, where it fails: whatever the context and the message, when the numbers `k` and `z` could be allocated and the next request
fails, success is reported, and the signature is whatever the objects held before. -/
theorem mem_ecdsa_sign_lost (hw : DigitWidth w) (sp g d r t : Nat) (msg bs : List Byte) (hf : ∀ k, k < 2 → s.fails (s.tick + k) = false)
    (hf2 : s.fails (s.tick + 2) = true) : EndsSame sp s (ecdsaSign w sp g d r t msg bs) 0 := by
  obtain ⟨s', e, h⟩ := ecdsaSign_lost (g := g) (d := d) (r := r) (t := t) hw (at_now sp s) msg bs hf hf2
  exact ⟨s', e, At.same rfl h⟩

/-- C87: a signature made in memory with `k ≠ 0` is accepted with the public key if and only if `s ≠ 0` and the abscissa of `k G` is
less than the order. -/
theorem mem_ecdsa_sign_verify {D : Nat} (hw : DigitWidth w) (hs : Plenty s) (hg : g + 6 < sp) (hd : d < sp) (hq : q + 2 < sp) (hr : r < sp) (ht : t < sp)
    (hG : DomainAt w p a b s g G n) (rg : r < g ∨ g + 6 < r) (tg : t < g ∨ g + 6 < t) (rq : r < q ∨ q + 2 < r) (tq : t < q ∨ q + 2 < t)
    (rd : r ≠ d) (rt : r ≠ t) (ad : (s.obj d).Shows w D) (hQ : PointAt w s q (D • G)) (hQs : StdAt p w s q)
    (ar : (s.obj r).Is w R) (at' : (s.obj t).Is w T) (msg bs : List Byte) (hl : bs.length = (n.size + 7) / 8)
    (hV : (2 ^ w) ^ ((n.size - 1) / w) ≤ beVal bs) (hk : (beVal bs % 2 ^ (n.size - 1) + 2 ^ (n.size - 1)) % n ≠ 0) :
    ∃ s' T', ecdsaSign w sp g d r t msg bs s = .ok (0, s') ∧ (s'.obj t).Is w T' ∧
      EndsSame sp s' (ecdsaVerify w sp g q r t msg)
        (if T' ≠ 0 ∧ ptX (((beVal bs % 2 ^ (n.size - 1) + 2 ^ (n.size - 1)) % n) • G) < n then 0 else -1) := by
  have addr : ∀ v, (g ≤ v ∧ v ≤ g + 6) ∨ (q ≤ v ∧ v ≤ q + 2) → v < sp ∧ v ≠ r ∧ v ≠ t := by intro v hv; omega
  obtain ⟨s', k, e, hk', hR, -, h1, hf, hF, -⟩ := mem_ecdsa_sign_partial hw hs hg hd hr ht hG rd (by omega) rt (by omega) ad ar at' msg bs hl hV
  rw [← hk'] at hk ⊢
  obtain ⟨T', hT, t0, t1, t2⟩ := h1 hk
  refine ⟨s', T', e, hT, ?_⟩
  have hsub : ∀ v, (g ≤ v ∧ v ≤ g + 6) ∨ (q ≤ v ∧ v ≤ q + 2) → s'.obj v = s.obj v := fun v hv => hf v (addr v hv).1 (addr v hv).2.1 (addr v hv).2.2
  have hc : ∀ {u : Nat} {x y z : Int}, (∀ i, i ≤ 2 → s'.obj (u + i) = s.obj (u + i)) → Coords w s u x y z → Coords w s' u x y z := by
    intro u x y z hu h
    have h0 := hu 0 (by omega); have h1 := hu 1 (by omega); have h2 := hu 2 (by omega)
    rw [Nat.add_zero] at h0
    exact ⟨by rw [h0]; exact h.1, by rw [h1]; exact h.2.1, by rw [h2]; exact h.2.2⟩
  have hG' : DomainAt w p a b s' g G n := by
    obtain ⟨⟨g1, g2⟩, ⟨x, y, z, c, o⟩, ⟨x', y', z', c', o'⟩, g5, g6, g7, g8⟩ := hG
    refine ⟨⟨by rw [hsub g (by omega)]; exact g1, by rw [hsub (g + 1) (by omega)]; exact g2⟩,
      ⟨x, y, z, hc (fun i hi => hsub _ (by omega)) c, o⟩, ⟨x', y', z', hc (fun i hi => hsub _ (by omega)) c', o'⟩, by rw [hsub (g + 6) (by omega)]; exact g5, g6, g7, g8⟩
  have hQ' : PointAt w s' q (D • G) := by
    obtain ⟨x, y, z, c, o⟩ := hQ
    exact ⟨x, y, z, hc (fun i hi => hsub _ (by omega)) c, o⟩
  have hQs' : StdAt p w s' q := by
    obtain ⟨x, y, z, c, o⟩ := hQs
    exact ⟨x, y, z, hc (fun i hi => hsub _ (by omega)) c, o⟩
  have hodd : Odd (addOrderOf (D • G)) := by
    have : Odd (addOrderOf G) := by rw [hG.order]; exact hG.prime.odd_of_ne_two hG.odd
    exact this.of_dvd_nat (addOrderOf_smul_dvd D)
  obtain ⟨m, rfl⟩ := Int.eq_ofNat_of_zero_le t0
  have key := ecdsa_equation_of_sign (d := D) (k := k) (t := m) (z := cutVal w n msg) hG.prime hG.order rfl (by exact_mod_cast t2) (by exact_mod_cast t1)
  have hm : ((m : Int) ≠ 0 ∧ ptX (k • G) < n) ↔ Ecdsa.Equation n G (D • G) (cutVal w n msg) (ptX (k • G) : Nat) (m : Nat) := by
    rw [key]; simp
  rcases mem_ecdsa_verify_partial (R := (ptX (k • G) : Nat)) (T := (m : Int)) hw (fun k => by rw [hF]; exact hs k) hg hq hr ht hG' hQ' hQs' hR.shows hT.shows msg with ⟨h1, h2⟩ | ⟨h1, h2⟩
  · rw [if_pos (hm.2 h2)]; exact h1
  · rw [if_neg fun h => h2 hodd (hm.1 h)]; exact h1

end

/-! ### Concrete cases -/

/-- The group of C51 at 0, private key 4 at 7, its public key at 8, the signature (2, 7) of [6] at 11 and 12. -/
def exEcdsa (f : Nat → Bool) : St :=
  ⟨fun v => match [17, 2, 6, 1, 3, 1, 11, 4, 11, 13, 1, 2, 7][v]? with
    | some n => exNum n
    | none => ⟨some ⟨false, 0, 8⟩, .mem true (List.replicate 8 none)⟩, f, 0, 30⟩

section
variable (f : Nat → Bool)
theorem exEcdsa_at (v n : Nat) (h : [17, 2, 6, 1, 3, 1, 11, 4, 11, 13, 1, 2, 7][v]? = some n) (h0 : 0 < n) (h1 : n < 256) : ((exEcdsa f).obj v).Is 8 n := by
  show (match [17, 2, 6, 1, 3, 1, 11, 4, 11, 13, 1, 2, 7][v]? with
    | some n => exNum n
    | none => ⟨some ⟨false, 0, 8⟩, .mem true (List.replicate 8 none)⟩ : Obj).Is 8 n
  rw [h]; exact exNum_is (by omega) h1

theorem exEcdsa_base : Coords 8 (exEcdsa f) 3 (1 : Nat) (3 : Nat) (1 : Nat) :=
  ⟨(exEcdsa_at f 3 1 rfl (by decide) (by decide)).shows, (exEcdsa_at f 4 3 rfl (by decide) (by decide)).shows, (exEcdsa_at f 5 1 rfl (by decide) (by decide)).shows⟩
theorem exEcdsa_pub : Coords 8 (exEcdsa f) 8 (11 : Nat) (13 : Nat) (1 : Nat) :=
  ⟨(exEcdsa_at f 8 11 rfl (by decide) (by decide)).shows, (exEcdsa_at f 9 13 rfl (by decide) (by decide)).shows, (exEcdsa_at f 10 1 rfl (by decide) (by decide)).shows⟩

theorem exEcdsa_dom : DomainAt 8 17 2 6 (exEcdsa f) 0 Ecdsa.toyBase 11 :=
  ⟨⟨(exEcdsa_at f 0 17 rfl (by decide) (by decide)).shows, Or.inl ⟨_, (exEcdsa_at f 1 2 rfl (by decide) (by decide)).shows, by decide⟩⟩,
    ⟨_, _, _, exEcdsa_base f, by decide, by decide, by decide⟩, ⟨_, _, _, exEcdsa_base f, Or.inr ⟨by decide, by decide, by decide, by decide, by decide⟩⟩,
    (exEcdsa_at f 6 11 rfl (by decide) (by decide)).shows, by norm_num, by decide, Ecdsa.toy_dom.order⟩

theorem exEcdsa_key : OnPt (11 : Nat) (13 : Nat) (1 : Nat) (4 • Ecdsa.toyBase) := by
  have h := Ecdsa.toy_key.pub
  generalize 4 • Ecdsa.toyBase = P at h
  cases P with
  | zero => exact absurd (show ([1] : List Nat) = [] from h) (by decide)
  | some X Y hP => exact ⟨by decide, h.2.1.2, h.2.2.2⟩
end

/-- The hypotheses of `mem_ecdsa_sign_partial`, `mem_ecdsa_verify_partial` and `mem_ecdsa_sign_verify` are met: with the byte 5,
`k` is 2; the message [6] is signed. -/
example : ∃ s' T', ecdsaSign 8 13 0 7 11 12 [6] [5] (exEcdsa fun _ => false) = .ok (0, s') ∧ (s'.obj 12).Is 8 T' ∧
    EndsSame 13 s' (ecdsaVerify 8 13 0 8 11 12 [6]) (if T' ≠ 0 ∧ ptX (2 • Ecdsa.toyBase) < 11 then 0 else -1) :=
  mem_ecdsa_sign_verify (R := (2 : Nat)) (T := (7 : Nat)) (D := 4) (Or.inl rfl) (fun _ => rfl) (by decide) (by decide) (by decide) (by decide) (by decide)
    (exEcdsa_dom _) (by decide) (by decide) (by decide) (by decide) (by decide) (by decide) (exEcdsa_at _ 7 4 rfl (by decide) (by decide)).shows
    ⟨_, _, _, exEcdsa_pub _, exEcdsa_key⟩ ⟨_, _, _, exEcdsa_pub _, Or.inr ⟨by decide, by decide, by decide, by decide, by decide⟩⟩
    (exEcdsa_at _ 11 2 rfl (by decide) (by decide)) (exEcdsa_at _ 12 7 rfl (by decide) (by decide)) [6] [5] rfl (by decide) (by decide)

/-- (2, 7) satisfies the equation for [6] and not for [7]. -/
theorem exEcdsa_eq (m : Byte) : Ecdsa.Equation 11 Ecdsa.toyBase (4 • Ecdsa.toyBase) (cutVal 8 11 [m]) (2 : Nat) (7 : Nat) ↔
    Ecdsa.verify 8 Ecdsa.toy ⟨⟨false, [2]⟩, ⟨false, [7]⟩⟩ [m] = .ok true := by
  have h2 : NatRep 8 ⟨false, [2]⟩ 2 := NatRep.digit (by omega) (by omega) (by omega)
  have h7 : NatRep 8 ⟨false, [7]⟩ 7 := NatRep.digit (by omega) (by omega) (by omega)
  rw [Ecdsa.ecdsa_verify_iff (Or.inl rfl) Ecdsa.toy Ecdsa.toy_dom Ecdsa.toy_key.pub Ecdsa.toy_key.red (Ecdsa.toy_dom.odd_smul 4) _ h2.wf h7.wf, h2.toInt, h7.toInt]
  exact Iff.rfl

/-- Both cases of `mem_ecdsa_verify_partial`. -/
example : EndsSame 13 (exEcdsa fun _ => false) (ecdsaVerify 8 13 0 8 11 12 [6]) 0 ∧ EndsSame 13 (exEcdsa fun _ => false) (ecdsaVerify 8 13 0 8 11 12 [7]) (-1) := by
  have key := fun msg => mem_ecdsa_verify_partial (w := 8) (s := exEcdsa fun _ => false) (g := 0) (q := 8) (r := 11) (t := 12) (sp := 13) (R := (2 : Nat)) (T := (7 : Nat)) (Or.inl rfl) (fun _ => rfl) (by decide) (by decide)
    (by decide) (by decide) (exEcdsa_dom _) ⟨_, _, _, exEcdsa_pub _, exEcdsa_key⟩
    ⟨_, _, _, exEcdsa_pub _, Or.inr ⟨by decide, by decide, by decide, by decide, by decide⟩⟩ (exEcdsa_at _ 11 2 rfl (by decide) (by decide)).shows
    (exEcdsa_at _ 12 7 rfl (by decide) (by decide)).shows msg
  constructor
  · rcases key [6] with ⟨h, -⟩ | ⟨-, h⟩
    · exact h
    · exact absurd ((exEcdsa_eq 6).2 (by decide +kernel)) (h (Ecdsa.toy_dom.odd_smul 4))
  · rcases key [7] with ⟨-, h⟩ | ⟨h, -⟩
    · exact absurd ((exEcdsa_eq 7).1 h) (by decide +kernel)
    · exact h

/-- The hypotheses of `mem_ecdsa_verify_ub` and `mem_ecdsa_sign_lost` are met. -/
example : ecdsaVerify 8 13 0 8 11 12 [6] (exEcdsa fun k => k == 2) = .ub ∧ EndsSame 13 (exEcdsa fun k => k == 2) (ecdsaSign 8 13 0 7 11 12 [9] [5]) 0 :=
  ⟨mem_ecdsa_verify_ub _ _ _ _ _ _ _ (by decide) rfl, mem_ecdsa_sign_lost (Or.inl rfl) _ _ _ _ _ _ _ (by decide) rfl⟩

/-- The key of `exEcdsa` with the signature (1, 7). -/
def exForged (f : Nat → Bool) : St := { exEcdsa f with obj := fun v => if v = 11 then exNum 1 else (exEcdsa f).obj v }

/-- C87, where it fails: (1, 7) is not a signature of [9], and is refused as long as no allocation fails; but if the requests for
the windows of the two multiplications fail, nothing is multiplied, both points are still the point at infinity, whose x is
set to 1, and the signature is accepted. -/
theorem mem_ecdsa_verify_forged : ¬ Ecdsa.Equation 11 Ecdsa.toyBase (4 • Ecdsa.toyBase) (cutVal 8 11 [9]) (1 : Nat) (7 : Nat) ∧
    EndsSame 13 (exForged fun _ => false) (ecdsaVerify 8 13 0 8 11 12 [9]) (-1) ∧
    ∃ s', ecdsaVerify 8 13 0 8 11 12 [9] (exForged fun k => k == 48 || k == 52) = .ok (0, s') ∧ decide (s'.live = 30) = true := by
  have h1 : NatRep 8 ⟨false, [1]⟩ 1 := NatRep.digit (by omega) (by omega) (by omega)
  have h7 : NatRep 8 ⟨false, [7]⟩ 7 := NatRep.digit (by omega) (by omega) (by omega)
  have hne : ¬ Ecdsa.Equation 11 Ecdsa.toyBase (4 • Ecdsa.toyBase) (cutVal 8 11 [9]) (1 : Nat) (7 : Nat) := by
    have h := Ecdsa.ecdsa_verify_iff (Or.inl rfl) Ecdsa.toy Ecdsa.toy_dom Ecdsa.toy_key.pub Ecdsa.toy_key.red (Ecdsa.toy_dom.odd_smul 4) ⟨⟨false, [1]⟩, ⟨false, [7]⟩⟩ h1.wf h7.wf [9]
    rw [h1.toInt, h7.toInt] at h
    intro hc
    exact absurd (h.2 hc) (by decide +kernel)
  refine ⟨hne, ?_, endsIn_ok (by decide +kernel)⟩
  have hd := exEcdsa_dom (fun _ => false)
  have key := mem_ecdsa_verify_partial (w := 8) (s := exForged fun _ => false) (g := 0) (q := 8) (r := 11) (t := 12) (sp := 13) (R := (1 : Nat)) (T := (7 : Nat)) (Or.inl rfl) (fun _ => rfl) (by decide) (by decide)
    (by decide) (by decide) ⟨hd.1, hd.2, hd.3, hd.4, hd.5, hd.6, hd.7⟩ ⟨_, _, _, exEcdsa_pub fun _ => false, exEcdsa_key⟩
    ⟨_, _, _, exEcdsa_pub fun _ => false, Or.inr ⟨by decide, by decide, by decide, by decide, by decide⟩⟩ (exNum_is (n := 1) (by decide) (by decide)).shows
    (exEcdsa_at (fun _ => false) 12 7 rfl (by decide) (by decide)).shows [9]
  rcases key with ⟨-, h⟩ | ⟨h, -⟩
  · exact absurd h hne
  · exact h

end Verif.Mem
