import Verif.Props.Pk.Dh
import Verif.Props.Pk.Ecdh
/-!
# C111: values received from a peer

The full statement: finishing a key exchange fails when the value received is not one an honest peer could have sent: in Diffie-Hellman a
number outside of 2 … p - 2, in elliptic-curve Diffie-Hellman infinity or a point that is not on the curve.  It is false of every such value in
Diffie-Hellman, and of all points of odd order of every other curve with the same `a`; what is computed with them is proved.
-/
namespace Verif.Dh
open Verif.Mpi

/-- C111, where it fails: the secret after 0, 1 or -1 modulo `p` is known to everyone; after -1 it tells whether the exponent is even. -/
theorem dh_weak_peer {w : Nat} (hw : DigitWidth w) {c : Ctx} {p : Nat} {g : Int} {e : Nat} (hc : Party w c p g e) (h1 : 1 < p) (n : Nat) (hn : p ≤ 256 ^ n) :
    ∃ tok c', start w c n = some (tok, c') ∧ ∀ peer : List Byte, ∃ sec c'', finish w c' peer n = some (sec, c'') ∧ sec.length = n ∧
      (beVal peer % p = 0 → beVal sec = if e = 0 then 1 else 0) ∧ (beVal peer % p = 1 → beVal sec = 1) ∧
      (beVal peer % p = p - 1 → beVal sec = if e % 2 = 0 then 1 else p - 1) := by
  obtain ⟨tok, c', s1, -, -, s2⟩ := exchange hw hc (by omega) (Or.inr (by omega)) n hn
  refine ⟨tok, c', s1, fun peer => ?_⟩
  obtain ⟨sec, c'', f1, f2, f3, -⟩ := s2 peer
  refine ⟨sec, c'', f1, f2, fun h => ?_, fun h => ?_, fun h => ?_⟩
  · rw [f3, Nat.pow_mod, h]
    split
    · next h0 => rw [h0, pow_zero, Nat.mod_eq_of_lt h1]
    · next h0 => rw [zero_pow h0, Nat.zero_mod]
  · rw [f3, Nat.pow_mod, h, one_pow, Nat.mod_eq_of_lt h1]
  · rw [f3, Nat.pow_mod, h]
    obtain ⟨q, rfl⟩ : ∃ q, p = q + 2 := ⟨p - 2, by omega⟩
    have hq : (q + 2 - 1) ^ 2 % (q + 2) = 1 := by
      rw [show q + 2 - 1 = q + 1 by omega, show (q + 1) ^ 2 = (q + 2) * q + 1 by ring, Nat.mul_add_mod, Nat.mod_eq_of_lt h1]
    have he : ∀ k, (q + 2 - 1) ^ (2 * k) % (q + 2) = 1 := fun k => by rw [pow_mul, Nat.pow_mod, hq, one_pow, Nat.mod_eq_of_lt h1]
    rcases Nat.mod_two_eq_zero_or_one e with h2 | h2
    · rw [if_pos h2, show e = 2 * (e / 2) by omega, he]
    · rw [if_neg (by omega), show e = 2 * (e / 2) + 1 by omega, pow_succ, Nat.mul_mod, he, one_mul, Nat.mod_mod, Nat.mod_eq_of_lt (by omega)]

/-- The modulus 23 and the exponent 7: the peer sends 22, and the secret is 22. -/
example : Party 8 ⟨⟨false, [23]⟩, ⟨false, [5]⟩, ⟨false, [7]⟩, ⟨false, []⟩, ⟨false, []⟩⟩ 23 5 7 ∧
    ∃ c c', start 8 ⟨⟨false, [23]⟩, ⟨false, [5]⟩, ⟨false, [7]⟩, ⟨false, []⟩, ⟨false, []⟩⟩ 1 = some ([17], c) ∧ finish 8 c [22] 1 = some ([22], c') := by
  refine ⟨⟨NatRep.digit (by omega) (by omega) (by omega), ⟨(NatRep.digit (by omega) (by omega) (by omega)).wf, by decide +kernel⟩,
    NatRep.digit (by omega) (by omega) (by omega)⟩, _, _, rfl, rfl⟩

end Verif.Dh

namespace Verif.Ecdh
open Verif.Mpi Verif.Ecp WeierstrassCurve WeierstrassCurve.Affine

variable {w p : Nat} {a b b' : ZMod p} [Fact p.Prime]

/-- C111, where it fails: infinity is taken, and is the result. -/
theorem ecdh_infinity (hw : DigitWidth w) (c : Ctx) (hg : GrpRep w p a c.ec) (hq : c.q.z.digs = []) {d : Nat} (hd : NatRep w c.d d) :
    ∃ z, final w c = .ok { c with z := z } ∧ z.z.digs = [] := by
  have h0 : PtRep w c.q (0 : (curve p a 0).Point) := hq
  obtain ⟨r, e1, e2, -⟩ := ecp_mul_partial hw hg h0 (by rw [addOrderOf_zero]; decide) hd.norm.digits
  refine ⟨r, by simp only [final, e1, Out.bind], ?_⟩
  have hz : (c.d.toInt (2 ^ w)).natAbs • (0 : (curve p a 0).Point) = 0 := nsmul_zero _
  rw [hz] at e2
  exact e2

/-- C111, where it fails: a point of any other curve with the same `a`, of odd order, is taken, and the result is its multiple on that curve.  It depends
on no more of the secret than the remainder modulo the order of the point. -/
theorem ecdh_off_curve (hw : DigitWidth w) (c : Ctx) (hg : GrpRep w p a c.ec) (_ : CoefRep w p c.ec.b b) (hne : b' ≠ b) {X Y : ZMod p}
    (h : (curve p a b').Nonsingular X Y) (hq : PtRep w c.q (Point.some X Y h)) (hodd : Odd (addOrderOf (Point.some X Y h))) {d : Nat} (hd : NatRep w c.d d) :
    ¬ (curve p a b).Equation X Y ∧
      ∃ z, final w c = .ok { c with z := z } ∧ PtRep w z ((d % addOrderOf (Point.some X Y h)) • Point.some X Y h) := by
  refine ⟨fun h' => hne ?_, ?_⟩
  · have h1 := h.1
    rw [equation_iff] at h' h1
    simp only [zero_mul, add_zero] at h' h1
    exact (add_left_cancel (h'.symm.trans h1)).symm
  · obtain ⟨r, e1, e2, -⟩ := ecp_mul_partial hw hg hq hodd hd.norm.digits
    refine ⟨r, by simp only [final, e1, Out.bind], ?_⟩
    rw [mod_addOrderOf_nsmul]
    rwa [hd.toInt] at e2

/-- C111: a point of any other curve and of any order: an error, which is that of `cry_ecp_mul` (C56), or the multiple on that curve. -/
theorem ecdh_off_curve_any (hw : DigitWidth w) (c : Ctx) (hg : GrpRep w p a c.ec) {P : (curve p a b').Point} (hq : PtRep w c.q P) {d : Nat} (hd : NatRep w c.d d) :
    final w c = .fail ∨ ∃ z, final w c = .ok { c with z := z } ∧ PtRep w z ((d % addOrderOf P) • P) := by
  rcases ecp_mul_sound hw hg hq hd.norm.digits with h | ⟨r, e1, e2, -⟩
  · exact Or.inl (by simp only [final, h, Out.bind])
  · refine Or.inr ⟨r, by simp only [final, e1, Out.bind], ?_⟩
    rw [mod_addOrderOf_nsmul]
    rwa [hd.toInt] at e2

/-! The point (3, 2) is on y² = x³ + 2x + 5 modulo 17 and has order 3. -/

theorem offPt_ns : (curve 17 2 5).Nonsingular 3 2 := by
  rw [nonsingular_iff, equation_iff]
  decide

def offCtx (d : Nat) : Ctx := { toyCtx d with q := ⟨⟨false, [3]⟩, ⟨false, [2]⟩, ⟨false, [1]⟩⟩ }

theorem offPt_rep (d : Nat) : PtRep 8 (offCtx d).q (Point.some 3 2 offPt_ns) := by
  have h3 : NatRep 8 ⟨false, [3]⟩ 3 := NatRep.digit (by omega) (by omega) (by omega)
  have h2 : NatRep 8 ⟨false, [2]⟩ 2 := NatRep.digit (by omega) (by omega) (by omega)
  exact ⟨by simp [offCtx], ⟨h3.wf, by rw [show (offCtx d).q.x = ⟨false, [3]⟩ from rfl, h3.toInt]; rfl⟩,
    ⟨h2.wf, by rw [show (offCtx d).q.y = ⟨false, [2]⟩ from rfl, h2.toInt]; rfl⟩⟩

theorem offPt_order : addOrderOf (Point.some 3 2 offPt_ns) = 3 := by
  have : Fact (Nat.Prime 3) := ⟨by norm_num⟩
  refine addOrderOf_eq_prime ?_ (Point.some_ne_zero _)
  have hk : Digits (2 ^ 8) [3] := by simp [Digits]
  have e : mulPt 8 (offCtx 0).q ⟨false, [3]⟩ toyG = .ok ⟨⟨false, [1]⟩, ⟨false, [1]⟩, ⟨false, []⟩⟩ := by decide +kernel
  rcases ecp_mul_sound (k := ⟨false, [3]⟩) (by simp [DigitWidth]) toyG_rep (offPt_rep 0) hk with h | ⟨r, h, h2, -⟩
  · rw [e] at h; cases h
  · rw [e] at h
    cases h
    have := (ptRep_isZero h2).1 rfl
    rwa [natAbs_toInt] at this

/-- The secret 14 on the curve y² = x³ + 2x + 2: the result is the double of the point. -/
example : (¬ (curve 17 2 2).Equation 3 2) ∧ (∃ z, final 8 (offCtx 14) = .ok { offCtx 14 with z := z } ∧ PtRep 8 z (2 • Point.some 3 2 offPt_ns)) ∧
    final 8 (offCtx 14) = .ok { offCtx 14 with z := ⟨⟨false, [3]⟩, ⟨false, [15]⟩, ⟨false, [1]⟩⟩ } := by
  have h2 : NatRep 8 ⟨false, [2]⟩ 2 := NatRep.digit (by omega) (by omega) (by omega)
  have := ecdh_off_curve (by simp [DigitWidth]) (offCtx 14) toyG_rep (b := 2) (Or.inl ⟨h2.wf, by rw [show (offCtx 14).ec.b = ⟨false, [2]⟩ from rfl, h2.toInt]; rfl⟩)
    (by decide) offPt_ns (offPt_rep 14) (by rw [offPt_order]; decide) (d := 14) (NatRep.digit (by omega) (by omega) (by omega))
  rw [offPt_order] at this
  have e : mulPt 8 (offCtx 14).q (offCtx 14).d (offCtx 14).ec = .ok ⟨⟨false, [3]⟩, ⟨false, [15]⟩, ⟨false, [1]⟩⟩ := by decide +kernel
  exact ⟨this.1, this.2, by rw [final, e]; rfl⟩

end Verif.Ecdh
