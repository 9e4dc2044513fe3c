import Verif.Model.Pk.Ecdsa
import Verif.Lemmas.Ecp.Unique
import Verif.Props.Ecp.Ecp
/-!
# C51: ECDSA
-/
namespace Verif.Ecdsa
open Verif.Mpi Verif.Ecp WeierstrassCurve WeierstrassCurve.Affine

variable {w p : Nat} {a b : ZMod p} [Fact p.Prime]

/-- The number a message stands for: its first bytes, as many as fit the digits of `n`. -/
def msgVal (w : Nat) (n : Mpi) (msg : List Byte) : Nat := beVal (msg.take (n.digs.length * (w / 8)))

theorem loadMsg_rep (hw : DigitWidth w) (n : Mpi) (msg : List Byte) : NatRep w (loadMsg w n msg) (msgVal w n msg) := by
  unfold loadMsg msgVal
  split_ifs with h
  · exact NatRep.loadBin hw _
  · rw [List.take_of_length_le (by omega)]; exact NatRep.loadBin hw _

/-- The domain parameters: a curve over a prime field, a base point of odd prime order `n`. -/
structure Dom (w p : Nat) (a : ZMod p) [Fact p.Prime] {b : ZMod p} (g : Grp) (G : (curve p a b).Point) (n : Nat) : Prop where
  grp : GrpRep w p a g
  base : PtRep w g.g G
  red : PtRed w p g.g
  ord : NatRep w g.n n
  prime : n.Prime
  odd : n ≠ 2
  order : addOrderOf G = n

theorem Dom.hodd {g : Grp} {G : (curve p a b).Point} {n : Nat} (h : Dom w p a g G n) : Odd (addOrderOf G) := by
  rw [h.order]; exact h.prime.odd_of_ne_two h.odd

theorem Dom.odd_smul {g : Grp} {G : (curve p a b).Point} {n : Nat} (h : Dom w p a g G n) (k : Nat) :
    Odd (addOrderOf (k • G)) :=
  h.hodd.of_dvd_nat (addOrderOf_smul_dvd k)

/-- The verification equation: with `v` an inverse of `s`, the abscissa of `(z v) G + (r v) Q` leaves the remainder `|r|`
modulo `n`. -/
def Equation (n : Nat) (G Q : (curve p a b).Point) (z : Nat) (r s : Int) : Prop :=
  ∃ v : Nat, s * v ≡ 1 [ZMOD n] ∧ ptX ((z * v % n) • G + (r * v % n).toNat • Q) % n = r.natAbs

theorem verify_steps (hw : DigitWidth w) (c : Ctx) {G Q : (curve p a b).Point} {n : Nat} (hd : Dom w p a c.grp G n)
    (hQ : PtRep w c.q Q) (hQr : PtRed w p c.q) (sig : Sig) (hr : WF (2 ^ w) sig.r) (hs : WF (2 ^ w) sig.s)
    (msg : List Byte) :
    (Int.gcd (sig.s.toInt (2 ^ w)) n ≠ 1 → verify w c sig msg = .fail) ∧
    (Int.gcd (sig.s.toInt (2 ^ w)) n = 1 → ∃ v : Nat, sig.s.toInt (2 ^ w) * v ≡ 1 [ZMOD n] ∧
      ((¬ Odd (addOrderOf Q) ∧ verify w c sig msg = .fail) ∨
      verify w c sig msg = .ok (decide (ptX ((msgVal w c.grp.n msg * v % n) • G +
        (sig.r.toInt (2 ^ w) * v % n).toNat • Q) % n = (sig.r.toInt (2 ^ w)).natAbs)))) := by
  have hn := hd.prime.pos
  obtain ⟨i1, i2⟩ := NatRep.inv_int hw hs hd.ord hn
  have hw8 := hw.pos
  constructor
  · intro h
    unfold verify
    rw [i2 h]; rfl
  · intro h
    obtain ⟨v, k, e1, n1, -, m1⟩ := i1 h
    obtain ⟨z1, e2, n2⟩ := (loadMsg_rep hw c.grp.n msg).mul hw8 false n1
    obtain ⟨z2, e3, n3⟩ := n2.mod hw hd.ord hn
    obtain ⟨v1, e4, n4, f4⟩ := mul_rep hw8 false (⟨hr.toNorm, rfl⟩ : Rep w sig.r _) n1.rep
    obtain ⟨v2, e5, n5⟩ := NatRep.mod_int hw f4 hd.ord hn
    rw [n4.2] at n5
    obtain ⟨P1, e6, r6, s6⟩ := ecp_mul_partial hw hd.grp hd.base hd.hodd n3.norm.digits
    rw [natAbs_toInt, n3.value] at r6
    have hv2 : (v2.toInt (2 ^ w)).natAbs = (sig.r.toInt (2 ^ w) * k % n).toNat := by rw [n5.toInt]; rfl
    refine ⟨k, m1, ?_⟩
    by_cases hfail : mulPt w c.q v2 c.grp = .fail
    · refine Or.inl ⟨fun hodd => ?_, ?_⟩
      · obtain ⟨P2, e7, -⟩ := ecp_mul_partial hw hd.grp hQ hodd n5.norm.digits
        rw [e7] at hfail; cases hfail
      · unfold verify
        simp only [e1, e2, e3, e4, e5, e6, hfail, call, Out.bind]
    obtain ⟨P2, e7, r7, s7⟩ := (ecp_mul_sound hw hd.grp hQ n5.norm.digits).resolve_left hfail
    rw [hv2] at r7
    obtain ⟨P3, e8, r8, -, s8⟩ := ecp_add_partial hw hd.grp r6 r7
      (fun e => e.2.1 (nsmul_two_torsion hd.hodd _ e.2.2))
    have n8 := ptRed_x r8 (s8 (s6 hd.red) (s7 hQr))
    obtain ⟨x, e9, n9⟩ := n8.mod hw hd.ord hn
    refine Or.inr ?_
    unfold verify
    simp only [e1, e2, e3, e4, e5, e6, e7, e8, e9, call, Out.bind]
    have hcmp := cmpAbs_spec (Nat.two_pow_pos w) n9.norm hr.toNorm
    rw [n9.value, ← natAbs_toInt] at hcmp
    congr 1
    rw [beq_eq_decide]
    congr 1
    apply propext
    constructor <;> intro h <;> omega

/-- What `cry_ecdsa_verify` accepts, exactly, for all candidate signatures and messages and all public keys in the group
generated by the base point: invertible `s` and the equation, with `|r|` on its right. -/
theorem ecdsa_verify_iff (hw : DigitWidth w) (c : Ctx) {G Q : (curve p a b).Point} {n : Nat} (hd : Dom w p a c.grp G n)
    (hQ : PtRep w c.q Q) (hQr : PtRed w p c.q) (hodd : Odd (addOrderOf Q)) (sig : Sig)
    (hr : WF (2 ^ w) sig.r) (hs : WF (2 ^ w) sig.s) (msg : List Byte) :
    verify w c sig msg = .ok true ↔
      Equation n G Q (msgVal w c.grp.n msg) (sig.r.toInt (2 ^ w)) (sig.s.toInt (2 ^ w)) := by
  obtain ⟨h1, h2⟩ := verify_steps hw c hd hQ hQr sig hr hs msg
  by_cases hg : Int.gcd (sig.s.toInt (2 ^ w)) n = 1
  · obtain ⟨v, m, e⟩ := h2 hg
    have e := e.resolve_left fun e => e.1 hodd
    rw [e]
    constructor
    · intro h
      by_cases hdd : ptX ((msgVal w c.grp.n msg * v % n) • G + (sig.r.toInt (2 ^ w) * v % n).toNat • Q) % n =
        (sig.r.toInt (2 ^ w)).natAbs
      · exact ⟨v, m, hdd⟩
      · rw [decide_eq_false hdd] at h; cases h
    · rintro ⟨v', m', e'⟩
      have hv : (v : Int) ≡ v' [ZMOD n] := by
        have a := m'.mul_right (v : Int)
        have b := m.mul_right (v' : Int)
        rw [one_mul] at a b
        exact a.symm.trans (by rw [mul_right_comm]; exact b)
      have e1 : msgVal w c.grp.n msg * v % n = msgVal w c.grp.n msg * v' % n :=
        ((Int.natCast_modEq_iff.1 hv).mul_left _)
      have e2 : sig.r.toInt (2 ^ w) * v % n = sig.r.toInt (2 ^ w) * v' % n := hv.mul_left _
      rw [e1, e2, decide_eq_true e']
  · rw [h1 hg]
    constructor
    · intro h; cases h
    · rintro ⟨v, m, -⟩
      exact absurd (Int.isCoprime_iff_gcd_eq_one.1 (by
        have h1 : (n : Int) ∣ sig.s.toInt (2 ^ w) * v - 1 := (Int.modEq_iff_dvd.1 m.symm)
        obtain ⟨t, ht⟩ := h1
        exact ⟨v, -t, by linarith⟩)) hg

/-- Soundness, for every public key on the curve: what is accepted has an invertible `s`, satisfies the equation, and
`|r| < n`. -/
theorem ecdsa_sound (hw : DigitWidth w) (c : Ctx) {G Q : (curve p a b).Point} {n : Nat} (hd : Dom w p a c.grp G n)
    (hQ : PtRep w c.q Q) (hQr : PtRed w p c.q) (sig : Sig) (hr : WF (2 ^ w) sig.r) (hs : WF (2 ^ w) sig.s)
    (msg : List Byte) (h : verify w c sig msg = .ok true) :
    Equation n G Q (msgVal w c.grp.n msg) (sig.r.toInt (2 ^ w)) (sig.s.toInt (2 ^ w)) ∧
      (sig.r.toInt (2 ^ w)).natAbs < n := by
  obtain ⟨h1, h2⟩ := verify_steps hw c hd hQ hQr sig hr hs msg
  by_cases hg : Int.gcd (sig.s.toInt (2 ^ w)) n = 1
  · obtain ⟨v, m, e⟩ := h2 hg
    rcases e with ⟨-, e⟩ | e
    · rw [e] at h; cases h
    · rw [e] at h
      by_cases hdd : ptX ((msgVal w c.grp.n msg * v % n) • G + (sig.r.toInt (2 ^ w) * v % n).toNat • Q) % n =
        (sig.r.toInt (2 ^ w)).natAbs
      · exact ⟨⟨v, m, hdd⟩, by rw [← hdd]; exact Nat.mod_lt _ hd.prime.pos⟩
      · rw [decide_eq_false hdd] at h; cases h
  · rw [h1 hg] at h; cases h

/-- Hence a signature whose first component is not below `n` is never accepted. -/
theorem ecdsa_large_r (hw : DigitWidth w) (c : Ctx) {G Q : (curve p a b).Point} {n : Nat} (hd : Dom w p a c.grp G n)
    (hQ : PtRep w c.q Q) (hQr : PtRed w p c.q) (sig : Sig) (hr : WF (2 ^ w) sig.r) (hs : WF (2 ^ w) sig.s)
    (msg : List Byte) (h : n ≤ (sig.r.toInt (2 ^ w)).natAbs) : verify w c sig msg ≠ .ok true := fun e =>
  absurd (ecdsa_sound hw c hd hQ hQr sig hr hs msg e).2 (by omega)

/-- A key pair: `0 ≤ d`, and the public point is `d` times the base point. -/
structure Key (w p : Nat) (a : ZMod p) [Fact p.Prime] {b : ZMod p} (c : Ctx) (G : (curve p a b).Point) (n d : Nat) : Prop where
  dom : Dom w p a c.grp G n
  pvt : NatRep w c.d d
  pub : PtRep w c.q (d • G)
  red : PtRed w p c.q

/-- What `cry_ecdsa_sign` does, for every key, message and generator output, unless the generator call itself is
undefined: it draws a number `k < n`; if this is 0, the first component is set to 1, the second is left as it was, and
success is reported; otherwise `r` is the abscissa of `k G` — not reduced modulo `n` — and `s` the remainder of
`(z + d r) / k` modulo `n`. -/
theorem ecdsa_sign_spec (hw : DigitWidth w) (c : Ctx) {G : (curve p a b).Point} {n d : Nat} (hk : Key w p a c G n d)
    (old : Sig) (msg bs : List Byte) (hl : bs.length = (countBits w c.grp.n + 7) / 8) :
    (randRange w false 8 c.grp.n bs = .ub ∧ sign w c old msg bs = .ub) ∨
    ∃ k r s, sign w c old msg bs = .ok 0 ⟨r, s⟩ ∧ k < n ∧ NatRep w r (ptX (k • G)) ∧
      (k = 0 → s = old.s) ∧
      (k ≠ 0 → ∃ m, NatRep w s m ∧ m < n ∧ k * m ≡ msgVal w c.grp.n msg + d * ptX (k • G) [MOD n]) := by
  have hn := hk.dom.prime.pos
  have hw8 := hw.pos
  rcases NatRep.randRange hw 8 hk.dom.ord hn bs hl with h | ⟨x, k, e1, n1, hkn⟩
  · exact Or.inl ⟨h, by unfold sign; rw [h]⟩
  right
  obtain ⟨X, e2, r2, s2⟩ := ecp_mul_partial hw hk.dom.grp hk.dom.base hk.dom.hodd n1.norm.digits
  rw [natAbs_toInt, n1.value] at r2
  have nr := ptRed_x r2 (s2 hk.dom.red)
  obtain ⟨i1, i2⟩ := NatRep.inv hw n1 hk.dom.ord hn
  by_cases h0 : k = 0
  · subst h0
    have hi := i2 (by rw [Nat.coprime_zero_left]; exact hk.dom.prime.one_lt.ne')
    refine ⟨0, X.x, old.s, ?_, hn, nr, fun _ => rfl, fun h => absurd rfl h⟩
    unfold sign
    simp only [e1, e2, hi]
  · obtain ⟨ki, t, e3, n3, -, m3⟩ := i1 ((Nat.Coprime.symm ((Nat.Prime.coprime_iff_not_dvd hk.dom.prime).2
      fun hd => h0 (Nat.eq_zero_of_dvd_of_lt hd hkn))))
    obtain ⟨s1, e4, n4⟩ := hk.pvt.mul hw8 old.s.neg nr
    obtain ⟨s3, e5, n5⟩ := n4.add hw8 (loadMsg_rep hw c.grp.n msg)
    obtain ⟨s4, e6, n6⟩ := n5.mul hw8 false n3
    obtain ⟨s5, e7, n7⟩ := n6.mod hw hk.dom.ord hn
    refine ⟨k, X.x, s5, ?_, hkn, nr, fun h => absurd h h0, fun _ => ⟨_, n7, Nat.mod_lt _ hn, ?_⟩⟩
    · unfold sign
      simp only [e1, e2, e3, e4, e5, e6, e7]
    · have h1 := (Nat.mod_modEq ((d * ptX (k • G) + msgVal w c.grp.n msg) * t) n).mul_left k
      refine h1.trans ?_
      have h2 := m3.mul_left (d * ptX (k • G) + msgVal w c.grp.n msg)
      rw [mul_one] at h2
      calc k * ((d * ptX (k • G) + msgVal w c.grp.n msg) * t)
          = (d * ptX (k • G) + msgVal w c.grp.n msg) * (k * t) := by ring
        _ ≡ d * ptX (k • G) + msgVal w c.grp.n msg [MOD n] := h2
        _ = msgVal w c.grp.n msg + d * ptX (k • G) := by ring

/-- C51.  Full statement: every signature made by `cry_ecdsa_sign` with a key is accepted by `cry_ecdsa_verify`.  Proved:
every signature that was made with a nonzero `k` is accepted, provided that its second component is not 0 and its first
one is below `n`; if one of these fails it is rejected.  Missing, because false: these cases (`ecdsa_x_ge_n`,
`ecdsa_k_zero`), and the undefined behaviour for groups of more than 8 digits (`ecdsa_sign_ub`). -/
theorem ecdsa_complete_partial (hw : DigitWidth w) (c : Ctx) {G : (curve p a b).Point} {n d : Nat} (hk : Key w p a c G n d)
    (msg : List Byte) (sig : Sig) {k r s : Nat} (hk0 : k < n ∧ k ≠ 0) (hr : NatRep w sig.r r) (hr' : r = ptX (k • G))
    (hs : NatRep w sig.s s) (hs' : k * s ≡ msgVal w c.grp.n msg + d * r [MOD n]) (hsn : s < n) :
    verify w c sig msg = .ok true ↔ s ≠ 0 ∧ r < n := by
  have hp := hk.dom.prime
  rw [ecdsa_verify_iff hw c hk.dom hk.pub hk.red (hk.dom.odd_smul d) sig hr.wf hs.wf msg, hr.toInt, hs.toInt]
  constructor
  · rintro ⟨v, m, e⟩
    constructor
    · rintro rfl
      rw [Nat.cast_zero, zero_mul] at m
      have := Int.natCast_modEq_iff.1 (show ((0 : Nat) : Int) ≡ ((1 : Nat) : Int) [ZMOD n] from m)
      have h1 := hp.one_lt
      rw [Nat.ModEq, Nat.zero_mod, Nat.mod_eq_of_lt h1] at this
      omega
    · rw [Int.natAbs_natCast] at e
      rw [← e]; exact Nat.mod_lt _ hp.pos
  · rintro ⟨hs0, hrn⟩
    have hco : Nat.Coprime s n := Nat.Coprime.symm ((Nat.Prime.coprime_iff_not_dvd hp).2
      fun h => hs0 (Nat.eq_zero_of_dvd_of_lt h hsn))
    obtain ⟨v, -, hv⟩ := Nat.exists_mul_mod_eq_one_of_coprime hco hp.one_lt
    have m : s * v ≡ 1 [MOD n] := by rw [Nat.ModEq, hv, Nat.mod_eq_of_lt hp.one_lt]
    refine ⟨v, by exact_mod_cast Int.natCast_modEq_iff.2 m, ?_⟩
    have e1 : ((r : Int) * v % n).toNat = r * v % n := by
      rw [← Nat.cast_mul, ← Int.natCast_mod, Int.toNat_natCast]
    rw [e1, Int.natAbs_natCast, smul_smul, ← add_nsmul]
    have hkk : msgVal w c.grp.n msg * v % n + r * v % n * d ≡ k [MOD n] := by
      have h1 : msgVal w c.grp.n msg * v % n + r * v % n * d ≡ msgVal w c.grp.n msg * v + r * v * d [MOD n] :=
        (Nat.mod_modEq _ _).add ((Nat.mod_modEq _ _).mul_right _)
      refine h1.trans ?_
      calc msgVal w c.grp.n msg * v + r * v * d = (msgVal w c.grp.n msg + d * r) * v := by ring
        _ ≡ k * s * v [MOD n] := (hs'.symm.mul_right v)
        _ = k * (s * v) := by ring
        _ ≡ k * 1 [MOD n] := m.mul_left k
        _ = k := by ring
    have : (msgVal w c.grp.n msg * v % n + r * v % n * d) • G = k • G := by
      rw [← mod_addOrderOf_nsmul, hk.dom.order, hkk, ← hk.dom.order, mod_addOrderOf_nsmul]
    rw [this, ← hr', Nat.mod_eq_of_lt hrn]

/-- Together: a signature made by `cry_ecdsa_sign` is accepted if and only if `k ≠ 0`, `s ≠ 0` and the abscissa of `k G` is
below `n` (for `k = 0` the second component is the old content of the object). -/
theorem ecdsa_sign_verify_partial (hw : DigitWidth w) (c : Ctx) {G : (curve p a b).Point} {n d : Nat}
    (hk : Key w p a c G n d) (old : Sig) (msg bs : List Byte) (hl : bs.length = (countBits w c.grp.n + 7) / 8)
    (hub : sign w c old msg bs ≠ .ub) :
    ∃ k sig, sign w c old msg bs = .ok 0 sig ∧ k < n ∧ (k = 0 → sig.s = old.s) ∧
      (k ≠ 0 → (verify w c sig msg = .ok true ↔ sig.s ≠ ⟨false, []⟩ ∧ ptX (k • G) < n)) := by
  rcases ecdsa_sign_spec hw c hk old msg bs hl with ⟨-, h⟩ | ⟨k, r, s, e, hkn, nr, h0, h1⟩
  · exact absurd h hub
  · refine ⟨k, ⟨r, s⟩, e, hkn, h0, fun hk0 => ?_⟩
    obtain ⟨m, ns, hm, heq⟩ := h1 hk0
    rw [ecdsa_complete_partial hw c hk msg ⟨r, s⟩ ⟨hkn, hk0⟩ nr rfl ns heq hm]
    have : m ≠ 0 ↔ s ≠ ⟨false, []⟩ := by
      rw [not_iff_not]
      constructor
      · rintro rfl; exact ns.unique (NatRep.zero w)
      · rintro rfl; exact ns.value.symm
    rw [this]

/-- Undefined behaviour: when `n` has more than 8 digits and the generator delivers zeros, the fresh object `k` is written
beyond its 8 digits.  Of the built-in groups secp521r1 is concerned (64-bit digits). -/
theorem ecdsa_sign_ub (hw : DigitWidth w) (c : Ctx) {n : Nat} (hn : NatRep w c.grp.n n) (h8 : 2 ^ (8 * w) ≤ n) (old : Sig)
    (msg : List Byte) : sign w c old msg (List.replicate ((countBits w c.grp.n + 7) / 8) 0#8) = .ub := by
  have hw8 := hw.pos
  have hb : 8 * w < countBits w c.grp.n := by rw [hn.countBits hw]; exact Nat.lt_size.2 h8
  have hz : NatRep w (loadBin w false (List.replicate ((countBits w c.grp.n + 7) / 8) 0#8)) 0 := by
    have := NatRep.loadBin hw (List.replicate ((countBits w c.grp.n + 7) / 8) 0#8)
    rwa [beVal_replicate_zero] at this
  have hl : (loadBin w false (List.replicate ((countBits w c.grp.n + 7) / 8) 0#8)).digs.length = 0 := by
    rw [hz.digs_nil_iff.2 rfl]; rfl
  have hr : randRange w false 8 c.grp.n (List.replicate ((countBits w c.grp.n + 7) / 8) 0#8) = .ub := by
    unfold randRange rand
    rw [if_neg (by omega)]
    dsimp only
    rw [hl, if_pos]
    have : 8 ≤ (countBits w c.grp.n - 1) / w := by rw [Nat.le_div_iff_mul_le (by omega)]; omega
    unfold grow
    split_ifs <;> omega
  unfold sign
  rw [hr]

/-! ## Example: y² = x³ + 2x + 6 modulo 17, base point (1, 3) of order 11, private key 4 -/

/-- `cry_ecdsa_keygen` makes a key pair: the private key is drawn below `n` and kept, the public point is its multiple
of the base point, and the group stays as it was; or the random call itself is undefined.  The object of the private
key must not hold a negative number. -/
theorem ecdsa_keygen (hw : DigitWidth w) (c : Ctx) {G : (curve p a b).Point} {n : Nat} (hd : Dom w p a c.grp G n)
    (hneg : c.d.neg = false) (alloc : Nat) (bs : List Byte) (hl : bs.length = (countBits w c.grp.n + 7) / 8) :
    (randRange w false alloc c.grp.n bs = .ub ∧ keygen w c alloc bs = .ub) ∨
    ∃ c' x d, randRange w false alloc c.grp.n bs = .ok x ∧ keygen w c alloc bs = .ok c' ∧ c'.grp = c.grp ∧ c'.d = x ∧
      d < n ∧ Key w p a c' G n d := by
  rcases NatRep.randRange hw alloc hd.ord hd.prime.pos bs hl with h | ⟨x, k, e1, n1, hkn⟩
  · exact Or.inl ⟨h, by unfold keygen; rw [hneg, h]⟩
  right
  obtain ⟨X, e2, r2, s2⟩ := ecp_mul_partial hw hd.grp hd.base hd.hodd n1.norm.digits
  rw [natAbs_toInt, n1.value] at r2
  exact ⟨{ c with d := x, q := X }, x, k, e1, by unfold keygen; rw [hneg, e1]; dsimp only; rw [e2]; rfl, rfl, rfl, hkn,
    hd, n1, r2, s2 hd.red⟩

/-- The context; the public key is 4 (1, 3). -/
def toy : Ctx := ⟨⟨⟨false, [17]⟩, ⟨false, [2]⟩, ⟨false, [6]⟩, ⟨⟨false, [1]⟩, ⟨false, [3]⟩, ⟨false, [1]⟩⟩, ⟨false, [11]⟩⟩,
  ⟨false, [4]⟩, ⟨⟨false, [11]⟩, ⟨false, [13]⟩, ⟨false, [1]⟩⟩⟩

theorem toy_ns : (curve 17 2 6).Nonsingular 1 3 := by
  rw [nonsingular_iff, equation_iff]
  decide

/-- The base point as an element of the group. -/
def toyBase : (curve 17 2 6).Point := .some 1 3 toy_ns

theorem toy_grp : GrpRep 8 17 2 toy.grp :=
  have h : NatRep 8 ⟨false, [2]⟩ 2 := NatRep.digit (by omega) (by omega) (by omega)
  ⟨NatRep.digit (by omega) (by omega) (by omega),
    Or.inl ⟨h.wf, by rw [show toy.grp.a = ⟨false, [2]⟩ from rfl, h.toInt]; rfl⟩⟩

theorem toyBase_rep : PtRep 8 toy.grp.g toyBase := by
  have h3 : NatRep 8 ⟨false, [3]⟩ 3 := NatRep.digit (by omega) (by omega) (by omega)
  have h1 : NatRep 8 ⟨false, [1]⟩ 1 := NatRep.digit (by omega) (by omega) (by omega)
  exact ⟨by simp [toy], ⟨h1.wf, by rw [show toy.grp.g.x = ⟨false, [1]⟩ from rfl, h1.toInt]; rfl⟩,
    ⟨h3.wf, by rw [show toy.grp.g.y = ⟨false, [3]⟩ from rfl, h3.toInt]; rfl⟩⟩

theorem toy_mul (k : Nat) (hk : k < 256) (r : Pt) (e : mulPt 8 toy.grp.g ⟨false, [k]⟩ toy.grp = .ok r) :
    PtRep 8 r (k • toyBase) := by
  have hd : Digits (2 ^ 8) [k] := by simpa [Digits] using hk
  rcases ecp_mul_sound (k := ⟨false, [k]⟩) (by simp [DigitWidth]) toy_grp toyBase_rep hd with h | ⟨r', h, h2, -⟩
  · rw [e] at h; cases h
  · rw [e] at h
    cases h
    rwa [natAbs_toInt, show val (2 ^ 8) [k] = k by simp] at h2

theorem toy_dom : Dom 8 17 2 toy.grp toyBase 11 := by
  refine ⟨toy_grp, toyBase_rep, Or.inr ⟨1, 3, NatRep.digit (by omega) (by omega) (by omega), by omega,
    NatRep.digit (by omega) (by omega) (by omega), by omega, NatRep.digit (by omega) (by omega) (by omega)⟩,
    NatRep.digit (by omega) (by omega) (by omega), by norm_num, by omega, ?_⟩
  have : Fact (Nat.Prime 11) := ⟨by norm_num⟩
  refine addOrderOf_eq_prime ?_ (Point.some_ne_zero _)
  exact (ptRep_isZero (toy_mul 11 (by omega) ⟨⟨false, [1]⟩, ⟨false, [1]⟩, ⟨false, []⟩⟩ (by decide +kernel))).1 rfl

/-- The hypotheses of the theorems are met. -/
theorem toy_key : Key 8 17 2 toy toyBase 11 4 :=
  ⟨toy_dom, NatRep.digit (by omega) (by omega) (by omega), toy_mul 4 (by omega) _ (by decide +kernel),
    Or.inr ⟨11, 13, NatRep.digit (by omega) (by omega) (by omega), by omega, NatRep.digit (by omega) (by omega) (by omega),
      by omega, NatRep.digit (by omega) (by omega) (by omega)⟩⟩

/-- The private key and public point of a context. -/
def keyOf : Out Ctx → Option (Mpi × Pt)
  | .ok c => some (c.d, c.q)
  | _ => none

/-- The key 4 and its public point from the random byte 7 (15 with the top bit set, modulo 11). -/
example : keyOf (keygen 8 { toy with d := ⟨false, [9]⟩ } 8 [7]) = some (toy.d, toy.q) := by decide +kernel

/-- The private key 0 is possible; its public point is the point at infinity. -/
theorem ecdsa_keygen_zero : keyOf (keygen 8 toy 8 [0]) =
    some (⟨false, []⟩, ⟨⟨false, [1]⟩, ⟨false, [1]⟩, ⟨false, []⟩⟩) := by
  decide +kernel

/-- An accepted signature (k = 2), which is not accepted for another message. -/
example : ∃ sig, sign 8 toy ⟨⟨false, []⟩, ⟨true, [3]⟩⟩ [6] [5] = .ok 0 sig ∧ verify 8 toy sig [6] = .ok true ∧
    verify 8 toy sig [7] = .ok false := ⟨⟨⟨false, [2]⟩, ⟨false, [7]⟩⟩, by decide +kernel⟩

/-- A rejected one: with k = 8 the abscissa of k G is 13, which is not below 11. -/
theorem ecdsa_x_ge_n : ∃ sig, sign 8 toy ⟨⟨false, []⟩, ⟨false, []⟩⟩ [6] [8] = .ok 0 sig ∧ sig.r = ⟨false, [13]⟩ ∧
    verify 8 toy sig [6] = .ok false := ⟨⟨⟨false, [13]⟩, ⟨false, [10]⟩⟩, by decide +kernel⟩

/-- With k = 0 success is reported, `r` is 1 and `s` is the old content of the object: here 3, which is not accepted. -/
theorem ecdsa_k_zero : sign 8 toy ⟨⟨false, [9]⟩, ⟨false, [3]⟩⟩ [6] [3] = .ok 0 ⟨⟨false, [1]⟩, ⟨false, [3]⟩⟩ ∧
    verify 8 toy ⟨⟨false, [1]⟩, ⟨false, [3]⟩⟩ [6] = .ok false := by decide +kernel

/-- `s` may be replaced by `s + n`. -/
theorem ecdsa_large_s : verify 8 toy ⟨⟨false, [2]⟩, ⟨false, [18]⟩⟩ [6] = .ok true := by decide +kernel

end Verif.Ecdsa
