import Verif.Model.Pk.Dsa
import Verif.Props.Pk.Dh
import Mathlib.Data.Nat.Prime.Basic
import Mathlib.Data.Nat.ModEq
import Mathlib.Tactic.Ring
/-!
# C48, C49: DSA
-/
namespace Verif.Dsa
open Verif.Mpi

/-- The number a message stands for: its first bytes, as many as fit the digits of `q`. -/
def msgVal (w : Nat) (q : Mpi) (msg : List Byte) : Nat := beVal (msg.take (q.digs.length * (w / 8)))

theorem loadMsg_rep {w : Nat} (hw : DigitWidth w) (q : Mpi) (msg : List Byte) :
    NatRep w (loadMsg w q msg) (msgVal w q msg) := by
  unfold loadMsg msgVal
  split_ifs with h
  · exact NatRep.loadBin hw _
  · rw [List.take_of_length_le (by omega)]; exact NatRep.loadBin hw _

/-- Public parameters and key: `p > 1`, `q > 0`, base and public key any integers. -/
structure Pub (w : Nat) (c : Ctx) (p q : Nat) (g y : Int) : Prop where
  pR : NatRep w c.p p
  qR : NatRep w c.q q
  gR : WF (2 ^ w) c.g ∧ c.g.toInt (2 ^ w) = g
  yR : WF (2 ^ w) c.pub ∧ c.pub.toInt (2 ^ w) = y
  hp : 1 < p
  hq : 0 < q

/-- The verification equation, for `v` an inverse of `s` modulo `q`. -/
def Equation (p q : Nat) (g y : Int) (z : Nat) (r s : Int) : Prop :=
  ∃ v : Nat, s * v ≡ 1 [ZMOD q] ∧ (g ^ (z * v % q) * y ^ ((r * v % q).toNat)) % p % q = |r|

theorem verify_steps {w : Nat} (hw : DigitWidth w) (c : Ctx) {p q : Nat} {g y : Int} (hc : Pub w c p q g y) (sig : Sig)
    (hr : WF (2 ^ w) sig.r) (hs : WF (2 ^ w) sig.s) (msg : List Byte) :
    (Int.gcd (sig.s.toInt (2 ^ w)) q ≠ 1 → verifySteps w c sig msg = none) ∧
    (Int.gcd (sig.s.toInt (2 ^ w)) q = 1 → ∃ v : Nat, sig.s.toInt (2 ^ w) * v ≡ 1 [ZMOD q] ∧
      verifySteps w c sig msg = some (decide ((g ^ (msgVal w c.q msg * v % q) *
        y ^ ((sig.r.toInt (2 ^ w) * v % q).toNat)) % p % q = |sig.r.toInt (2 ^ w)|))) := by
  obtain ⟨i1, i2⟩ := NatRep.inv_int hw hs hc.qR hc.hq
  have hw8 := hw.pos
  constructor
  · intro h
    unfold verifySteps
    simp [i2 h]
  · intro h
    obtain ⟨v, k, e1, n1, -, m1⟩ := i1 h
    obtain ⟨z1, e2, n2⟩ := (loadMsg_rep hw c.q msg).mul hw8 false n1
    obtain ⟨z2, e3, n3⟩ := n2.mod hw hc.qR hc.hq
    obtain ⟨v1, e4, n4, f4⟩ := mul_rep hw8 false (⟨hr.toNorm, rfl⟩ : Rep w sig.r _) n1.rep
    obtain ⟨v2, e5, n5⟩ := NatRep.mod_int hw f4 hc.qR hc.hq
    rw [n4.2] at n5
    obtain ⟨u1, e6, n6⟩ := Dh.modExp_int hw hc.gR.1 n3 hc.pR (Or.inr (by have := hc.hp; omega)) (by have := hc.hp; omega)
    obtain ⟨u2, e7, n7⟩ := Dh.modExp_int hw hc.yR.1 n5 hc.pR (Or.inr (by have := hc.hp; omega)) (by have := hc.hp; omega)
    rw [hc.gR.2] at n6
    rw [hc.yR.2] at n7
    obtain ⟨u3, e8, n8⟩ := n6.mul hw8 false n7
    obtain ⟨u4, e9, n9⟩ := n8.mod hw hc.pR (by have := hc.hp; omega)
    obtain ⟨u5, e10, n10⟩ := n9.mod hw hc.qR hc.hq
    refine ⟨k, m1, ?_⟩
    unfold verifySteps
    simp only [e1, e2, e3, e4, e5, e6, e7, e8, e9, e10, Option.bind_eq_bind, Option.bind_some]
    have hcmp := cmpAbs_spec (Nat.two_pow_pos w) n10.norm hr.toNorm
    rw [n10.value, ← natAbs_toInt] at hcmp
    generalize sig.r.toInt (2 ^ w) = r at *
    generalize hA : g ^ (msgVal w c.q msg * k % q) = A at *
    generalize hB : y ^ ((r * k % q).toNat) = B at *
    have hp0 : (p : Int) ≠ 0 := by have := hc.hp; omega
    have hval : (((A % p).toNat * (B % p).toNat % p % q : Nat) : Int) = A * B % p % q := by
      have h1 := Int.emod_nonneg A hp0
      have h2 := Int.emod_nonneg B hp0
      push_cast
      rw [Int.toNat_of_nonneg h1, Int.toNat_of_nonneg h2, ← Int.mul_emod]
    congr 1
    rw [← hval, Int.abs_eq_natAbs, beq_eq_decide]
    congr 1
    apply propext
    constructor
    · intro h; have : (A % p).toNat * (B % p).toNat % p % q = r.natAbs := by omega
      rw [this]
    · intro h
      have : (A % p).toNat * (B % p).toNat % p % q = r.natAbs := by exact_mod_cast h
      omega

/-- What `cry_dsa_verify` accepts, exactly, for all keys, messages and candidate signatures: everything whose second
component has no inverse, and otherwise what satisfies the equation with `|r|` on the right. -/
theorem dsa_verify_iff {w : Nat} (hw : DigitWidth w) (c : Ctx) {p q : Nat} {g y : Int} (hc : Pub w c p q g y) (sig : Sig)
    (hr : WF (2 ^ w) sig.r) (hs : WF (2 ^ w) sig.s) (msg : List Byte) : verify w c sig msg = 0 ↔
      Int.gcd (sig.s.toInt (2 ^ w)) q ≠ 1 ∨
        Equation p q g y (msgVal w c.q msg) (sig.r.toInt (2 ^ w)) (sig.s.toInt (2 ^ w)) := by
  obtain ⟨h1, h2⟩ := verify_steps hw c hc sig hr hs msg
  by_cases hg : Int.gcd (sig.s.toInt (2 ^ w)) q = 1
  · obtain ⟨v, m, e⟩ := h2 hg
    unfold verify
    rw [e]
    constructor
    · intro h
      right
      by_cases hd : (g ^ (msgVal w c.q msg * v % q) * y ^ ((sig.r.toInt (2 ^ w) * v % q).toNat)) % p % q =
          |sig.r.toInt (2 ^ w)|
      · exact ⟨v, m, hd⟩
      · rw [decide_eq_false hd] at h; simp at h
    · rintro (h | ⟨v', m', e'⟩)
      · exact absurd hg h
      · have hv : (v : Int) ≡ v' [ZMOD q] := by
          have a := m'.mul_right (v : Int)
          have b := m.mul_right (v' : Int)
          rw [one_mul] at a b
          exact a.symm.trans (by rw [mul_right_comm]; exact b)
        have e1 : msgVal w c.q msg * v % q = msgVal w c.q msg * v' % q :=
          ((Int.natCast_modEq_iff.1 hv).mul_left _)
        have e2 : sig.r.toInt (2 ^ w) * v % q = sig.r.toInt (2 ^ w) * v' % q := hv.mul_left _
        rw [e1, e2, decide_eq_true e']
  · constructor
    · intro _; left; exact hg
    · intro _; unfold verify; rw [h1 hg]

/-- Full statement: verification succeeds only if `0 < r < q`, `0 < s < q` and the equation holds.  Proved: if it
succeeds for an `s` that is invertible modulo `q`, then the equation holds and `|r| < q`.  Missing, because false: the
case of the other `s`, where everything is accepted (`dsa_forgery`), the positivity of `r` (`dsa_zero_r`) and the
bounds of `s` (`dsa_large_s`). -/
theorem dsa_sound_partial {w : Nat} (hw : DigitWidth w) (c : Ctx) {p q : Nat} {g y : Int} (hc : Pub w c p q g y)
    (sig : Sig) (hr : WF (2 ^ w) sig.r) (hs : WF (2 ^ w) sig.s) (msg : List Byte) (h : verify w c sig msg = 0)
    (hg : Int.gcd (sig.s.toInt (2 ^ w)) q = 1) :
    Equation p q g y (msgVal w c.q msg) (sig.r.toInt (2 ^ w)) (sig.s.toInt (2 ^ w)) ∧ |sig.r.toInt (2 ^ w)| < q := by
  rcases (dsa_verify_iff hw c hc sig hr hs msg).1 h with h | h
  · exact absurd hg h
  · refine ⟨h, ?_⟩
    obtain ⟨v, -, e⟩ := h
    rw [← e]
    exact Int.emod_lt_of_pos _ (by have := hc.hq; omega)

/-- Forgery: the signature `(r, 0)` is accepted for every message, every `r` and every key with `q > 1`. -/
theorem dsa_forgery {w : Nat} (hw : DigitWidth w) (c : Ctx) {p q : Nat} {g y : Int} (hc : Pub w c p q g y) (h1 : 1 < q)
    (r : Mpi) (hr : WF (2 ^ w) r) (msg : List Byte) : verify w c ⟨r, ⟨false, []⟩⟩ msg = 0 := by
  refine (dsa_verify_iff hw c hc ⟨r, ⟨false, []⟩⟩ hr (NatRep.zero w).wf msg).2 (Or.inl ?_)
  rw [(NatRep.zero w).toInt]
  simp only [Nat.cast_zero, Int.gcd_zero_left, Int.natAbs_natCast]
  omega

/-- `s` may be replaced by any number with the same remainder. -/
theorem dsa_large_s {w : Nat} (hw : DigitWidth w) (c : Ctx) {p q : Nat} {g y : Int} (hc : Pub w c p q g y)
    (r s s' : Mpi) (hr : WF (2 ^ w) r) (hs : WF (2 ^ w) s) (hs' : WF (2 ^ w) s')
    (h : s.toInt (2 ^ w) ≡ s'.toInt (2 ^ w) [ZMOD q]) (msg : List Byte) :
    verify w c ⟨r, s⟩ msg = 0 ↔ verify w c ⟨r, s'⟩ msg = 0 := by
  rw [dsa_verify_iff hw c hc ⟨r, s⟩ hr hs, dsa_verify_iff hw c hc ⟨r, s'⟩ hr hs']
  have hgcd : Int.gcd (s.toInt (2 ^ w)) q = Int.gcd (s'.toInt (2 ^ w)) q := by
    rw [← Int.gcd_emod, h, Int.gcd_emod]
  have heq : ∀ a b : Int, a ≡ b [ZMOD q] → Equation p q g y (msgVal w c.q msg) (r.toInt (2 ^ w)) a →
      Equation p q g y (msgVal w c.q msg) (r.toInt (2 ^ w)) b := by
    rintro a b hab ⟨v, m, e⟩
    exact ⟨v, (hab.symm.mul_right _).trans m, e⟩
  rw [hgcd]
  exact or_congr Iff.rfl ⟨heq _ _ h, heq _ _ h.symm⟩

/-- Parameters p = 11, q = 5, g = 3, private key 2, public key 9. -/
def toy : Ctx := ⟨⟨false, [11]⟩, ⟨false, [5]⟩, ⟨false, [3]⟩, ⟨false, [2]⟩, ⟨false, [9]⟩⟩

theorem toy_pub : Pub 8 toy 11 5 3 9 :=
  ⟨NatRep.digit (by omega) (by omega) (by omega), NatRep.digit (by omega) (by omega) (by omega),
    ⟨(NatRep.digit (by omega) (by omega) (by omega)).wf, by decide +kernel⟩,
    ⟨(NatRep.digit (by omega) (by omega) (by omega)).wf, by decide +kernel⟩, by omega, by omega⟩

/-- The component `r = 0` can be accepted, with `s` invertible. -/
theorem dsa_zero_r : verify 8 toy ⟨⟨false, []⟩, ⟨false, [1]⟩⟩ [3] = 0 := by decide +kernel

/-- Acceptance and rejection both happen with invertible `s`. -/
example : verify 8 toy ⟨⟨false, [4]⟩, ⟨false, [2]⟩⟩ [6] = 0 ∧ verify 8 toy ⟨⟨false, [4]⟩, ⟨false, [2]⟩⟩ [7] = -1 := by
  decide +kernel

/-- Exponents may be reduced modulo the order. -/
theorem pow_congr {p q g a b : Nat} (hg : g ^ q ≡ 1 [MOD p]) (h : a ≡ b [MOD q]) : g ^ a ≡ g ^ b [MOD p] := by
  have key : ∀ a, g ^ a ≡ g ^ (a % q) [MOD p] := by
    intro a
    conv_lhs => rw [← Nat.div_add_mod a q, pow_add, pow_mul]
    have := (hg.pow (a / q)).mul_right (g ^ (a % q))
    rwa [one_pow, one_mul] at this
  have := key b
  rw [← show a % q = b % q from h] at this
  exact (key a).trans this.symm

/-- A key pair: `q` prime, `g` of order dividing `q`, public key `g^x`. -/
structure Key (w : Nat) (c : Ctx) (p q g x : Nat) : Prop where
  pR : NatRep w c.p p
  qR : NatRep w c.q q
  gR : NatRep w c.g g
  xR : NatRep w c.pvt x
  yR : NatRep w c.pub (g ^ x % p)
  hp : 1 < p
  hq : q.Prime
  orderR : g ^ q ≡ 1 [MOD p]

theorem secretGen_spec {w : Nat} (hw : DigitWidth w) {qm : Mpi} {q : Nat} (hq : NatRep w qm q) (h1 : 1 < q)
    (bs : List Byte) (hl : bs.length = (countBits w qm + 7) / 8) :
    (rand w false 8 (countBits w qm) bs = .ub ∧ secretGen w qm bs = .ub) ∨
      ∃ x k, secretGen w qm bs = .ok x ∧ NatRep w x k ∧ 0 < k ∧ k < q := by
  have hw8 := hw.pos
  obtain ⟨t, e1, n1⟩ := hq.sub hw8 (NatRep.one hw8) (by omega)
  unfold secretGen
  rw [e1]
  dsimp only
  rcases NatRep.rand hw 8 _ bs hl with h | ⟨x, k, h, n2⟩
  · left; rw [h]; exact ⟨rfl, rfl⟩
  · right
    rw [h]
    dsimp only
    obtain ⟨y, e3, n3⟩ := n2.mod hw n1 (by omega)
    rw [e3]
    dsimp only
    obtain ⟨z, e4, n4⟩ := n3.add hw8 (NatRep.one hw8)
    rw [e4]
    have := Nat.mod_lt k (show 0 < q - 1 by omega)
    exact ⟨z, _, rfl, n4, by omega, by omega⟩

/-- Signing, for every message and all bytes of the generator: `r = (g^k mod p) mod q` and `k·s = z + x·r` modulo `q`
for some `0 < k < q`; both are below `q`.  The only other outcome is the access outside an object in the random number
function, which cannot happen when `q` has at most eight digits. -/
theorem dsa_sign_spec {w : Nat} (hw : DigitWidth w) (c : Ctx) {p q g x : Nat} (hc : Key w c p q g x) (old : Sig)
    (msg bs : List Byte) (hl : bs.length = (countBits w c.q + 7) / 8) :
    (sign w c old msg bs = .ub ∧ 2 ^ (8 * w) ≤ q) ∨
    ∃ sig k r s, sign w c old msg bs = .ok 0 sig ∧ NatRep w sig.r r ∧ NatRep w sig.s s ∧ 0 < k ∧ k < q ∧
      r = g ^ k % p % q ∧ s < q ∧ k * s ≡ msgVal w c.q msg + x * r [MOD q] := by
  have hw8 := hw.pos
  have hp := hc.hp
  have hq := hc.hq.one_lt
  unfold sign
  dsimp only
  rcases secretGen_spec hw hc.qR hq bs hl with ⟨h1, h2⟩ | ⟨k, kv, e1, n1, k0, kq⟩
  · left
    rw [h2]
    refine ⟨rfl, ?_⟩
    by_contra hlt
    refine rand_ne_ub 8 (countBits w c.q) bs false ?_ (by omega) h1
    rw [hc.qR.countBits hw, Nat.size_le]
    omega
  · right
    rw [e1]
    dsimp only
    obtain ⟨r, e2, n2⟩ := hc.gR.modExp hw n1 hc.pR hp
    rw [e2]
    dsimp only
    obtain ⟨r1, e3, n3⟩ := n2.mod hw hc.qR (by omega)
    rw [e3]
    dsimp only
    have hcop : Nat.Coprime kv q := (Nat.coprime_of_lt_prime (by omega) kq hc.hq).symm
    obtain ⟨ki, iv, e4, n4, i4, m4⟩ := (n1.inv hw hc.qR (by omega)).1 hcop
    rw [e4]
    dsimp only
    obtain ⟨s1, e5, n5⟩ := hc.xR.mul hw8 old.s.neg n3
    rw [e5]
    dsimp only
    obtain ⟨s2, e6, n6⟩ := n5.add hw8 (loadMsg_rep hw c.q msg)
    rw [e6]
    dsimp only
    obtain ⟨s3, e7, n7⟩ := n6.mul hw8 false n4
    rw [e7]
    dsimp only
    obtain ⟨s4, e8, n8⟩ := n7.mod hw hc.qR (by omega)
    rw [e8]
    refine ⟨⟨r1, s4⟩, kv, _, _, rfl, n3, n8, k0, kq, rfl, Nat.mod_lt _ (by omega), ?_⟩
    have h1 : kv * ((x * (g ^ kv % p % q) + msgVal w c.q msg) * iv % q) ≡
        kv * ((x * (g ^ kv % p % q) + msgVal w c.q msg) * iv) [MOD q] := (Nat.mod_modEq _ _).mul_left _
    refine h1.trans ?_
    have h2 := m4.mul_left (x * (g ^ kv % p % q) + msgVal w c.q msg)
    rw [mul_one] at h2
    rw [Nat.add_comm (msgVal w c.q msg)]
    rw [show kv * ((x * (g ^ kv % p % q) + msgVal w c.q msg) * iv) =
      (x * (g ^ kv % p % q) + msgVal w c.q msg) * (kv * iv) by ring]
    exact h2

/-- Every signature made is accepted, for all keys, messages, nonces and contents of the objects before; and when its
`s` is not 0 the verification equation holds. -/
theorem dsa_complete {w : Nat} (hw : DigitWidth w) (c : Ctx) {p q g x : Nat} (hc : Key w c p q g x) (old : Sig)
    (msg bs : List Byte) (hl : bs.length = (countBits w c.q + 7) / 8) (res : Int) (sig : Sig)
    (h : sign w c old msg bs = .ok res sig) :
    res = 0 ∧ verify w c sig msg = 0 ∧ (sig.s.toInt (2 ^ w) ≠ 0 →
      Equation p q g (g ^ x % p : Nat) (msgVal w c.q msg) (sig.r.toInt (2 ^ w)) (sig.s.toInt (2 ^ w))) := by
  have hp := hc.hp
  have hq := hc.hq.one_lt
  rcases dsa_sign_spec hw c hc old msg bs hl with ⟨h1, -⟩ | ⟨sig', k, r, s, h1, nr, ns, k0, kq, er, hs, hk⟩
  · rw [h1] at h; cases h
  · rw [h1] at h
    cases h
    have hpub : Pub w c p q (g : Int) ((g ^ x % p : Nat) : Int) :=
      ⟨hc.pR, hc.qR, ⟨hc.gR.wf, hc.gR.toInt⟩, ⟨hc.yR.wf, hc.yR.toInt⟩, hp, by omega⟩
    have heq : s ≠ 0 → Equation p q (g : Int) ((g ^ x % p : Nat) : Int) (msgVal w c.q msg) (r : Int) (s : Int) := by
      intro hs0
      have hcop : Nat.Coprime s q := (Nat.coprime_of_lt_prime (by omega) hs hc.hq).symm
      obtain ⟨v, -, hv⟩ := Nat.exists_mul_mod_eq_one_of_coprime hcop hq
      have hv' : s * v ≡ 1 [MOD q] := by
        show s * v % q = 1 % q
        rw [hv, Nat.mod_eq_of_lt hq]
      refine ⟨v, by exact_mod_cast (Int.natCast_modEq_iff.2 hv'), ?_⟩
      generalize hz : msgVal w c.q msg = z at *
      have hkv : z * v + x * (r * v) ≡ k [MOD q] := by
        have a := (hk.symm.mul_right v)
        rw [Nat.add_mul] at a
        have b := hv'.mul_left k
        rw [mul_one] at b
        rw [show z * v + x * (r * v) = z * v + x * r * v by ring]
        refine a.trans ?_
        rw [show k * s * v = k * (s * v) by ring]
        exact b
      have hexp : g ^ (z * v % q) * (g ^ x % p) ^ (r * v % q) ≡ g ^ k [MOD p] := by
        have a : (g ^ x % p) ^ (r * v % q) ≡ g ^ (x * (r * v % q)) [MOD p] := by
          rw [pow_mul]; exact (Nat.mod_modEq _ _).pow _
        refine (a.mul_left _).trans ?_
        rw [← pow_add]
        apply pow_congr hc.orderR
        exact (((Nat.mod_modEq _ _).add ((Nat.mod_modEq _ _).mul_left x))).trans hkv
      have e1 : ((r : Int) * v % q).toNat = r * v % q := by
        rw [show (r : Int) * v % q = ((r * v % q : Nat) : Int) by push_cast; rfl, Int.toNat_natCast]
      rw [e1, abs_of_nonneg (by omega)]
      have e2 : (g ^ (z * v % q) * (g ^ x % p) ^ (r * v % q)) % p % q = r := by
        rw [show (g ^ (z * v % q) * (g ^ x % p) ^ (r * v % q)) % p = g ^ k % p from hexp, er]
      exact_mod_cast e2
    refine ⟨rfl, ?_, ?_⟩
    · rw [dsa_verify_iff hw c hpub _ nr.wf ns.wf, nr.toInt, ns.toInt]
      by_cases hs0 : s = 0
      · left
        rw [hs0]
        simp only [Nat.cast_zero, Int.gcd_zero_left, Int.natAbs_natCast]
        omega
      · right; exact heq hs0
    · rw [nr.toInt, ns.toInt]
      intro hs0
      exact heq (by omega)

theorem toy_key : Key 8 toy 11 5 3 2 :=
  ⟨NatRep.digit (by omega) (by omega) (by omega), NatRep.digit (by omega) (by omega) (by omega),
    NatRep.digit (by omega) (by omega) (by omega), NatRep.digit (by omega) (by omega) (by omega),
    NatRep.digit (d := 9) (by omega) (by omega) (by omega), by omega, by decide, by decide⟩

/-- A signature of the message [6] with these parameters. -/
example : ∃ sig, sign 8 toy ⟨⟨false, []⟩, ⟨true, [3]⟩⟩ [6] [1] = .ok 0 sig ∧ verify 8 toy sig [6] = 0 ∧
    verify 8 toy sig [7] = -1 := ⟨⟨⟨false, [4]⟩, ⟨false, [2]⟩⟩, by decide +kernel⟩

end Verif.Dsa
