import Verif.Model.Pk.Elgamal
import Verif.Props.Pk.Dsa
import Mathlib.FieldTheory.Finite.Basic
/-!
# C50, C60: ElGamal signatures
-/
namespace Verif.Elgamal
open Verif.Mpi

/-- A key pair: `p` prime, `g` not a multiple of `p`, `y = g^d`. -/
structure Key (w : Nat) (c : Ctx) (p g d : Nat) : Prop where
  pR : NatRep w c.p p
  gR : NatRep w c.g g
  dR : NatRep w c.d d
  yR : NatRep w c.y (g ^ d % p)
  prime : p.Prime
  unit : ¬ p ∣ g

/-- Every turn is given as many bytes as it asks for. -/
def Enough (w : Nat) (t : Mpi) (draw : Nat → Draw) : Prop := ∀ i, (draw i).bytes.length = (countBits w t + 7) / 8

theorem genLoop_spec {w : Nat} (hw : DigitWidth w) {t : Mpi} {n : Nat} (ht : NatRep w t n) (hn : 0 < n)
    (draw : Nat → Draw) (hd : Enough w t draw) : ∀ (m i : Nat) (k : Mpi) (v : Nat), NatRep w k v →
    genLoop w t draw m i k = .ub ∨ ∃ k' v', genLoop w t draw m i k = .ok k' ∧ NatRep w k' v' := by
  intro m
  induction m with
  | zero => intro i k v hk; right; exact ⟨k, v, rfl, hk⟩
  | succ m ih =>
    intro i k v hk
    rw [genLoop, hk.neg]
    rcases NatRep.randRange hw (draw i).alloc ht hn _ (hd i) with h | ⟨x, u, h, hx, -⟩
    · left; rw [h]
    · rw [h]
      dsimp only
      obtain ⟨z, e, -, hz⟩ := hx.gcd hw.pos (draw i).jx (draw i).jy ht hn
      rw [e]
      dsimp only
      split_ifs with hc
      · right; exact ⟨x, u, rfl, hx⟩
      · exact ih (i + 1) x u hx

/-- What the rest of signing does with the nonce `k`. -/
theorem signWith_spec {w : Nat} (hw : DigitWidth w) (c : Ctx) {p g d : Nat} (hc : Key w c p g d) (old : Sig)
    (msg : List Byte) {t k : Mpi} (ht : NatRep w t (p - 1)) {kv : Nat} (hk : NatRep w k kv) :
    (¬ Nat.Coprime kv (p - 1) → ∃ sig, signWith w c old msg t k = .ok (-1) sig) ∧
    (Nat.Coprime kv (p - 1) → ∃ sig s, signWith w c old msg t k = .ok 0 sig ∧ NatRep w sig.r (g ^ kv % p) ∧
      NatRep w sig.s s ∧ s < p - 1 ∧ kv * s + d * (g ^ kv % p) ≡ beVal msg [MOD p - 1]) := by
  have hw8 := hw.pos
  have hp := hc.prime.one_lt
  obtain ⟨r, e1, n1⟩ := hc.gR.modExp hw hk hc.pR hp
  obtain ⟨s1, e2, n2⟩ := hc.dR.mul hw8 old.s.neg n1
  obtain ⟨s2, e3, f3, v3⟩ := (NatRep.loadBin hw msg).sub_int hw8 n2
  obtain ⟨s3, e4, n4⟩ := NatRep.mod_int hw f3 ht (by omega)
  rw [v3] at n4
  obtain ⟨i1, i2⟩ := hk.inv hw ht (by omega)
  unfold signWith
  rw [e1]; dsimp only
  rw [e2]; dsimp only
  rw [e3]; dsimp only
  rw [e4]; dsimp only
  constructor
  · intro h
    rw [i2 h]
    exact ⟨_, rfl⟩
  · intro h
    obtain ⟨ki, kiv, e5, n5, -, m5⟩ := i1 h
    rw [e5]; dsimp only
    obtain ⟨s4, e6, n6⟩ := n4.mul hw8 false n5
    rw [e6]; dsimp only
    obtain ⟨s5, e7, n7⟩ := n6.mod hw ht (by omega)
    rw [e7]
    refine ⟨⟨r, s5⟩, _, rfl, n1, n7, Nat.mod_lt _ (by omega), ?_⟩
    have hTp : 0 < p - 1 := by omega
    generalize hR : g ^ kv % p = R at *
    generalize hZ : beVal msg = Z at *
    generalize hT : p - 1 = T at *
    have hT0 : (T : Int) ≠ 0 := by exact_mod_cast hTp.ne'
    have hnn := Int.emod_nonneg ((Z : Int) - (d * R : Nat)) hT0
    rw [← Int.natCast_modEq_iff]
    rw [Nat.cast_add, Nat.cast_mul, Int.natCast_mod, Nat.cast_mul, Int.toNat_of_nonneg hnn]
    have a : (kv : Int) * (((Z : Int) - (d * R : Nat)) % T * kiv % T) ≡ kv * (((Z : Int) - (d * R : Nat)) * kiv) [ZMOD T] :=
      ((Int.mod_modEq _ _).trans ((Int.mod_modEq _ _).mul_right _)).mul_left _
    have b : (kv : Int) * (((Z : Int) - (d * R : Nat)) * kiv) ≡ ((Z : Int) - (d * R : Nat)) * 1 [ZMOD T] := by
      rw [show (kv : Int) * (((Z : Int) - (d * R : Nat)) * kiv) = ((Z : Int) - (d * R : Nat)) * (kv * kiv) by ring]
      apply Int.ModEq.mul_left
      exact_mod_cast Int.natCast_modEq_iff.2 m5
    have e := (a.trans b).add_right ((d : Int) * R)
    push_cast at e ⊢
    rw [show ((Z : Int) - d * R) * 1 + d * R = Z by ring] at e
    exact e

/-- What verification accepts, exactly, for all candidate signatures with components not negative. -/
theorem elgamal_verify_iff {w : Nat} (hw : DigitWidth w) (c : Ctx) {p g y r s : Nat} (hp : NatRep w c.p p)
    (hg : NatRep w c.g g) (hy : NatRep w c.y y) (h1 : 1 < p) (sig : Sig) (hr : NatRep w sig.r r) (hs : NatRep w sig.s s)
    (msg : List Byte) :
    verify2 w c sig msg = 0 ↔ p ≥ 256 ^ (msg.length - 1) ∧ y ^ r * r ^ s ≡ g ^ beVal msg [MOD p] ∨
      msg = [] ∧ y ^ r * r ^ s ≡ 1 [MOD p] := by
  have hw8 := hw.pos
  have hlen : msg.length ≤ countBytes w c.p ↔ p ≥ 256 ^ (msg.length - 1) ∨ msg = [] := by
    by_cases hm : msg = []
    · subst hm; simp
    · have hpos : 0 < msg.length := List.length_pos_iff.2 hm
      have := hp.countBytes_le hw (msg.length - 1)
      simp only [hm, or_false, ge_iff_le]
      rw [← not_lt (a := p), ← this]
      omega
  obtain ⟨a, e1, n1⟩ := hy.modExp hw hr hp h1
  obtain ⟨b, e2, n2⟩ := hr.modExp hw hs hp h1
  obtain ⟨ab, e3, n3⟩ := n1.mul hw8 false n2
  obtain ⟨m, e4, n4⟩ := n3.mod hw hp (by omega)
  obtain ⟨z, e5, n5⟩ := hg.modExp hw (NatRep.loadBin hw msg) hp h1
  have hcmp := n4.cmp_eq n5
  have hmod : y ^ r % p * (r ^ s % p) % p = y ^ r * r ^ s % p := by rw [← Nat.mul_mod]
  rw [hmod] at hcmp
  have hv : verifySteps w c sig msg = some (decide (y ^ r * r ^ s % p = g ^ beVal msg % p)) := by
    unfold verifySteps
    simp only [e1, e2, e3, e4, n2.neg, e5, Option.bind_eq_bind, Option.bind_some]
    rw [beq_eq_decide]
    simp only [hcmp]
  have hbv : msg = [] → beVal msg = 0 := by rintro rfl; rfl
  unfold verify2
  rw [hv]
  by_cases hl : msg.length ≤ countBytes w c.p
  · rw [if_neg (by omega)]
    have hl' := hlen.1 hl
    by_cases hq : y ^ r * r ^ s % p = g ^ beVal msg % p
    · rw [decide_eq_true hq]
      simp only [true_iff]
      rcases hl' with h | h
      · exact Or.inl ⟨h, hq⟩
      · right; refine ⟨h, ?_⟩
        rw [hbv h, pow_zero] at hq; exact hq
    · rw [decide_eq_false hq]
      constructor
      · intro h; simp at h
      · rintro (⟨-, h⟩ | ⟨h0, h⟩)
        · exact absurd h hq
        · rw [hbv h0, pow_zero] at hq; exact absurd h hq
  · rw [if_pos (by omega)]
    constructor
    · intro h; simp at h
    · rintro (⟨h, -⟩ | ⟨h, -⟩)
      · exact absurd (hlen.2 (Or.inl h)) hl
      · exact absurd (hlen.2 (Or.inr h)) hl

theorem pow_unit {p g : Nat} (hp : p.Prime) (hg : ¬ p ∣ g) : g ^ (p - 1) ≡ 1 [MOD p] := by
  haveI : Fact p.Prime := ⟨hp⟩
  have : (g : ZMod p) ≠ 0 := by rwa [Ne, ZMod.natCast_eq_zero_iff]
  have := ZMod.pow_card_sub_one_eq_one this
  rw [← ZMod.natCast_eq_natCast_iff]
  push_cast
  exact this

theorem verify_of_equation {w : Nat} (hw : DigitWidth w) (c : Ctx) {p g d : Nat} (hc : Key w c p g d) (sig : Sig)
    (msg : List Byte) (hl : msg.length ≤ countBytes w c.p) {k s : Nat} (hr : NatRep w sig.r (g ^ k % p))
    (hs : NatRep w sig.s s) (h : k * s + d * (g ^ k % p) ≡ beVal msg [MOD p - 1]) : verify2 w c sig msg = 0 := by
  have hp := hc.prime.one_lt
  have heq : (g ^ d % p) ^ (g ^ k % p) * (g ^ k % p) ^ s ≡ g ^ beVal msg [MOD p] := by
    have a : (g ^ d % p) ^ (g ^ k % p) ≡ g ^ (d * (g ^ k % p)) [MOD p] := by
      rw [pow_mul]; exact (Nat.mod_modEq _ _).pow _
    have b : (g ^ k % p) ^ s ≡ g ^ (k * s) [MOD p] := by
      rw [pow_mul]; exact (Nat.mod_modEq _ _).pow _
    refine (a.mul b).trans ?_
    rw [← pow_add, Nat.add_comm]
    exact Dsa.pow_congr (pow_unit hc.prime hc.unit) h
  rw [elgamal_verify_iff hw c hc.pR hc.gR hc.yR hp sig hr hs msg]
  by_cases hm : msg = []
  · right; subst hm; exact ⟨rfl, heq⟩
  · left
    refine ⟨?_, heq⟩
    have hpos : 0 < msg.length := List.length_pos_iff.2 hm
    have := hc.pR.countBytes_le hw (msg.length - 1)
    rw [ge_iff_le, ← not_lt, ← this]
    omega

/-- Every signature made is accepted, for all keys, messages, nonces and contents of the objects before. -/
theorem elgamal_complete {w : Nat} (hw : DigitWidth w) (c : Ctx) {p g d : Nat} (hc : Key w c p g d) (old : Sig)
    (msg : List Byte) (draw : Nat → Draw) (t : Mpi) (ht : NatRep w t (p - 1)) (hd : Enough w t draw) (sig : Sig)
    (h : sign2 w c old msg draw = .ok 0 sig) :
    verify2 w c sig msg = 0 ∧ ∃ r s, NatRep w sig.r r ∧ NatRep w sig.s s ∧ r < p ∧ s < p - 1 := by
  have hp := hc.prime.one_lt
  unfold sign2 at h
  by_cases hl : msg.length > countBytes w c.p
  · rw [if_pos hl] at h; simp at h
  · rw [if_neg hl] at h
    obtain ⟨t', e1, n1⟩ := hc.pR.sub hw.pos (NatRep.one hw.pos) (by omega)
    obtain rfl := n1.unique ht
    rw [e1] at h
    dsimp only at h
    rcases genLoop_spec hw ht (by omega) draw hd 1024 0 _ 0 (NatRep.zero w) with hg | ⟨k, kv, hg, hk⟩
    · rw [secretGen, hg] at h; cases h
    · rw [secretGen, hg] at h
      dsimp only at h
      obtain ⟨s1, s2⟩ := signWith_spec hw c hc old msg ht hk
      by_cases hcop : Nat.Coprime kv (p - 1)
      · obtain ⟨sig', s, e2, hr, hs, hlt, heq⟩ := s2 hcop
        rw [e2] at h
        cases h
        exact ⟨verify_of_equation hw c hc sig msg (by omega) hr hs heq, _, _, hr, hs, Nat.mod_lt _ (by omega), hlt⟩
      · obtain ⟨sig', e2⟩ := s1 hcop
        rw [e2] at h; simp at h

/-- Signing succeeds when the message is short enough and the first nonce drawn is coprime to `p - 1`. -/
theorem elgamal_sign_ok {w : Nat} (hw : DigitWidth w) (c : Ctx) {p g d : Nat} (hc : Key w c p g d) (old : Sig)
    (msg : List Byte) (hl : msg.length ≤ countBytes w c.p) (draw : Nat → Draw) (t : Mpi) (ht : NatRep w t (p - 1))
    (k : Mpi) (kv : Nat) (hk : NatRep w k kv) (hr : randRange w false (draw 0).alloc t (draw 0).bytes = .ok k)
    (hcop : Nat.Coprime kv (p - 1)) : ∃ sig, sign2 w c old msg draw = .ok 0 sig := by
  have hp := hc.prime.one_lt
  obtain ⟨t', e1, n1⟩ := hc.pR.sub hw.pos (NatRep.one hw.pos) (by omega)
  obtain rfl := n1.unique ht
  obtain ⟨z, e, -, hz⟩ := hk.gcd hw.pos (draw 0).jx (draw 0).jy ht (by omega)
  rw [show Nat.gcd kv (p - 1) = 1 from hcop] at hz
  obtain ⟨sig, s, e2, -⟩ := (signWith_spec hw c hc old msg ht hk).2 hcop
  refine ⟨sig, ?_⟩
  unfold sign2
  rw [if_neg (by omega), e1]
  dsimp only
  rw [secretGen, show (1024 : Nat) = 1023 + 1 from rfl, genLoop]
  dsimp only
  rw [hr]
  dsimp only
  rw [e]
  dsimp only
  rw [if_pos ((hz.cmp_eq (NatRep.one hw.pos)).2 rfl)]
  exact e2

/-- The same for signatures as byte strings. -/
theorem elgamal_complete_bytes {w : Nat} (hw : DigitWidth w) (c : Ctx) {p g d : Nat} (hc : Key w c p g d)
    (msg : List Byte) (draw : Nat → Draw) (t : Mpi) (ht : NatRep w t (p - 1)) (hd : Enough w t draw) :
    (sign w c msg draw = .ub ↔ sign2 w c ⟨⟨false, []⟩, ⟨false, []⟩⟩ msg draw = .ub) ∧
    (sign w c msg draw = .fail ↔ ∃ sig, sign2 w c ⟨⟨false, []⟩, ⟨false, []⟩⟩ msg draw = .ok (-1) sig) ∧
    ∀ sg, sign w c msg draw = .ok sg → sg.length = 2 * countBytes w c.p ∧ verify w c sg msg = some 0 := by
  have hp := hc.prime.one_lt
  have hres : ∀ res sig, sign2 w c ⟨⟨false, []⟩, ⟨false, []⟩⟩ msg draw = .ok res sig → res = 0 ∨ res = -1 := by
    intro res sig h
    unfold sign2 at h
    by_cases hl : msg.length > countBytes w c.p
    · rw [if_pos hl] at h; cases h; simp
    · rw [if_neg hl] at h
      obtain ⟨t', e1, n1⟩ := hc.pR.sub hw.pos (NatRep.one hw.pos) (by omega)
      obtain rfl := n1.unique ht
      rw [e1] at h
      dsimp only at h
      rcases genLoop_spec hw ht (by omega) draw hd 1024 0 _ 0 (NatRep.zero w) with hg | ⟨k, kv, hg, hk⟩
      · rw [secretGen, hg] at h; cases h
      · rw [secretGen, hg] at h
        dsimp only at h
        obtain ⟨s1, s2⟩ := signWith_spec hw c hc ⟨⟨false, []⟩, ⟨false, []⟩⟩ msg ht hk
        by_cases hcop : Nat.Coprime kv (p - 1)
        · obtain ⟨sig', s, e2, -⟩ := s2 hcop
          rw [e2] at h; cases h; simp
        · obtain ⟨sig', e2⟩ := s1 hcop
          rw [e2] at h; cases h; simp
  cases h2 : sign2 w c ⟨⟨false, []⟩, ⟨false, []⟩⟩ msg draw with
  | ub => simp [sign, h2]
  | ok res sig =>
    rcases hres res sig h2 with rfl | rfl
    · obtain ⟨hv, r, s, hr, hs, rlt, slt⟩ := elgamal_complete hw c hc _ msg draw t ht hd sig h2
      have hb := hc.pR.lt_countBytes hw
      obtain ⟨a, a1, a2, a3⟩ := hr.storeBin hw (k := countBytes w c.p) (by omega) true
      obtain ⟨b, b1, b2, b3⟩ := hs.storeBin hw (k := countBytes w c.p) (by omega) true
      have hsg : sign w c msg draw = .ok (a ++ b) := by simp [sign, h2, a1, b1]
      rw [hsg]
      refine ⟨by simp, by simp, ?_⟩
      rintro sg h
      cases h
      have hla := a3 rfl
      have hlb := b3 rfl
      refine ⟨by simp [hla, hlb]; omega, ?_⟩
      unfold verify
      dsimp only
      rw [if_neg (by simp [hla, hlb]; omega), List.take_append_of_le_length (by omega),
        List.take_of_length_le (l := a) (by omega), ← hla, List.drop_append_of_le_length (le_refl _), List.drop_length,
        List.nil_append, List.take_of_length_le (by omega)]
      have ra := NatRep.loadBin hw a
      have rb := NatRep.loadBin hw b
      rw [a2] at ra
      rw [b2] at rb
      rw [ra.unique hr, rb.unique hs, hv]
    · simp [sign, h2]

theorem verify_of_congr {w : Nat} (hw : DigitWidth w) (c : Ctx) {p g y r s : Nat} (hp : NatRep w c.p p)
    (hg : NatRep w c.g g) (hy : NatRep w c.y y) (h1 : 1 < p) (sig : Sig) (hr : NatRep w sig.r r) (hs : NatRep w sig.s s)
    (msg : List Byte) (hl : msg.length ≤ countBytes w c.p) (h : y ^ r * r ^ s ≡ g ^ beVal msg [MOD p]) :
    verify2 w c sig msg = 0 := by
  rw [elgamal_verify_iff hw c hp hg hy h1 sig hr hs msg]
  by_cases hm : msg = []
  · right; subst hm; exact ⟨rfl, h⟩
  · left
    refine ⟨?_, h⟩
    have hpos : 0 < msg.length := List.length_pos_iff.2 hm
    have := hp.countBytes_le hw (msg.length - 1)
    rw [ge_iff_le, ← not_lt, ← this]
    omega

/-- C60.  Full statement: verification succeeds only if `0 < r < p` and `y^r * r^s = g^z` modulo `p`.  Proved: the
equation.  Missing, because false: the range of `r` (`elgamal_forgery`, `elgamal_zero`). -/
theorem elgamal_sound_partial {w : Nat} (hw : DigitWidth w) (c : Ctx) {p g y r s : Nat} (hp : NatRep w c.p p)
    (hg : NatRep w c.g g) (hy : NatRep w c.y y) (h1 : 1 < p) (sig : Sig) (hr : NatRep w sig.r r) (hs : NatRep w sig.s s)
    (msg : List Byte) (h : verify2 w c sig msg = 0) : y ^ r * r ^ s ≡ g ^ beVal msg [MOD p] := by
  rcases (elgamal_verify_iff hw c hp hg hy h1 sig hr hs msg).1 h with ⟨-, h'⟩ | ⟨rfl, h'⟩
  · exact h'
  · exact h'

/-- Since `r` is not bounded, a signature `(r, s)` of the number `h` gives one of every number `z = h·u` modulo `p - 1`
without the key: `r'` with `r' = r` modulo `p` and `r' = r·u` modulo `p - 1`, and `s·u`. -/
theorem elgamal_forgery {w : Nat} (hw : DigitWidth w) (c : Ctx) {p g y : Nat} (hp : NatRep w c.p p)
    (hg : NatRep w c.g g) (hy : NatRep w c.y y) (hprime : p.Prime) (hyu : ¬ p ∣ y) (hgu : ¬ p ∣ g) {r s h u r' : Nat}
    (hv : y ^ r * r ^ s ≡ g ^ h [MOD p]) (msg : List Byte) (hl : msg.length ≤ countBytes w c.p)
    (hu : h * u ≡ beVal msg [MOD p - 1]) (hr1 : r' ≡ r [MOD p]) (hr2 : r' ≡ r * u [MOD p - 1]) (sig : Sig)
    (n1 : NatRep w sig.r r') (n2 : NatRep w sig.s (s * u)) : verify2 w c sig msg = 0 := by
  refine verify_of_congr hw c hp hg hy hprime.one_lt sig n1 n2 msg hl ?_
  have e1 : y ^ r' ≡ y ^ (r * u) [MOD p] := Dsa.pow_congr (pow_unit hprime hyu) hr2
  have e2 : r' ^ (s * u) ≡ r ^ (s * u) [MOD p] := hr1.pow _
  refine (e1.mul e2).trans ?_
  rw [pow_mul y r, pow_mul r s, ← mul_pow]
  refine (hv.pow _).trans ?_
  rw [← pow_mul]
  exact Dsa.pow_congr (pow_unit hprime hgu) hu

/-- Such `r'` exists for every `u`. -/
theorem elgamal_forgery_exists {p : Nat} (hp : p.Prime) (r u : Nat) : ∃ r', r' ≡ r [MOD p] ∧ r' ≡ r * u [MOD p - 1] := by
  have hcopr : Nat.Coprime p (p - 1) := by
    have : Nat.Coprime (p - 1 + 1) (p - 1) := by simp
    rwa [Nat.sub_add_cancel hp.one_lt.le] at this
  obtain ⟨r', h1, h2⟩ := Nat.chineseRemainder hcopr r (r * u)
  exact ⟨r', h1, h2⟩

/-- The signature `(0, 0)` is accepted for the empty message and every key. -/
theorem elgamal_zero {w : Nat} (hw : DigitWidth w) (c : Ctx) {p g y : Nat} (hp : NatRep w c.p p)
    (hg : NatRep w c.g g) (hy : NatRep w c.y y) (h1 : 1 < p) : verify2 w c ⟨⟨false, []⟩, ⟨false, []⟩⟩ [] = 0 :=
  verify_of_congr hw c hp hg hy h1 ⟨⟨false, []⟩, ⟨false, []⟩⟩ (NatRep.zero w) (NatRep.zero w) [] (by simp)
    (by simpa [beVal] using Nat.ModEq.refl 1)

/-- Parameters p = 11, d = 3, g = 2, y = 8. -/
def toy : Ctx := ⟨⟨false, [11]⟩, ⟨false, [3]⟩, ⟨false, [2]⟩, ⟨false, [8]⟩⟩

theorem toy_key : Key 8 toy 11 2 3 :=
  ⟨NatRep.digit (by omega) (by omega) (by omega), NatRep.digit (by omega) (by omega) (by omega),
    NatRep.digit (by omega) (by omega) (by omega), NatRep.digit (d := 8) (by omega) (by omega) (by omega),
    by decide, by decide⟩

/-- A signature of the message [5]; another message is rejected. -/
example : ∃ sg, sign 8 toy [5] (fun _ => ⟨8, [9], 0, 0⟩) = .ok sg ∧ verify 8 toy sg [5] = some 0 ∧
    verify 8 toy sg [6] = some (-1) := ⟨[6, 3], by decide +kernel⟩

/-- The signature (6, 3) of 5 turned into one of 15, with `u = 3`. -/
example : verify2 8 toy ⟨⟨false, [28]⟩, ⟨false, [9]⟩⟩ [15] = 0 ∧ 5 * 3 ≡ 15 [MOD 10] ∧ 28 ≡ 6 [MOD 11] ∧
    28 ≡ 6 * 3 [MOD 10] := by decide +kernel

end Verif.Elgamal
