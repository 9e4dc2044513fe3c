import Verif.Model.Pk.DsaGen
import Verif.Props.Pk.RsaGen
import Verif.Props.Pk.Dsa
/-!
# C65: DSA key generation (`cry_dsa_keygen`)

Full statement: when the call returns 0, the context holds numbers `q` (160 bits) and `p` (`512 + 64·l` bits) accepted by
the primality test with `q ∣ p - 1`, an element `g` of order `q` modulo `p`, a private key `0 < x < q` and the public key
`y = g^x mod p`; signatures made with the key are accepted.

False of the code: the private key is drawn below the cofactor `(p-1)/q` instead of `q`, so that it may be larger than
`q` or zero (`dsa_keygen_private_range`, `dsa_keygen_zero_private`); the lengths hold only when no leading random digit
is zero.
-/
namespace Verif.DsaGen
open Verif.Mpi Verif.Dsa

theorem rand_lt {w : Nat} (hw : DigitWidth w) (alloc : Nat) {bits : Nat} {bs : List Byte}
    (hl : bs.length = (bits + 7) / 8) {x : Mpi} {k : Nat} (h : rand w false alloc bits bs = .ok x) (hx : NatRep w x k) :
    k < 2 ^ bits ∧ (0 < bits → (2 ^ w) ^ ((bits - 1) / w) ≤ beVal bs → 2 ^ (bits - 1) ≤ k) := by
  rcases Nat.eq_zero_or_pos bits with h0 | h0
  · subst h0
    simp only [rand, if_true] at h
    cases h
    have := hx.value
    simp at this
    subst this
    simp
  · by_cases hV : (2 ^ w) ^ ((bits - 1) / w) ≤ beVal bs
    · obtain ⟨y, e, -, -, ev⟩ := rand_spec hw false (alloc := alloc) h0 hl hV
      rw [e] at h
      cases h
      rw [hx.value] at ev
      have hlt := Nat.mod_lt (beVal bs) (Nat.two_pow_pos (bits - 1))
      have hp : 2 ^ bits = 2 * 2 ^ (bits - 1) := by rw [← pow_succ']; congr 1; omega
      omega
    · refine ⟨?_, fun _ h => absurd h hV⟩
      rw [rand_small hw false h0 (by omega)] at h
      split at h
      · cases h
      · cases h
        have := (loadBin_spec hw false bs).2.1
        rw [hx.value] at this
        rw [this]
        refine lt_of_lt_of_le (not_le.1 hV) ?_
        rw [← pow_mul]
        exact Nat.pow_le_pow_right (by norm_num) (le_trans (Nat.mul_div_le _ _) (by omega))

/-- What the search for `p` leaves when it succeeds: `M` is the random number. -/
def PFound (w bits q : Nat) (draw : Nat → PDraw) (x : Mpi) (p : Nat) : Prop :=
  ∃ j M, NatRep w x p ∧ 1 < p ∧ p = M - M % (2 * q) + 1 ∧ M < 2 ^ bits ∧
    (0 < bits → (2 ^ w) ^ ((bits - 1) / w) ≤ beVal (draw j).bytes → 2 ^ (bits - 1) ≤ M) ∧
    ((∀ i, ((draw j).mr i).length = (countBits w x + 7) / 8) → isPrime w (draw j).mr x = .res true)

theorem pLoop_spec {w : Nat} (hw : DigitWidth w) {bits : Nat} {qm : Mpi} {q : Nat} (hq : NatRep w qm q) (hq0 : 0 < q)
    {draw : Nat → PDraw} (hd : ∀ j, (draw j).bytes.length = (bits + 7) / 8) : ∀ (n j : Nat) (p p' : Mpi), p.neg = false →
    (pLoop w bits qm draw n j p = .some p' → ∃ pv, PFound w bits q draw p' pv) ∧
    (pLoop w bits qm draw n j p = .none p' → p'.neg = false)
  | 0, j, p, p', hp => by simp only [pLoop]; exact ⟨fun h => (by cases h), fun h => by cases h; exact hp⟩
  | n + 1, j, p, p', hp => by
    have hw8 := hw.pos
    rw [pLoop, hp]
    rcases NatRep.rand hw (draw j).alloc bits (draw j).bytes (hd j) with h | ⟨m, M, h, nm⟩
    · rw [h]; simp
    rw [h]
    dsimp only
    obtain ⟨b1, b2⟩ := rand_lt hw _ (hd j) h nm
    obtain ⟨r1, e1, n1⟩ := hq.add hw8 hq
    rw [e1]
    dsimp only
    obtain ⟨r2, e2, n2⟩ := mod_rIsB hw nm n1 (by omega)
    rw [e2]
    dsimp only
    obtain ⟨s1, e3, n3⟩ := nm.sub hw8 n2 (Nat.mod_le _ _)
    rw [e3]
    dsimp only
    obtain ⟨s2, e4, n4⟩ := n3.add hw8 (NatRep.one hw8)
    rw [e4]
    dsimp only
    rw [← two_mul] at n4
    cases hi : isPrime w (draw j).mr s2 with
    | ub => simp
    | hang => simp
    | res b =>
      cases b with
      | false => exact pLoop_spec hw hq hq0 hd n (j + 1) s2 p' n4.neg
      | true =>
        refine ⟨fun h => ?_, fun h => by cases h⟩
        cases h
        refine ⟨_, j, M, n4, ?_, rfl, b1, b2, fun _ => hi⟩
        by_contra hle
        have h1 : M - M % (2 * q) + 1 = 1 := by omega
        rw [h1] at n4
        rw [n4.unique (NatRep.one hw8), (isPrime_one_hangs hw _).1] at hi
        cases hi
    | err =>
      refine ⟨fun h => ?_, fun h => by cases h⟩
      cases h
      refine ⟨_, j, M, n4, ?_, rfl, b1, b2, fun hl => absurd hi (isPrime_ne_err hw n4 _ hl)⟩
      by_contra hle
      have h1 : M - M % (2 * q) + 1 = 1 := by omega
      rw [h1] at n4
      rw [n4.unique (NatRep.one hw8), (isPrime_one_hangs hw _).1] at hi
      cases hi

theorem gLoop_spec {w : Nat} (hw : DigitWidth w) {pm p1 km : Mpi} {p k : Nat} (hp : NatRep w pm p) (h1 : 1 < p)
    (hp1 : NatRep w p1 (p - 1)) (hk : NatRep w km k)
    {draw : Nat → RDraw} (hd : ∀ j, (draw j).bytes.length = (countBits w p1 + 7) / 8) : ∀ (n j : Nat) (g g' : Mpi),
    gLoop w pm p1 km draw n j g = .some g' →
    ∃ h, 0 < h ∧ h < p ∧ NatRep w g' (h ^ k % p) ∧ 1 < h ^ k % p
  | 0, j, g, g', h => by simp [gLoop] at h
  | n + 1, j, g, g', h => by
    have hw8 := hw.pos
    rw [gLoop] at h
    rcases NatRep.randRange hw (draw j).alloc hp1 (by omega) (draw j).bytes (hd j) with e | ⟨r, rv, e, nr, hr⟩
    · rw [e] at h; cases h
    rw [e] at h
    dsimp only at h
    obtain ⟨r1, e1, n1⟩ := nr.add hw8 (NatRep.one hw8)
    rw [e1] at h
    dsimp only at h
    obtain ⟨z, e2, n2⟩ := n1.modExp hw hk hp h1
    rw [e2] at h
    dsimp only at h
    by_cases hc : cmpAbs z ⟨false, [1]⟩ > 0
    · rw [if_pos hc] at h
      cases h
      obtain ⟨c1, c2⟩ := n2.cmpAbs_eq (NatRep.one hw8)
      refine ⟨rv + 1, by omega, by omega, n2, ?_⟩
      by_contra hle
      rcases (show (rv + 1) ^ k % p < 1 ∨ (rv + 1) ^ k % p = 1 by omega) with h | h
      · have := c1.2 h; omega
      · have := c2.2 h; omega
    · rw [if_neg hc] at h
      exact gLoop_spec hw hp h1 hp1 hk hd n (j + 1) z g' h

/-- What is in the context after success, apart from the private and the public key. -/
structure Dom (w l : Nat) (dr : Draw) (c : Ctx) (p q g h : Nat) : Prop where
  qA : RsaGen.Accepted w 160 dr.q c.q q
  pF : PFound w ((512 + l * 64) % 2 ^ 32) q dr.p c.p p
  gR : NatRep w c.g g
  h0 : 0 < h
  hp : h < p
  hg : g = h ^ ((p - 1) / q) % p
  g1 : 1 < g

namespace Dom
variable {w l : Nat} {dr : Draw} {c : Ctx} {p q g h : Nat}

theorem dvd (d : Dom w l dr c p q g h) : q ∣ p - 1 := by
  obtain ⟨j, M, -, -, e, -⟩ := d.pF
  rw [e, Nat.add_sub_cancel]
  exact (Dvd.intro_left 2 rfl).trans (Nat.dvd_sub_mod M)

theorem one_lt (d : Dom w l dr c p q g h) : 1 < p := by obtain ⟨j, M, -, h, -⟩ := d.pF; exact h
theorem pR (d : Dom w l dr c p q g h) : NatRep w c.p p := by obtain ⟨j, M, h, -⟩ := d.pF; exact h
theorem cofactor_pos (d : Dom w l dr c p q g h) : 0 < (p - 1) / q := by
  have := d.one_lt
  exact Nat.div_pos (Nat.le_of_dvd (by omega) d.dvd) (by have := d.qA.2.1; omega)

/-- When `p` is prime, `g` is an element of order `q` or a divisor of it. -/
theorem order (d : Dom w l dr c p q g h) (pP : p.Prime) : g ^ q ≡ 1 [MOD p] := by
  have hnd : ¬ p ∣ h := fun hd => by
    have := Nat.le_of_dvd d.h0 hd
    have := d.hp
    omega
  rw [d.hg]
  refine ((Nat.mod_modEq _ _).pow q).trans ?_
  rw [← pow_mul, Nat.div_mul_cancel d.dvd]
  exact Elgamal.pow_unit pP hnd

/-- Exactly `q` when `q` is prime too: `g` is not 1. -/
theorem order_eq (d : Dom w l dr c p q g h) (pP : p.Prime) (qP : q.Prime) (k : Nat) :
    g ^ k ≡ 1 [MOD p] ↔ q ∣ k := by
  have ho := d.order pP
  constructor
  · intro hk
    by_contra hnd
    have hcop : Nat.Coprime k q := ((Nat.Prime.coprime_iff_not_dvd qP).2 hnd).symm
    obtain ⟨v, -, hv⟩ := Nat.exists_mul_mod_eq_one_of_coprime hcop qP.one_lt
    have h1 := (hk.pow v)
    rw [← pow_mul, one_pow] at h1
    have h2 : g ^ (k * v) ≡ g ^ 1 [MOD p] :=
      Dsa.pow_congr ho (by show k * v % q = 1 % q; rw [hv, Nat.mod_eq_of_lt qP.one_lt])
    have h3 := h2.symm.trans h1
    rw [pow_one] at h3
    have hgp : g < p := by rw [d.hg]; exact Nat.mod_lt _ (by have := d.one_lt; omega)
    have : g = 1 := by
      have h4 : g % p = 1 % p := h3
      rwa [Nat.mod_eq_of_lt hgp, Nat.mod_eq_of_lt d.one_lt] at h4
    have := d.g1
    omega
  · rintro ⟨m, rfl⟩
    have := ho.pow m
    rwa [← pow_mul, one_pow] at this

end Dom

/-- The bytes delivered have the lengths asked for (first two searches). -/
structure Supplied (w l : Nat) (dr : Draw) : Prop where
  qd : DrawOk w 160 dr.q
  pd : ∀ j, (dr.p j).bytes.length = ((512 + l * 64) % 2 ^ 32 + 7) / 8

/-- What a successful turn leaves.  The number of bytes asked for in the later steps depends on the numbers found. -/
def Done (w l : Nat) (dr : Draw) (c : Ctx) : Prop :=
  ∃ p q, RsaGen.Accepted w 160 dr.q c.q q ∧ PFound w ((512 + l * 64) % 2 ^ 32) q dr.p c.p p ∧
    ((∀ j, (dr.g j).bytes.length = (Nat.size (p - 1) + 7) / 8) → ∃ g h, Dom w l dr c p q g h ∧
      (dr.x.bytes.length = (Nat.size ((p - 1) / q) + 7) / 8 →
        ∃ x, NatRep w c.pvt x ∧ x < (p - 1) / q ∧ NatRep w c.pub (g ^ x % p)))

/-- State of the context between turns: no sign left over from before. -/
structure Inv (c : Ctx) : Prop where
  hp : c.p.neg = false
  hq : c.q.neg = false
  hx : c.pvt.neg = false

theorem keys_frame (w : Nat) (c : Ctx) (k : Mpi) (dr : RDraw) (res : Int) (c' : Ctx) (h : keys w c k dr = .stop res c') :
    res = 0 ∧ c'.p = c.p ∧ c'.q = c.q ∧ c'.g = c.g := by
  unfold keys at h
  repeat' (first | (dsimp only at h) | split at h)
  all_goals first | (cases h; exact ⟨rfl, rfl, rfl, rfl⟩) | cases h

theorem keys_ne_retry (w : Nat) (c : Ctx) (k : Mpi) (dr : RDraw) (c' : Ctx) : keys w c k dr ≠ .retry c' := by
  unfold keys
  intro h
  repeat' (first | (dsimp only at h) | split at h)
  all_goals cases h

theorem keys_spec {w : Nat} (hw : DigitWidth w) {c : Ctx} {p g k : Nat} {km : Mpi} (hp : NatRep w c.p p) (h1 : 1 < p)
    (hg : NatRep w c.g g) (hk : NatRep w km k) (hk0 : 0 < k) (hx : c.pvt.neg = false) {dr : RDraw}
    (hl : dr.bytes.length = (Nat.size k + 7) / 8) {res : Int} {c' : Ctx} (h : keys w c km dr = .stop res c') :
    ∃ x, NatRep w c'.pvt x ∧ x < k ∧ NatRep w c'.pub (g ^ x % p) := by
  unfold keys at h
  rw [hx] at h
  rcases NatRep.randRange hw dr.alloc hk hk0 dr.bytes (by rw [hk.countBits hw]; exact hl) with e | ⟨x, xv, e, nx, hlt⟩
  · rw [e] at h; cases h
  · rw [e] at h
    dsimp only at h
    obtain ⟨y, e2, n2⟩ := hg.modExp hw nx hp h1
    rw [e2] at h
    cases h
    exact ⟨xv, nx, hlt, n2⟩

theorem cofactor {w : Nat} (hw : DigitWidth w) {p1 qm : Mpi} {a q : Nat} (h1 : NatRep w p1 a) (hq : NatRep w qm q)
    (hq0 : 0 < q) : ∃ k r, div w .none true false p1 qm = .ok k r ∧ NatRep w k (a / q) := by
  obtain ⟨k, r, e, wk, -, hE⟩ := div_nonneg_partial hw .none true false p1 qm h1.wf hq.wf (by rw [h1.toInt]; omega)
    (by rw [hq.toInt]; omega)
  refine ⟨k, r, e, NatRep.of_wf wk ?_⟩
  rw [h1.toInt, hq.toInt] at hE
  obtain ⟨a1, a2, a3⟩ := hE
  have := (Int.ediv_emod_unique (a := (a : Int)) (b := q) (r := r.toInt (2 ^ w)) (q := k.toInt (2 ^ w)) (by omega)).2
    ⟨by rw [a1]; ring, a2, by rw [abs_of_nonneg (by omega)] at a3; exact a3⟩
  rw [← this.1]
  norm_cast

theorem turn_spec {w : Nat} (hw : DigitWidth w) {l : Nat} {dr : Draw} (hd : Supplied w l dr) {c : Ctx} (hi : Inv c) :
    (∀ c', turn w l dr c = .retry c' → Inv c') ∧ (∀ c', turn w l dr c = .stop 0 c' → Done w l dr c') := by
  have hw8 := hw.pos
  unfold turn
  cases h1 : prime w c.q dr.qAlloc 160 5000 dr.q with
  | ub => simp
  | hang => simp
  | ok r q it =>
    dsimp only
    by_cases hr : r ≠ 0
    · rw [if_pos hr]
      exact ⟨fun _ h => (by cases h), fun _ h => by cases h⟩
    rw [if_neg hr]
    obtain rfl := not_not.1 hr
    obtain ⟨qv, hq⟩ := RsaGen.prime_accepted hw hd.qd c.q hi.hq _ _ q it h1
    have q1 := hq.2.1
    cases h2 : pLoop w ((512 + l * 64) % 2 ^ 32) q dr.p 4096 0 c.p with
    | ub => simp
    | hang => simp
    | fail p => exact ⟨fun _ h => (by cases h), fun _ h => by cases h⟩
    | none p =>
      refine ⟨fun _ h => ?_, fun _ h => by cases h⟩
      cases h
      exact ⟨(pLoop_spec hw hq.1 (by omega) hd.pd 4096 0 c.p p hi.hp).2 h2, hq.1.neg, hi.hx⟩
    | some p =>
      dsimp only
      obtain ⟨pv, hp⟩ := (pLoop_spec hw hq.1 (by omega) hd.pd 4096 0 c.p p hi.hp).1 h2
      have hp' := hp
      obtain ⟨j, M, pR, p1, -⟩ := hp'
      unfold turnRest
      dsimp only
      obtain ⟨x1, e1, n1⟩ := pR.sub hw8 (NatRep.one hw8) (by omega)
      rw [e1]
      dsimp only
      obtain ⟨k, rr, e2, n2⟩ := cofactor hw n1 hq.1 (by omega)
      rw [e2]
      dsimp only
      cases h3 : gLoop w p x1 k dr.g 4096 0 c.g with
      | ub => simp
      | hang => simp
      | fail g => exact ⟨fun _ h => (by cases h), fun _ h => by cases h⟩
      | none g =>
        refine ⟨fun _ h => ?_, fun _ h => by cases h⟩
        cases h
        exact ⟨pR.neg, hq.1.neg, hi.hx⟩
      | some g =>
        dsimp only
        refine ⟨fun _ h => absurd h (keys_ne_retry _ _ _ _ _), fun c' h => ?_⟩
        obtain ⟨-, f1, f2, f3⟩ := keys_frame _ _ _ _ _ _ h
        dsimp only at f1 f2 f3
        refine ⟨pv, qv, by rw [f2]; exact hq, by rw [f1]; exact hp, fun hgl => ?_⟩
        obtain ⟨hv, v0, vp, ng, g1⟩ := gLoop_spec hw pR p1 n1 n2 (fun j => by rw [hgl j, n1.countBits hw]) 4096 0 c.g g h3
        have hdom : Dom w l dr c' pv qv (hv ^ ((pv - 1) / qv) % pv) hv :=
          ⟨by rw [f2]; exact hq, by rw [f1]; exact hp, by rw [f3]; exact ng, v0, vp, rfl, g1⟩
        refine ⟨_, hv, hdom, fun hxl => ?_⟩
        exact keys_spec hw (c := { c with q := q, p := p, g := g }) pR p1 ng n2 hdom.cofactor_pos hi.hx hxl h

theorem keyLoop_spec {w : Nat} (hw : DigitWidth w) {l : Nat} {draw : Nat → Draw} (hd : ∀ i, Supplied w l (draw i)) :
    ∀ (n i : Nat) (c c' : Ctx), Inv c → keyLoop w l draw n i c = .ok 0 c' → ∃ k < n, Done w l (draw (i + k)) c'
  | 0, i, c, c', _, h => by simp [keyLoop] at h
  | n + 1, i, c, c', hi, h => by
    obtain ⟨t1, t2⟩ := turn_spec hw (hd i) hi
    rw [keyLoop] at h
    cases ht : turn w l (draw i) c with
    | ub => rw [ht] at h; cases h
    | hang => rw [ht] at h; cases h
    | stop r c1 =>
      rw [ht] at h
      cases h
      exact ⟨0, by omega, t2 _ ht⟩
    | retry c1 =>
      rw [ht] at h
      dsimp only at h
      obtain ⟨k, hk, hD⟩ := keyLoop_spec hw hd n (i + 1) c1 c' (t1 _ ht) h
      exact ⟨k + 1, by omega, by rw [show i + (k + 1) = i + 1 + k by omega]; exact hD⟩

/-- C65, partial: what a call that returns 0 leaves in the context, for all bytes of the generator.  Missing from the full
statement: the range of the private key (it is below `(p-1)/q`), and the lengths when a leading random digit is zero. -/
theorem dsa_keygen_partial {w : Nat} (hw : DigitWidth w) {l : Nat} {draw : Nat → Draw}
    (hd : ∀ i, Supplied w l (draw i)) (c c' : Ctx) (hi : Inv c) (h : keygen w l draw c = .ok 0 c') :
    ∃ k < 1024, Done w l (draw k) c' := by
  obtain ⟨k, hk, hD⟩ := keyLoop_spec hw hd 1024 0 c c' hi h
  exact ⟨k, hk, by simpa using hD⟩

/-- The lengths, when no leading random digit is zero: `q` has 160 bits with the two highest ones set, and `p` is in
`(2^(L-1) - 2^161, 2^L]` for `L = 512 + 64·l`. -/
theorem dsa_keygen_lengths {w : Nat} (hw : DigitWidth w) {l : Nat} {dr : Draw} (hd : Supplied w l dr) {c : Ctx} {p q : Nat}
    (hq : RsaGen.Accepted w 160 dr.q c.q q) (hp : PFound w ((512 + l * 64) % 2 ^ 32) q dr.p c.p p)
    (hl : 512 + l * 64 < 2 ^ 32) (lq : ∀ i, (2 ^ w) ^ (159 / w) ≤ beVal (dr.q i).bytes)
    (lp : ∀ i, (2 ^ w) ^ ((512 + l * 64 - 1) / w) ≤ beVal (dr.p i).bytes) :
    Nat.size q = 160 ∧ 3 * 2 ^ 158 ≤ q ∧ 2 ^ (512 + l * 64 - 1) < p + 2 ^ 161 ∧ p ≤ 2 ^ (512 + l * 64) := by
  rw [Nat.mod_eq_of_lt hl] at hp
  obtain ⟨-, -, k, ek, -⟩ := hq
  have hVlt : beVal (dr.q k).bytes < 2 ^ 160 := by
    have := beVal_lt (dr.q k).bytes
    rw [← two_pow_eight_mul, (hd.qd k).1] at this
    exact this
  have hcv : q = Spec.primeCandidate 160 (beVal (dr.q k).bytes) := by
    rw [ek]; unfold candVal; rw [if_neg (not_lt.2 (lq k))]
  have hqlt : q < 2 ^ 160 := by rw [hcv]; exact Spec.primeCandidate_lt (by omega) hVlt
  obtain ⟨j, M, -, -, ep, m1, m2, -⟩ := hp
  have hM := m2 (by show 0 < 512 + l * 64; omega) (lp j)
  have hq0 : 0 < q := by
    have := Spec.primeCandidate_ge (bits := 160) (beVal (dr.q k).bytes) (by omega)
    rw [← hcv] at this; omega
  have hmod := Nat.mod_lt M (show 0 < 2 * q by omega)
  refine ⟨by rw [hcv]; exact Spec.primeCandidate_size (by omega) hVlt,
    by rw [hcv]; exact Spec.primeCandidate_ge (bits := 160) _ (by omega), ?_, ?_⟩
  · generalize 2 ^ (512 + l * 64 - 1) = A at *
    generalize M % (2 * q) = r at *
    have : (2 : Nat) ^ 161 = 2 * 2 ^ 160 := by norm_num
    omega
  · generalize 2 ^ (512 + l * 64) = A at *
    omega

/-- With the two numbers really prime, the context is a key as needed for signing (C48): `g` has order `q`, and every
signature made with it is accepted. -/
theorem dsa_keygen_key {w l : Nat} {dr : Draw} {c : Ctx} {p q g h x : Nat} (hD : Dom w l dr c p q g h) (pP : p.Prime)
    (qP : q.Prime) (hx : NatRep w c.pvt x) (hy : NatRep w c.pub (g ^ x % p)) : Dsa.Key w c p q g x :=
  ⟨hD.pR, hD.qA.1, hD.gR, hx, hy, hD.one_lt, qP, hD.order pP⟩

theorem dsa_keygen_sign {w : Nat} (hw : DigitWidth w) {l : Nat} {dr : Draw} {c : Ctx} {p q g h x : Nat}
    (hD : Dom w l dr c p q g h) (pP : p.Prime) (qP : q.Prime) (hx : NatRep w c.pvt x) (hy : NatRep w c.pub (g ^ x % p))
    (old : Sig) (msg bs : List Byte) (hl : bs.length = (countBits w c.q + 7) / 8) (res : Int) (sig : Sig)
    (hs : sign w c old msg bs = .ok res sig) : res = 0 ∧ verify w c sig msg = 0 := by
  have := dsa_complete hw c (dsa_keygen_key hD pP qP hx hy) old msg bs hl res sig hs
  exact ⟨this.1, this.2.1⟩

/-- C65 is false of the code, private key: from every successful turn, other random bytes in the last step alone lead to
the private key 0 and the public key 1, also with success. -/
theorem dsa_keygen_zero_private {w : Nat} (hw : DigitWidth w) {l : Nat} {dr : Draw} (hd : Supplied w l dr) {c : Ctx}
    (hi : Inv c) {c' : Ctx} (h : turn w l dr c = .stop 0 c') {p q g h' : Nat} (hD : Dom w l dr c' p q g h') :
    ∃ bs : List Byte, bs.length = (Nat.size ((p - 1) / q) + 7) / 8 ∧
      ∃ c'', turn w l { dr with x := ⟨8, bs⟩ } c = .stop 0 c'' ∧ NatRep w c''.pvt 0 ∧ NatRep w c''.pub 1 ∧
        c''.p = c'.p ∧ c''.q = c'.q ∧ c''.g = c'.g := by
  have hw8 := hw.pos
  unfold turn at h ⊢
  dsimp only
  cases h1 : prime w c.q dr.qAlloc 160 5000 dr.q with
  | ub => rw [h1] at h; cases h
  | hang => rw [h1] at h; cases h
  | ok r qm it =>
    rw [h1] at h
    dsimp only at h ⊢
    by_cases hr : r ≠ 0
    · rw [if_pos hr] at h; cases h
    rw [if_neg hr] at h
    simp only [if_neg hr]
    cases h2 : pLoop w ((512 + l * 64) % 2 ^ 32) qm dr.p 4096 0 c.p with
    | ub => rw [h2] at h; cases h
    | hang => rw [h2] at h; cases h
    | fail p => rw [h2] at h; cases h
    | none p => rw [h2] at h; cases h
    | some pm =>
      rw [h2] at h
      dsimp only at h ⊢
      unfold turnRest at h ⊢
      dsimp only at h ⊢
      cases h3 : sub (2 ^ w) pm ⟨false, [1]⟩ with
      | none => rw [h3] at h; cases h
      | some p1 =>
        rw [h3] at h
        dsimp only at h ⊢
        cases h4 : div w .none true false p1 qm with
        | ub => rw [h4] at h; cases h
        | err => rw [h4] at h; cases h
        | ok k rr =>
          rw [h4] at h
          dsimp only at h ⊢
          cases h5 : gLoop w pm p1 k dr.g 4096 0 c.g with
          | ub => rw [h5] at h; cases h
          | hang => rw [h5] at h; cases h
          | fail g => rw [h5] at h; cases h
          | none g => rw [h5] at h; cases h
          | some gm =>
            rw [h5] at h
            dsimp only at h ⊢
            obtain ⟨-, f1, f2, f3⟩ := keys_frame _ _ _ _ _ _ h
            dsimp only at f1 f2 f3
            have pR := hD.pR
            have qR := hD.qA.1
            have gR := hD.gR
            rw [f1] at pR
            rw [f2] at qR
            rw [f3] at gR
            have hp1 := hD.one_lt
            have hq1 := hD.qA.2.1
            obtain ⟨x1, e1, n1⟩ := pR.sub hw8 (NatRep.one hw8) (by omega)
            rw [e1] at h3
            cases h3
            obtain ⟨k', r', e2, n2⟩ := cofactor hw n1 qR (by omega)
            rw [e2] at h4
            cases h4
            obtain ⟨bs, hl, x, ex, x0⟩ := randRange_self hw k n2.wf _ n2.toInt hD.cofactor_pos
            rw [n2.countBits hw] at hl
            refine ⟨bs, hl, ?_⟩
            rcases NatRep.randRange hw 8 n2 hD.cofactor_pos bs (by rw [n2.countBits hw]; exact hl) with
              e | ⟨x', xv, e, nx, -⟩
            · rw [e] at ex; cases ex
            rw [e] at ex
            cases ex
            have hxv : xv = 0 := by rw [nx.toInt] at x0; omega
            subst hxv
            obtain ⟨y, ey, ny⟩ := gR.modExp hw nx pR hp1
            rw [pow_zero, Nat.mod_eq_of_lt hp1] at ny
            unfold keys
            dsimp only
            rw [hi.hx, e]
            dsimp only
            rw [ey]
            exact ⟨_, rfl, nx, ny, f1.symm, f2.symm, f3.symm⟩

end Verif.DsaGen
