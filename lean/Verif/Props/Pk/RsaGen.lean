import Verif.Model.Pk.RsaGen
import Verif.Props.Mpi.PrimeGen
import Verif.Props.Pk.Rsa
/-!
# C64: RSA key generation (`cry_rsa_keygen`)

Full statement: when the call returns 0 the context holds a key: `n = p·q` has exactly `bits` bits, `p` and `q` are
different and were accepted by the primality test, `e` is coprime to `(p-1)(q-1)` and `d` is its inverse, so that
decryption undoes encryption.

False of the code: `d` is never computed (`rsa_keygen_no_private`), and success is also reported when all turns are
used up without finding a key (`rsa_keygen_exhausted_*`).
-/
namespace Verif.RsaGen
open Verif.Mpi

/-- C64 is false of the code: whatever happens, the private exponent is the one that was in the context before. -/
theorem keyLoop_d (w bits : Nat) (e : Int) (draw : Nat → Draw) : ∀ (m j : Nat) (c : Ctx) (g : Mpi) (res : Int) (c' : Ctx),
    keyLoop w bits e draw m j c g = .ok res c' → c'.d = c.d
  | 0, j, c, g, res, c', h => by
    rw [keyLoop] at h; cases h; rfl
  | m + 1, j, c, g, res, c', h => by
    have hrest : ∀ c g, (∀ r c1, turnRest w bits e (draw j) c g = .stop r c1 → c1.d = c.d) ∧
        (∀ c1 g1, turnRest w bits e (draw j) c g = .test c1 g1 → c1.d = c.d) := by
      intro c g
      unfold turnRest
      constructor
      · intro r c1 h
        repeat' (first | (dsimp only at h) | split at h)
        all_goals first | (cases h; rfl) | cases h
      · intro r c1 h
        repeat' (first | (dsimp only at h) | split at h)
        all_goals first | (cases h; rfl) | cases h
    have hturn : (∀ r c1, turn w bits e (draw j) c g = .stop r c1 → c1.d = c.d) ∧
        (∀ c1 g1, turn w bits e (draw j) c g = .test c1 g1 → c1.d = c.d) := by
      unfold turn
      constructor
      · intro r c1 h
        repeat' (first | (dsimp only at h) | split at h)
        all_goals first | (cases h; rfl) | cases h | (have := (hrest _ _).1 _ _ h; exact this)
      · intro r c1 h
        repeat' (first | (dsimp only at h) | split at h)
        all_goals first | (cases h; rfl) | cases h | (have := (hrest _ _).2 _ _ h; exact this)
    rw [keyLoop] at h
    cases ht : turn w bits e (draw j) c g with
    | ub => rw [ht] at h; cases h
    | hang => rw [ht] at h; cases h
    | stop r c1 => rw [ht] at h; cases h; exact hturn.1 _ _ ht
    | test c1 g1 =>
      rw [ht] at h
      dsimp only at h
      split at h
      · rw [keyLoop_d w bits e draw m (j + 1) c1 g1 res c' h]; exact hturn.2 _ _ ht
      · cases h; exact hturn.2 _ _ ht

/-- C64 is false of the code: `cry_rsa_keygen` never stores a private exponent. -/
theorem rsa_keygen_no_private (w bits : Nat) (e : Int) (draw : Nat → Draw) (c c' : Ctx) (res : Int)
    (h : keygen w bits e draw c = .ok res c') : c'.d = c.d := by
  unfold keygen at h
  split at h
  · split at h
    · cases h
    · have := keyLoop_d w bits e draw _ _ _ _ _ _ h
      exact this
  · exact keyLoop_d w bits e draw _ _ _ _ _ _ h

/-- What a call of `cry_mpi_prime` inside the loop may leave when it succeeds. -/
def Accepted (w half : Nat) (draw : Nat → PrimeDraw) (x : Mpi) (n : Nat) : Prop :=
  NatRep w x n ∧ 1 < n ∧ ∃ k, n = candVal w half (beVal (draw k).bytes) ∧ isPrime w (draw k).mr x = .res true

/-- The part of the claim about the public key, with `g` the greatest common divisor found. -/
def Public (w bits : Nat) (dr : Draw) (c : Ctx) (g : Nat) : Prop :=
  ∃ p q e, Accepted w (bits / 2) dr.p c.p p ∧ Accepted w (bits / 2) dr.q c.q q ∧ p ≠ q ∧ NatRep w c.n (p * q) ∧
    Nat.size (p * q) = bits ∧ NatRep w c.e e ∧ Nat.gcd e ((p - 1) * (q - 1)) = g

/-- The bytes delivered have the lengths asked for. -/
structure Supplied (w bits : Nat) (dr : Draw) : Prop where
  pd : DrawOk w (bits / 2) dr.p
  qd : DrawOk w (bits / 2) dr.q
  ed : dr.e.length = (bits + 7) / 8

/-- State of the context between turns: no sign left over from before. -/
structure Inv (w : Nat) (e : Int) (c : Ctx) : Prop where
  hp : c.p.neg = false
  hq : c.q.neg = false
  he : c.e.neg = false
  hev : e ≠ 0 → NatRep w c.e e.toNat

theorem prime_accepted {w : Nat} (hw : DigitWidth w) {half : Nat} {draw : Nat → PrimeDraw} (hd : DrawOk w half draw)
    (old : Mpi) (hs : old.neg = false) (alloc itermax : Nat) (p : Mpi) (it : Nat)
    (h : prime w old alloc half itermax draw = .ok 0 p it) : ∃ n, Accepted w half draw p n := by
  have hand : ¬ (half &&& 7 ≠ 0 ∨ half = 0) := by
    intro hc
    unfold prime at h
    rw [if_pos hc] at h
    cases h
  have h7 : half &&& 7 = half % 8 := Nat.and_two_pow_sub_one_eq_mod half 3
  have hb : 0 < half ∧ half % 8 = 0 := by omega
  unfold prime at h
  rw [if_neg hand] at h
  obtain ⟨k, k1, k2, k3, k4, -⟩ := primeLoop_success hw hb.1 hb.2 hd itermax 0 alloc old p it hs h
  simp only [Nat.zero_add] at k2 k3 k4
  refine ⟨_, k3, ?_, k, rfl, k4⟩
  by_contra hle
  rcases (show candVal w half (beVal (draw k).bytes) = 0 ∨ candVal w half (beVal (draw k).bytes) = 1 by omega)
    with h0 | h1
  · rw [h0] at k3
    have := isPrime_small_factor hw p k3.wf 0 k3.toInt 3 Nat.prime_three (by omega) (by omega) (by simp) (by omega)
      (draw k).mr
    rw [this] at k4
    cases k4
  · rw [h1] at k3
    rw [k3.unique (NatRep.one hw.pos), (isPrime_one_hangs hw _).1] at k4
    cases k4

theorem turnRest_spec {w : Nat} (hw : DigitWidth w) {bits : Nat} {e : Int} {dr : Draw} (hd : Supplied w bits dr) {c : Ctx}
    (hi : Inv w e c) {p q : Nat} (hp : Accepted w (bits / 2) dr.p c.p p) (hq : Accepted w (bits / 2) dr.q c.q q)
    (g : Mpi) :
    turnRest w bits e dr c g = .ub ∨ ∃ c' g', turnRest w bits e dr c g = .test c' g' ∧ Inv w e c' ∧
      (g' = g ∨ ∃ gv, NatRep w g' gv ∧ Public w bits dr c' gv) := by
  have hw8 := hw.pos
  have p1 := hp.2.1
  have q1 := hq.2.1
  unfold turnRest
  by_cases he : cmp c.q c.p = 0
  · right; rw [if_pos he]; exact ⟨c, g, rfl, hi, Or.inl rfl⟩
  rw [if_neg he]
  have hne : p ≠ q := fun h => he ((hq.1.cmp_eq hp.1).2 h.symm)
  obtain ⟨n, e1, n1⟩ := hp.1.mul hw8 c.n.neg hq.1
  rw [e1]
  dsimp only
  by_cases hb : countBits w n ≠ bits
  · right; rw [if_pos hb]; exact ⟨_, g, rfl, ⟨hi.hp, hi.hq, hi.he, hi.hev⟩, Or.inl rfl⟩
  rw [if_neg hb]
  have hsz : Nat.size (p * q) = bits := by
    rw [← n1.countBits hw]; exact not_not.1 hb
  obtain ⟨x1, e2, n2⟩ := hp.1.sub hw8 (NatRep.one hw8) (by omega)
  rw [e2]
  dsimp only
  obtain ⟨x2, e3, n3⟩ := hq.1.sub hw8 (NatRep.one hw8) (by omega)
  rw [e3]
  dsimp only
  obtain ⟨phi, e4, n4⟩ := n2.mul hw8 false n3
  rw [e4]
  dsimp only
  have hphi : 0 < (p - 1) * (q - 1) := Nat.mul_pos (by omega) (by omega)
  have hE : (if e = 0 then rand w c.e.neg dr.eAlloc bits dr.e else RandOut.ok c.e) = .ub ∨
      ∃ ev m, (if e = 0 then rand w c.e.neg dr.eAlloc bits dr.e else RandOut.ok c.e) = .ok ev ∧ NatRep w ev m ∧
        (e ≠ 0 → NatRep w ev e.toNat) := by
    by_cases h0 : e = 0
    · rw [if_pos h0, hi.he]
      rcases NatRep.rand hw dr.eAlloc bits dr.e hd.ed with h | ⟨x, k, h, nx⟩
      · left; exact h
      · right; exact ⟨x, k, h, nx, fun h => absurd h0 h⟩
    · right; rw [if_neg h0]; exact ⟨c.e, _, rfl, hi.hev h0, fun _ => hi.hev h0⟩
  rcases hE with h | ⟨ev, m, h, nE, nE'⟩
  · left; rw [h]
  · right
    rw [h]
    dsimp only
    obtain ⟨z, e5, -, n5⟩ := NatRep.gcd hw8 dr.jx dr.jy nE n4 hphi
    rw [e5]
    exact ⟨_, z, rfl, ⟨hi.hp, hi.hq, nE.neg, nE'⟩, Or.inr ⟨_, n5, p, q, m, hp, hq, hne, n1, hsz, nE, rfl⟩⟩

theorem turn_spec {w : Nat} (hw : DigitWidth w) {bits : Nat} {e : Int} {dr : Draw} (hd : Supplied w bits dr) {c : Ctx}
    (hi : Inv w e c) (g : Mpi) :
    (∀ res c', turn w bits e dr c g = .stop res c' → res ≠ 0) ∧
    (∀ c' g', turn w bits e dr c g = .test c' g' → Inv w e c' ∧
      (g' = g ∨ ∃ gv, NatRep w g' gv ∧ Public w bits dr c' gv)) := by
  have hh : bits >>> 1 = bits / 2 := by rw [Nat.shiftRight_eq_div_pow, pow_one]
  unfold turn
  rw [hh]
  cases h1 : prime w c.p dr.pAlloc (bits / 2) 10000 dr.p with
  | ub => simp
  | hang => simp
  | ok r1 p i1 =>
    dsimp only
    by_cases hr1 : r1 ≠ 0
    · simp only [if_pos hr1]
      exact ⟨fun _ _ h => by cases h; exact hr1, fun _ _ h => by cases h⟩
    simp only [if_neg hr1]
    obtain rfl := not_not.1 hr1
    obtain ⟨pn, hp⟩ := prime_accepted hw hd.pd c.p hi.hp _ _ p i1 h1
    cases h2 : prime w c.q dr.qAlloc (bits / 2) 10000 dr.q with
    | ub => simp
    | hang => simp
    | ok r2 q i2 =>
      dsimp only
      by_cases hr2 : r2 ≠ 0
      · simp only [if_pos hr2]
        exact ⟨fun _ _ h => by cases h; exact hr2, fun _ _ h => by cases h⟩
      simp only [if_neg hr2]
      obtain rfl := not_not.1 hr2
      obtain ⟨qn, hq⟩ := prime_accepted hw hd.qd c.q hi.hq _ _ q i2 h2
      have hi' : Inv w e { c with p := p, q := q } := ⟨hp.1.neg, hq.1.neg, hi.he, hi.hev⟩
      rcases turnRest_spec hw hd hi' hp hq g with h | ⟨c', g', h, hI, hg⟩
      · rw [h]; simp
      · rw [h]
        exact ⟨fun _ _ h => (by cases h), fun _ _ h => by cases h; exact ⟨hI, hg⟩⟩

/-- All of the next `m` turns, beginning with turn `j`, end with the test of the loop asking for another turn; the state
after them. -/
def allRetry (w bits : Nat) (e : Int) (draw : Nat → Draw) : Nat → Nat → Ctx → Mpi → Option (Ctx × Mpi)
  | 0, _, c, g => some (c, g)
  | m + 1, j, c, g =>
    match turn w bits e (draw j) c g with
    | .test c g => if cmp g ⟨false, [1]⟩ ≠ 0 then allRetry w bits e draw m (j + 1) c g else none
    | _ => none

theorem keyLoop_spec {w : Nat} (hw : DigitWidth w) {bits : Nat} {e : Int} {draw : Nat → Draw}
    (hd : ∀ j, Supplied w bits (draw j)) : ∀ (m j : Nat) (c : Ctx) (g : Mpi) (c' : Ctx), Inv w e c →
    cmp g ⟨false, [1]⟩ ≠ 0 → keyLoop w bits e draw m j c g = .ok 0 c' →
    (∃ k < m, Public w bits (draw (j + k)) c' 1) ∨ ∃ g', allRetry w bits e draw m j c g = some (c', g')
  | 0, j, c, g, c', _, _, h => by
    rw [keyLoop] at h; cases h
    exact Or.inr ⟨g, rfl⟩
  | m + 1, j, c, g, c', hi, hg, h => by
    obtain ⟨t1, t2⟩ := turn_spec hw (hd j) hi g
    rw [keyLoop] at h
    rw [allRetry]
    cases ht : turn w bits e (draw j) c g with
    | ub => rw [ht] at h; cases h
    | hang => rw [ht] at h; cases h
    | stop r c1 => rw [ht] at h; cases h; exact absurd rfl (t1 _ _ ht)
    | test c1 g1 =>
      rw [ht] at h
      dsimp only at h ⊢
      obtain ⟨i1, hcase⟩ := t2 _ _ ht
      by_cases hg1 : cmp g1 ⟨false, [1]⟩ ≠ 0
      · rw [if_pos hg1] at h ⊢
        rcases keyLoop_spec hw hd m (j + 1) c1 g1 c' i1 hg1 h with ⟨k, hk, hP⟩ | hr
        · left
          exact ⟨k + 1, by omega, by rw [show j + (k + 1) = j + 1 + k by omega]; exact hP⟩
        · right; exact hr
      · rw [if_neg hg1] at h ⊢
        cases h
        rcases hcase with rfl | ⟨gv, ng, hP⟩
        · exact absurd (not_not.1 hg1) hg
        · left
          have := (ng.cmp_eq (NatRep.one hw.pos)).1 (not_not.1 hg1)
          subst this
          exact ⟨0, by omega, hP⟩

/-- C64, partial: when the call returns 0, either the public part of the claim holds (with the numbers drawn in one of
the turns), or all 10000 turns have ended without a key.  Missing from the full statement: the private exponent, and the
second case, which should be an error.  The first part covers every exponent given by the caller that is not negative,
and the random one (`e = 0`). -/
theorem rsa_keygen_partial {w : Nat} (hw : DigitWidth w) {bits : Nat} {e : Int} (he : 0 ≤ e) (he' : e < 2 ^ 63)
    {draw : Nat → Draw} (hd : ∀ j, Supplied w bits (draw j)) (c c' : Ctx) (hp : c.p.neg = false) (hq : c.q.neg = false)
    (hE : c.e.neg = false) (h : keygen w bits e draw c = .ok 0 c') :
    (∃ k < 10000, Public w bits (draw k) c' 1) ∨
    ∃ c0 g, (c0 = c ∨ ∃ x, c0 = { c with e := x }) ∧ allRetry w bits e draw 10000 0 c0 ⟨false, []⟩ = some (c', g) := by
  have h0 : cmp (⟨false, []⟩ : Mpi) ⟨false, [1]⟩ ≠ 0 := by decide
  unfold keygen at h
  by_cases hz : e = 0
  · rw [if_neg (by simpa using hz)] at h
    rcases keyLoop_spec hw hd 10000 0 c _ c' ⟨hp, hq, hE, fun h => absurd hz h⟩ h0 h with ⟨k, hk, hP⟩ | ⟨g, hr⟩
    · left; exact ⟨k, hk, by simpa using hP⟩
    · right; exact ⟨c, g, Or.inl rfl, hr⟩
  · rw [if_pos hz] at h
    obtain ⟨ev, e1, n1⟩ := natRep_setInt hw (v := e.toNat) (by omega)
    rw [show ((e.toNat : Nat) : Int) = e by omega] at e1
    rw [e1] at h
    dsimp only at h
    rcases keyLoop_spec hw hd 10000 0 { c with e := ev } _ c' ⟨hp, hq, n1.neg, fun _ => n1⟩ h0 h with
      ⟨k, hk, hP⟩ | ⟨g, hr⟩
    · left; exact ⟨k, hk, by simpa using hP⟩
    · right; exact ⟨_, g, Or.inr ⟨ev, rfl⟩, hr⟩

/-- With a key found and the two numbers really prime, what is missing is one call of `cry_mpi_inv`: it succeeds, and the
completed key is one for which decryption undoes encryption (C44). -/
theorem rsa_keygen_completed {w : Nat} (hw : DigitWidth w) {bits : Nat} {dr : Draw} {c : Ctx}
    (h : Public w bits dr c 1) : ∃ p q e, NatRep w c.p p ∧ NatRep w c.q q ∧ NatRep w c.e e ∧
      ∀ phi, NatRep w phi ((p - 1) * (q - 1)) → ∃ dm d, Mpi.inv w c.e phi = some dm ∧ NatRep w dm d ∧
        (p.Prime → q.Prime → ∀ padding, Rsa.Key w ⟨c.n, c.e, dm, padding⟩ p q e d) := by
  obtain ⟨p, q, e, hp, hq, hne, hn, -, hE, hg⟩ := h
  have p1 := hp.2.1
  have q1 := hq.2.1
  refine ⟨p, q, e, hp.1, hq.1, hE, fun phi hphi => ?_⟩
  obtain ⟨dm, d, e1, n1, -, m1⟩ := (hE.inv hw hphi (Nat.mul_pos (by omega) (by omega))).1 hg
  refine ⟨dm, d, e1, n1, fun pP qP pad => ⟨hn, hE, n1, pP, qP, hne, m1.of_dvd ?_⟩⟩
  exact Nat.lcm_dvd (Nat.dvd_mul_right _ _) (Nat.dvd_mul_left _ _)

/-- A turn that leads back to the same state is repeated until the turns are used up; then success is reported. -/
theorem keyLoop_fixed {w bits : Nat} {e : Int} {dr : Draw} {c : Ctx} {g : Mpi}
    (ht : turn w bits e dr c g = .test c g) (hg : cmp g ⟨false, [1]⟩ ≠ 0) : ∀ m j,
    keyLoop w bits e (fun _ => dr) m j c g = .ok 0 c
  | 0, j => rfl
  | m + 1, j => by
    rw [keyLoop, ht]
    dsimp only
    rw [if_pos hg]
    exact keyLoop_fixed ht hg m (j + 1)

/-- A fresh context. -/
def fresh : Ctx := ⟨⟨false, []⟩, ⟨false, []⟩, ⟨false, []⟩, ⟨false, []⟩, ⟨false, []⟩⟩

/-- Constant random bytes: primes of eight bits. -/
def constDraw (a b : Byte) : Draw :=
  ⟨8, fun _ => ⟨[a], fun _ => [2]⟩, 8, fun _ => ⟨[b], fun _ => [2]⟩, 8, [], 0, 0⟩

/-- C64 is false of the code: when both primes are equal in every turn, success is reported although no modulus has been
stored. -/
theorem rsa_keygen_exhausted_equal :
    keygen 64 16 3 (fun _ => constDraw 0xc1 0xc1) fresh =
      .ok 0 ⟨⟨false, []⟩, ⟨false, [3]⟩, ⟨false, []⟩, ⟨false, [193]⟩, ⟨false, [193]⟩⟩ := by
  have t0 : turn 64 16 3 (constDraw 0xc1 0xc1) { fresh with e := ⟨false, [3]⟩ } ⟨false, []⟩ =
      .test ⟨⟨false, []⟩, ⟨false, [3]⟩, ⟨false, []⟩, ⟨false, [193]⟩, ⟨false, [193]⟩⟩ ⟨false, []⟩ := by decide +kernel
  have t1 : turn 64 16 3 (constDraw 0xc1 0xc1)
      ⟨⟨false, []⟩, ⟨false, [3]⟩, ⟨false, []⟩, ⟨false, [193]⟩, ⟨false, [193]⟩⟩ ⟨false, []⟩ =
      .test ⟨⟨false, []⟩, ⟨false, [3]⟩, ⟨false, []⟩, ⟨false, [193]⟩, ⟨false, [193]⟩⟩ ⟨false, []⟩ := by decide +kernel
  have hs : setInt 64 3 = some ⟨false, [3]⟩ := by decide +kernel
  unfold keygen
  rw [if_pos (by decide), hs]
  dsimp only
  rw [keyLoop, t0]
  dsimp only
  rw [if_pos (by decide)]
  exact keyLoop_fixed t1 (by decide) _ _

/-- C64 is false of the code: with an even exponent success is reported, with a key that cannot be inverted. -/
theorem rsa_keygen_exhausted_even :
    keygen 64 16 2 (fun _ => constDraw 0xc1 0xc5) fresh =
      .ok 0 ⟨⟨false, [38021]⟩, ⟨false, [2]⟩, ⟨false, []⟩, ⟨false, [193]⟩, ⟨false, [197]⟩⟩ := by
  have t0 : turn 64 16 2 (constDraw 0xc1 0xc5) { fresh with e := ⟨false, [2]⟩ } ⟨false, []⟩ =
      .test ⟨⟨false, [38021]⟩, ⟨false, [2]⟩, ⟨false, []⟩, ⟨false, [193]⟩, ⟨false, [197]⟩⟩ ⟨false, [2]⟩ := by
    decide +kernel
  have t1 : turn 64 16 2 (constDraw 0xc1 0xc5)
      ⟨⟨false, [38021]⟩, ⟨false, [2]⟩, ⟨false, []⟩, ⟨false, [193]⟩, ⟨false, [197]⟩⟩ ⟨false, [2]⟩ =
      .test ⟨⟨false, [38021]⟩, ⟨false, [2]⟩, ⟨false, []⟩, ⟨false, [193]⟩, ⟨false, [197]⟩⟩ ⟨false, [2]⟩ := by
    decide +kernel
  have hs : setInt 64 2 = some ⟨false, [2]⟩ := by decide +kernel
  unfold keygen
  rw [if_pos (by decide), hs]
  dsimp only
  rw [keyLoop, t0]
  dsimp only
  rw [if_pos (by decide)]
  exact keyLoop_fixed t1 (by decide) _ _

/-- C64 is false of the code: with an odd number of bits the modulus never has that length, the exponent is never tested,
and success is reported. -/
theorem rsa_keygen_exhausted_odd :
    keygen 64 17 2 (fun _ => constDraw 0xc1 0xc5) fresh =
      .ok 0 ⟨⟨false, [38021]⟩, ⟨false, [2]⟩, ⟨false, []⟩, ⟨false, [193]⟩, ⟨false, [197]⟩⟩ := by
  have t0 : turn 64 17 2 (constDraw 0xc1 0xc5) { fresh with e := ⟨false, [2]⟩ } ⟨false, []⟩ =
      .test ⟨⟨false, [38021]⟩, ⟨false, [2]⟩, ⟨false, []⟩, ⟨false, [193]⟩, ⟨false, [197]⟩⟩ ⟨false, []⟩ := by
    decide +kernel
  have t1 : turn 64 17 2 (constDraw 0xc1 0xc5)
      ⟨⟨false, [38021]⟩, ⟨false, [2]⟩, ⟨false, []⟩, ⟨false, [193]⟩, ⟨false, [197]⟩⟩ ⟨false, []⟩ =
      .test ⟨⟨false, [38021]⟩, ⟨false, [2]⟩, ⟨false, []⟩, ⟨false, [193]⟩, ⟨false, [197]⟩⟩ ⟨false, []⟩ := by
    decide +kernel
  have hs : setInt 64 2 = some ⟨false, [2]⟩ := by decide +kernel
  unfold keygen
  rw [if_pos (by decide), hs]
  dsimp only
  rw [keyLoop, t0]
  dsimp only
  rw [if_pos (by decide)]
  exact keyLoop_fixed t1 (by decide) _ _

/-- A key is found (the public part). -/
example : keygen 64 16 5 (fun _ => constDraw 0xc1 0xc5) fresh =
    .ok 0 ⟨⟨false, [38021]⟩, ⟨false, [5]⟩, ⟨false, []⟩, ⟨false, [193]⟩, ⟨false, [197]⟩⟩ := by decide +kernel

end Verif.RsaGen
