import Verif.Props.Pk.DsaGen
import Verif.Lemmas.PowMod
import Verif.Lemmas.Pk.DsaPrimes
/-!
# C65: DSA key generation, which key a call makes

The key made when the first candidate for each number is good.
-/
namespace Verif.DsaGen
open Verif.Mpi Verif.Dsa

/-- The number below `n` that random bytes of value `V` stand for: as many bits as `n` has with the highest one set, then
reduced. -/
def drawn (n V : Nat) : Nat := (V % 2 ^ (Nat.size n - 1) + 2 ^ (Nat.size n - 1)) % n

/-- Bytes of the length asked for, whose leading digit is not zero. -/
def Fills (w bits : Nat) (bs : List Byte) : Prop :=
  bs.length = (bits + 7) / 8 ∧ (2 ^ w) ^ ((bits - 1) / w) ≤ beVal bs

theorem rand_val {w : Nat} (hw : DigitWidth w) (alloc : Nat) {bits : Nat} (h0 : 0 < bits) {bs : List Byte}
    (hf : Fills w bits bs) : ∃ x, rand w false alloc bits bs = .ok x ∧
      NatRep w x (beVal bs % 2 ^ (bits - 1) + 2 ^ (bits - 1)) := by
  obtain ⟨x, e, n, s, v⟩ := rand_spec hw false (alloc := alloc) h0 hf.1 hf.2
  exact ⟨x, e, n, s, v⟩

theorem randRange_val {w : Nat} (hw : DigitWidth w) (alloc : Nat) {y : Mpi} {n : Nat} (hy : NatRep w y n) (hn : 0 < n)
    {bs : List Byte} (hf : Fills w (Nat.size n) bs) :
    ∃ x, randRange w false alloc y bs = .ok x ∧ NatRep w x (drawn n (beVal bs)) := by
  have hsz : 0 < Nat.size n := Nat.size_pos.2 hn
  obtain ⟨x, e, nx⟩ := rand_val hw alloc hsz hf
  unfold randRange drawn
  rw [hy.countBits hw, e]
  dsimp only
  obtain ⟨c1, c2⟩ := nx.cmpAbs_eq hy
  by_cases hc : cmpAbs x y ≥ 0
  · rw [if_pos hc]
    obtain ⟨z, ez, nz⟩ := nx.mod hw hy hn
    rw [ez]
    exact ⟨z, rfl, nz⟩
  · rw [if_neg hc]
    refine ⟨x, rfl, ?_⟩
    rw [Nat.mod_eq_of_lt (c1.1 (by omega))]
    exact nx

/-- A prime of the sizes in question is accepted, unless a base drawn is zero. -/
theorem isPrime_accepts {w : Nat} (hw : DigitWidth w) {y : Mpi} {n : Nat} (hy : NatRep w y n) (hn : n.Prime)
    (hbig : 1010 ≤ n) {mr : Nat → List Byte} (hl : ∀ i, (mr i).length = (Nat.size n + 7) / 8)
    (hf : ∀ i < 5, Fills w (Nat.size n) (mr i) ∧ drawn n (beVal (mr i)) ≠ 0) : isPrime w mr y = .res true := by
  have hr : ∀ i, ∃ x, i < 5 → randRange w false 8 y (mr i) = .ok x ∧ NatRep w x (drawn n (beVal (mr i))) := fun i => by
    by_cases h : i < 5
    · obtain ⟨x, e⟩ := randRange_val hw 8 hy hn.pos (hf i h).1
      exact ⟨x, fun _ => e⟩
    · exact ⟨y, fun h' => absurd h' h⟩
  choose a ha using hr
  obtain ⟨b, e, hb⟩ := isPrime_prime_partial hw y hy.wf n hy.toInt hn (.inr hbig) mr
    (fun i => by rw [hl i, hy.countBits hw]) a (fun i hi => (ha i hi).1)
  rw [e, hb.2 (fun i hi => by rw [(ha i hi).2.toInt]; exact_mod_cast (hf i hi).2)]

/-- Random bytes with which the first candidate for every number is good: `V…` are their values. -/
structure Run (w l : Nat) (dr : Draw) (p q h x : Nat) : Prop where
  alloc : 160 ≤ dr.qAlloc * w
  qd : DrawOk w 160 dr.q
  pd : ∀ j, (dr.p j).bytes.length = ((512 + l * 64) % 2 ^ 32 + 7) / 8
  qF : Fills w 160 (dr.q 0).bytes
  qV : q = Spec.primeCandidate 160 (beVal (dr.q 0).bytes)
  qP : q.Prime
  qM : ∀ i, ((dr.q 0).mr i).length = (Nat.size q + 7) / 8
  qB : ∀ i < 5, Fills w (Nat.size q) ((dr.q 0).mr i) ∧ drawn q (beVal ((dr.q 0).mr i)) ≠ 0
  bits : 0 < (512 + l * 64) % 2 ^ 32
  pF : Fills w ((512 + l * 64) % 2 ^ 32) (dr.p 0).bytes
  pV : ∃ M, M = beVal (dr.p 0).bytes % 2 ^ ((512 + l * 64) % 2 ^ 32 - 1) + 2 ^ ((512 + l * 64) % 2 ^ 32 - 1) ∧
    p = M - M % (2 * q) + 1
  pP : p.Prime
  p2 : 1010 ≤ p
  pM : ∀ i, ((dr.p 0).mr i).length = (Nat.size p + 7) / 8
  pB : ∀ i < 5, Fills w (Nat.size p) ((dr.p 0).mr i) ∧ drawn p (beVal ((dr.p 0).mr i)) ≠ 0
  gF : Fills w (Nat.size (p - 1)) (dr.g 0).bytes
  gV : h = drawn (p - 1) (beVal (dr.g 0).bytes) + 1
  g1 : 1 < h ^ ((p - 1) / q) % p
  k0 : 0 < (p - 1) / q
  xF : Fills w (Nat.size ((p - 1) / q)) dr.x.bytes
  xV : x = drawn ((p - 1) / q) (beVal dr.x.bytes)

theorem turn_run {w : Nat} (hw : DigitWidth w) {l : Nat} {dr : Draw} {p q h x : Nat} (R : Run w l dr p q h x) {c : Ctx}
    (hi : Inv c) : ∃ c', turn w l dr c = .stop 0 c' ∧ NatRep w c'.q q ∧ NatRep w c'.p p ∧
      NatRep w c'.g (h ^ ((p - 1) / q) % p) ∧ NatRep w c'.pvt x ∧
      NatRep w c'.pub ((h ^ ((p - 1) / q) % p) ^ x % p) := by
  have hw8 := hw.pos
  have hq1 := R.qP.one_lt
  have hp1 := R.pP.one_lt
  have hqbig : 1010 ≤ q := by
    have := Spec.primeCandidate_ge (bits := 160) (beVal (dr.q 0).bytes) (by omega)
    rw [← R.qV] at this; omega
  have hcv : candVal w 160 (beVal (dr.q 0).bytes) = q := by
    unfold candVal; rw [if_neg (not_lt.2 R.qF.2), R.qV]
  rcases primeCand_spec hw dr.qAlloc (bits := 160) (by omega) (by omega) (R.qd 0).1 with ⟨-, ha⟩ | ⟨qm, -, hqm⟩
  · have := R.alloc; omega
  have hqm' := hqm
  rw [hcv] at hqm'
  have hacc := isPrime_accepts hw hqm' R.qP hqbig R.qM R.qB
  have e1 := (prime_success_iff_partial hw (bits := 160) (by omega) (by omega) R.qd c.q hi.hq dr.qAlloc 5000 R.alloc
    qm 1).2 ⟨0, by omega, rfl, hqm, hacc, fun j hj => absurd hj (by omega)⟩
  unfold turn
  rw [e1]
  dsimp only
  rw [if_neg (by simp)]
  obtain ⟨M, hM, hpM⟩ := R.pV
  obtain ⟨m, em, nm⟩ := rand_val hw (dr.p 0).alloc R.bits R.pF
  rw [← hM] at nm
  rw [pLoop, hi.hp, em]
  dsimp only
  obtain ⟨r1, ea, n1⟩ := hqm'.add hw8 hqm'
  rw [ea]
  dsimp only
  obtain ⟨r2, eb, n2⟩ := mod_rIsB hw nm n1 (by omega)
  rw [eb]
  dsimp only
  obtain ⟨s1, ec, n3⟩ := nm.sub hw8 n2 (Nat.mod_le _ _)
  rw [ec]
  dsimp only
  obtain ⟨pm, ed, n4⟩ := n3.add hw8 (NatRep.one hw8)
  rw [ed]
  dsimp only
  rw [← two_mul, ← hpM] at n4
  rw [isPrime_accepts hw n4 R.pP R.p2 R.pM R.pB]
  dsimp only
  unfold turnRest
  dsimp only
  obtain ⟨x1, ee, n5⟩ := n4.sub hw8 (NatRep.one hw8) (by omega)
  rw [ee]
  dsimp only
  obtain ⟨k, rr, ef, n6⟩ := cofactor hw n5 hqm' (by omega)
  rw [ef]
  dsimp only
  rw [gLoop]
  obtain ⟨rm, eg, n7⟩ := randRange_val hw (dr.g 0).alloc n5 (by omega) R.gF
  rw [eg]
  dsimp only
  obtain ⟨hm, eh, n8⟩ := n7.add hw8 (NatRep.one hw8)
  rw [eh]
  dsimp only
  rw [← R.gV] at n8
  obtain ⟨gm, ei, n9⟩ := n8.modExp hw n6 n4 hp1
  rw [ei]
  dsimp only
  have hc : cmpAbs gm ⟨false, [1]⟩ > 0 := by
    obtain ⟨c1, c2⟩ := n9.cmpAbs_eq (NatRep.one hw8)
    have := R.g1
    rcases lt_trichotomy (cmpAbs gm ⟨false, [1]⟩) 0 with h | h | h
    · have := c1.1 h; omega
    · have := c2.1 h; omega
    · exact h
  rw [if_pos hc]
  dsimp only
  unfold keys
  dsimp only
  rw [hi.hx]
  obtain ⟨xm, ej, n10⟩ := randRange_val hw dr.x.alloc n6 R.k0 R.xF
  rw [ej]
  dsimp only
  rw [← R.xV] at n10
  obtain ⟨ym, ek, n11⟩ := n9.modExp hw n10 n4 hp1
  rw [ek]
  exact ⟨_, rfl, hqm', n4, n9, n10, n11⟩

/-- C65, which key is made: the numbers in the context are those the random bytes stand for. -/
theorem dsa_keygen_run {w : Nat} (hw : DigitWidth w) {l : Nat} {draw : Nat → Draw} {p q h x : Nat}
    (R : Run w l (draw 0) p q h x) {c : Ctx} (hi : Inv c) :
    ∃ c', keygen w l draw c = .ok 0 c' ∧ NatRep w c'.q q ∧ NatRep w c'.p p ∧ NatRep w c'.g (h ^ ((p - 1) / q) % p) ∧
      NatRep w c'.pvt x ∧ NatRep w c'.pub ((h ^ ((p - 1) / q) % p) ^ x % p) := by
  obtain ⟨c', e, h⟩ := turn_run hw R hi
  refine ⟨c', ?_, h⟩
  unfold keygen
  rw [keyLoop, e]

/-! A concrete run: random bytes for a key with a prime of 160 bits and one of 512 bits. -/

def exQ_bytes : List Byte :=
  [0xd6, 0x85, 0xd6, 0x24, 0x04, 0xfc, 0xd5, 0x55, 0x5d, 0xaf, 0x10, 0x6d, 0xb8, 0xde, 0xe0, 0x81, 0x17,
   0x9a, 0x07, 0x1f]

def exP_bytes : List Byte :=
  [0xdd, 0x8f, 0x90, 0xd5, 0xd4, 0x7d, 0xd7, 0xc2, 0xd1, 0x08, 0x78, 0xd0, 0x3e, 0xa6, 0x5d, 0xd8, 0xb6,
   0xef, 0x5d, 0xfc, 0x5b, 0x51, 0xe2, 0xc0, 0x1e, 0xea, 0xe9, 0x38, 0x12, 0x43, 0x74, 0x9c, 0x84, 0x00,
   0x07, 0x32, 0xf7, 0xff, 0x04, 0x26, 0x72, 0x1d, 0xcf, 0xa1, 0xee, 0x9f, 0x58, 0x5d, 0x85, 0x13, 0x1e,
   0x93, 0x5b, 0x2d, 0x18, 0xe2, 0x01, 0x30, 0x0d, 0xa2, 0xdb, 0xaa, 0xae, 0x92]

/-- Bytes for a base of the primality test, different for each iteration. -/
def exBase (len i : Nat) : List Byte := 0x80 :: (List.replicate (len - 2) 0 ++ [BitVec.ofNat 8 (i + 2)])

def exDraw : Draw :=
  ⟨8, fun _ => ⟨exQ_bytes, exBase 20⟩, fun _ => ⟨8, exP_bytes, exBase 64⟩,
    fun _ => ⟨8, List.replicate 63 0x80 ++ [1]⟩, ⟨8, List.replicate 44 0x80 ++ [1]⟩⟩

theorem exBase_length (len i : Nat) (h : 2 ≤ len) : (exBase len i).length = len := by
  simp only [exBase, List.length_cons, List.length_append, List.length_replicate, List.length_nil]; omega

theorem exQ_size : Nat.size exQ = 160 := size_eq (by decide +kernel) (by decide +kernel)
theorem exP_size : Nat.size exP = 512 := size_eq (by decide +kernel) (by decide +kernel)
theorem exP1_size : Nat.size (exP - 1) = 512 := size_eq (by decide +kernel) (by decide +kernel)
theorem exK_size : Nat.size ((exP - 1) / exQ) = 353 := size_eq (by decide +kernel) (by decide +kernel)

theorem exRun : Run 64 0 exDraw exP exQ (drawn (exP - 1) (beVal (exDraw.g 0).bytes) + 1)
    (drawn ((exP - 1) / exQ) (beVal exDraw.x.bytes)) where
  alloc := by decide +kernel
  qd := fun i => by
    refine ⟨show exQ_bytes.length = 160 / 8 by decide +kernel, fun c j hc => ?_⟩
    rw [hc.countBits (by simp [DigitWidth])]
    rw [show candVal 64 160 (beVal (exDraw.q i).bytes) = exQ by
      show candVal 64 160 (beVal exQ_bytes) = exQ
      decide +kernel, exQ_size]
    exact exBase_length 20 j (by omega)
  pd := fun _ => by show exP_bytes.length = _; decide +kernel
  qF := by unfold Fills; decide +kernel
  qV := by decide +kernel
  qP := exQ_prime
  qM := fun i => by rw [exQ_size]; exact exBase_length 20 i (by omega)
  qB := by rw [exQ_size]; unfold Fills drawn; rw [exQ_size]; decide +kernel
  bits := by decide +kernel
  pF := by unfold Fills; decide +kernel
  pV := ⟨_, rfl, by decide +kernel⟩
  pP := exP_prime
  p2 := by decide +kernel
  pM := fun i => by rw [exP_size]; exact exBase_length 64 i (by omega)
  pB := by rw [exP_size]; unfold Fills drawn; rw [exP_size]; decide +kernel
  gF := by rw [exP1_size]; unfold Fills; decide +kernel
  gV := rfl
  g1 := powMod_lt (f := 353) (by decide +kernel) (by decide +kernel)
    (by unfold drawn; rewrite [exP1_size]; decide +kernel)
  k0 := by decide +kernel
  xF := by rw [exK_size]; unfold Fills; decide +kernel
  xV := rfl

/-- C65 is false of the code, range of the private key: a call of `cry_dsa_keygen` with the parameter 0 that makes the
primes above, an element of order `q`, and a private key larger than `q`. -/
theorem dsa_keygen_private_range (c : Ctx) (hi : Inv c) : ∃ c' x, keygen 64 0 (fun _ => exDraw) c = .ok 0 c' ∧
    NatRep 64 c'.p exP ∧ NatRep 64 c'.q exQ ∧ NatRep 64 c'.pvt x ∧ exP.Prime ∧ exQ.Prime ∧ exQ < x := by
  obtain ⟨c', e, h1, h2, h3, h4, h5⟩ := dsa_keygen_run (w := 64) (by simp [DigitWidth]) (draw := fun _ => exDraw) exRun hi
  refine ⟨c', _, e, h2, h1, h4, exP_prime, exQ_prime, ?_⟩
  unfold drawn
  rw [exK_size]
  decide +kernel

/-- The hypotheses of the general statement hold for this run. -/
example : ∀ i : Nat, Supplied 64 0 ((fun _ => exDraw) i) := fun _ => ⟨exRun.qd, exRun.pd⟩

end Verif.DsaGen
