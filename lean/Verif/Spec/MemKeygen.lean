import Verif.Spec.MemPrime
import Verif.Spec.PrimeGen
import Verif.Model.Mem.Keygen
/-! Vocabulary for the statements on the generation of keys in memory. -/
namespace Verif.Mem
open Verif.Mpi

/-- The test accepts the `k`-th number drawn. -/
def TryOk (bits : Nat) (draw : Nat → PrimeDraw) (k : Nat) : Prop :=
  Verdict (Spec.primeCandidate bits (beVal (draw k).bytes)) fun j => rangeVal (Spec.primeCandidate bits (beVal (draw k).bytes)) ((draw k).mr j)

/-- `x` is the first number drawn that the test accepts, found before the last of 10000 tries. -/
def FirstOk (bits : Nat) (draw : Nat → PrimeDraw) (x : Nat) : Prop :=
  ∃ k, k + 1 < 10000 ∧ TryOk bits draw k ∧ (∀ j < k, ¬ TryOk bits draw j) ∧ x = Spec.primeCandidate bits (beVal (draw k).bytes)

/-- None is accepted before the last of 10000 tries. -/
def NoneOk (bits : Nat) (draw : Nat → PrimeDraw) : Prop := ∀ k, k + 1 < 10000 → ¬ TryOk bits draw k

/-- The public exponent: the one given, or a number of `bits` bits made from the bytes drawn. -/
def pubExp (bits : Nat) (ev : Int) (dr : RsaDraw) : Nat :=
  if ev = 0 then beVal dr.e % 2 ^ (bits - 1) + 2 ^ (bits - 1) else ev.toNat

/-- A turn finds the primes `x` and `y`. -/
structure Pair (bits : Nat) (dr : RsaDraw) (x y : Nat) : Prop where
  fst : FirstOk (bits / 2) dr.p x
  snd : FirstOk (bits / 2) dr.q y

/-- A turn finds the key with the primes `x` and `y`. -/
structure KeyFound (bits : Nat) (ev : Int) (dr : RsaDraw) (x y : Nat) : Prop extends Pair bits dr x y where
  ne : x ≠ y
  size : (x * y).size = bits
  cop : Nat.gcd (pubExp bits ev dr) ((x - 1) * (y - 1)) = 1

/-- A turn finds two primes that are not good enough. -/
def KeyRetry (bits : Nat) (ev : Int) (dr : RsaDraw) : Prop :=
  ∃ x y, Pair bits dr x y ∧ (x = y ∨ (x * y).size ≠ bits ∨ Nat.gcd (pubExp bits ev dr) ((x - 1) * (y - 1)) ≠ 1)

/-- A turn does not find two primes. -/
def KeyFail (bits : Nat) (dr : RsaDraw) : Prop :=
  NoneOk (bits / 2) dr.p ∨ ((∃ x, FirstOk (bits / 2) dr.p x) ∧ NoneOk (bits / 2) dr.q)

/-- What the generator has to deliver in one turn. -/
structure RsaDrawOk (w bits : Nat) (dr : RsaDraw) : Prop where
  p : DrawsOk w (bits / 2) dr.p
  q : DrawsOk w (bits / 2) dr.q
  e : dr.e.length = (bits + 7) / 8 ∧ (2 ^ w) ^ ((bits - 1) / w) ≤ beVal dr.e

/-! ### DSA -/

/-- `x` is the first number drawn that the test accepts, found before the last of `m` tries. -/
def FirstIn (m bits : Nat) (draw : Nat → PrimeDraw) (x : Nat) : Prop :=
  ∃ k, k + 1 < m ∧ TryOk bits draw k ∧ (∀ j < k, ¬ TryOk bits draw j) ∧ x = Spec.primeCandidate bits (beVal (draw k).bytes)

/-- None is accepted before the last of `m` tries. -/
def NoneIn (m bits : Nat) (draw : Nat → PrimeDraw) : Prop := ∀ k, k + 1 < m → ¬ TryOk bits draw k

/-- The number tested as `p`: the number 1 modulo `2 Q` next to a number of `bits` bits made from the bytes. -/
def dsaP (bits Q : Nat) (bs : List Byte) : Nat :=
  (beVal bs % 2 ^ (bits - 1) + 2 ^ (bits - 1)) / (2 * Q) * (2 * Q) + 1

/-- The test accepts the `k`-th number tested as `p`. -/
def PTry (bits Q : Nat) (draw : Nat → PrimeDraw) (k : Nat) : Prop :=
  Verdict (dsaP bits Q (draw k).bytes) fun j => rangeVal (dsaP bits Q (draw k).bytes) ((draw k).mr j)

/-- The number tested as generator. -/
def dsaG (P Q : Nat) (bs : List Byte) : Nat := (rangeVal (P - 1) bs + 1) ^ ((P - 1) / Q) % P

/-- The first of at most `m` numbers for which a condition holds. -/
def FirstOf (m : Nat) (ok : Nat → Prop) (k : Nat) : Prop := k < m ∧ ok k ∧ ∀ j < k, ¬ ok j

/-- A turn finds `q`, `p` and `g`. -/
structure DsaFound (bits : Nat) (dr : DsaDraw) (Q P G : Nat) : Prop where
  q : FirstIn 5000 160 dr.q Q
  p : ∃ k, FirstOf 4096 (PTry bits Q dr.p) k ∧ P = dsaP bits Q (dr.p k).bytes
  g : ∃ k, FirstOf 4096 (fun k => 1 < dsaG P Q (dr.g k)) k ∧ G = dsaG P Q (dr.g k)

/-- A turn finds `q`, but not `p` and `g`. -/
def DsaRetry (bits : Nat) (dr : DsaDraw) : Prop :=
  ∃ Q, FirstIn 5000 160 dr.q Q ∧ ((∀ k < 4096, ¬ PTry bits Q dr.p k) ∨
    ∃ P, (∃ k, FirstOf 4096 (PTry bits Q dr.p) k ∧ P = dsaP bits Q (dr.p k).bytes) ∧ ∀ k < 4096, ¬ 1 < dsaG P Q (dr.g k))

/-- Bytes for a number below `n`, whose leading digit is not zero. -/
def Fit (w n : Nat) (bs : List Byte) : Prop := bs.length = (n.size + 7) / 8 ∧ (2 ^ w) ^ ((n.size - 1) / w) ≤ beVal bs

/-- What the generator has to deliver in one turn. -/
structure DsaDrawOk (w bits : Nat) (dr : DsaDraw) : Prop where
  q : DrawsOk w 160 dr.q
  p : ∀ j, (dr.p j).bytes.length = (bits + 7) / 8 ∧ (2 ^ w) ^ ((bits - 1) / w) ≤ beVal (dr.p j).bytes
  mr : ∀ Q, FirstIn 5000 160 dr.q Q → ∀ j, ∀ i < 5, Fit w (dsaP bits Q (dr.p j).bytes) ((dr.p j).mr i)
  g : ∀ Q P, FirstIn 5000 160 dr.q Q → (∃ k, FirstOf 4096 (PTry bits Q dr.p) k ∧ P = dsaP bits Q (dr.p k).bytes) → ∀ j, Fit w (P - 1) (dr.g j)
  x : ∀ Q P G, DsaFound bits dr Q P G → Fit w ((P - 1) / Q) dr.x

end Verif.Mem
