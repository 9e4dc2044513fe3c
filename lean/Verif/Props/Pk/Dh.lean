import Verif.Model.Pk.Dh
import Verif.Lemmas.Mpi.NatRepPk
/-!
# C47: Diffie-Hellman
-/
namespace Verif.Dh
open Verif.Mpi

/-- Reduction of a power of an integer, as `cry_mpi_mod_exp` does it for modulus above 1. -/
theorem modExp_int {w : Nat} (hw : DigitWidth w) {b e p : Mpi} {ev pv : Nat} (hb : WF (2 ^ w) b) (he : NatRep w e ev)
    (hp : NatRep w p pv) (hx : ev ≠ 0 ∨ pv ≠ 1) (h0 : 0 < pv) :
    ∃ z, modExp w b e (some p) = some z ∧ NatRep w z ((b.toInt (2 ^ w)) ^ ev % pv).toNat := by
  obtain ⟨z, h1, h2, h3⟩ := modExp_correct_partial hw b e p hb.toNorm he.wf hp.wf
    (by rw [he.toInt]; omega) (by rw [hp.toInt]; omega) (by rw [he.toInt, hp.toInt]; omega)
  rw [he.toInt, hp.toInt] at h3
  have := Int.emod_nonneg ((b.toInt (2 ^ w)) ^ ev) (show (pv : Int) ≠ 0 by omega)
  refine ⟨z, h1, NatRep.of_wf h2 ?_⟩
  rw [h3]
  simp only [Int.toNat_natCast]
  omega

/-- A party set up with modulus `p`, base `g` (of any sign) and secret exponent `e`; the rest of the context is
arbitrary. -/
structure Party (w : Nat) (c : Ctx) (p : Nat) (g : Int) (e : Nat) : Prop where
  p : NatRep w c.p p
  g : WF (2 ^ w) c.g ∧ c.g.toInt (2 ^ w) = g
  e : NatRep w c.e e

theorem exchange {w : Nat} (hw : DigitWidth w) {c : Ctx} {p : Nat} {g : Int} {e : Nat} (hc : Party w c p g e)
    (h0 : 0 < p) (hx : e ≠ 0 ∨ p ≠ 1) (n : Nat) (hn : p ≤ 256 ^ n) :
    ∃ tok c', start w c n = some (tok, c') ∧ tok.length = n ∧ beVal tok = (g ^ e % p).toNat ∧
      ∀ peer : List Byte, ∃ sec c'', finish w c' peer n = some (sec, c'') ∧ sec.length = n ∧
        beVal sec = beVal peer ^ e % p ∧ NatRep w c''.Z (beVal peer ^ e % p) := by
  obtain ⟨y, h1, h2⟩ := modExp_int hw hc.g.1 hc.e hc.p hx h0
  rw [hc.g.2] at h2
  have hlt : (g ^ e % p).toNat < p := by
    have := Int.emod_lt_of_pos (g ^ e) (show (0 : Int) < p by omega)
    omega
  obtain ⟨tok, t1, t2, t3⟩ := h2.storeBin hw (k := n) (by omega) true
  refine ⟨tok, { c with Y := y }, ?_, t3 rfl, t2, ?_⟩
  · simp [start, agree, getTok, h1, t1]
  · intro peer
    have hl := NatRep.loadBin (w := w) hw peer
    obtain ⟨z, z1, z2⟩ := modExp_int hw hl.wf hc.e hc.p hx h0
    rw [hl.toInt] at z2
    have e1 : (((beVal peer : Nat) : Int) ^ e % p).toNat = beVal peer ^ e % p := by
      have : ((beVal peer : Nat) : Int) ^ e % p = ((beVal peer ^ e % p : Nat) : Int) := by push_cast; rfl
      rw [this, Int.toNat_natCast]
    rw [e1] at z2
    have hlt2 := Nat.mod_lt (beVal peer ^ e) h0
    obtain ⟨sec, s1, s2, s3⟩ := z2.storeBin hw (k := n) (by omega) true
    refine ⟨sec, { { c with Y := Mpi.loadBin w false peer } with Z := z }, ?_, s3 rfl, s2, z2⟩
    have hyneg : y.neg = false := h2.neg
    simp only [finish, finalize, setTok, getSec, hyneg, z1, s1, Option.bind_eq_bind, Option.bind_some]

/-- Full statement: two parties with the same modulus and base that exchange their tokens end with the same secret,
for all moduli above 0, bases (of any sign), exponents and token sizes that hold the modulus; the secret is
`g^(ea*eb)`.  Missing, because false: the modulus 1 with an exponent 0 (`dh_one_wrong`). -/
theorem dh_agree_partial {w : Nat} (hw : DigitWidth w) (a b : Ctx) (p : Nat) (g : Int) (ea eb : Nat)
    (ha : Party w a p g ea) (hb : Party w b p g eb) (h0 : 0 < p) (hx : p ≠ 1 ∨ ea ≠ 0 ∧ eb ≠ 0) (n : Nat)
    (hn : p ≤ 256 ^ n) :
    ∃ ta a1 tb b1 sec a2 b2, start w a n = some (ta, a1) ∧ start w b n = some (tb, b1) ∧
      finish w a1 tb n = some (sec, a2) ∧ finish w b1 ta n = some (sec, b2) ∧ a2.Z = b2.Z ∧
      sec.length = n ∧ (beVal sec : Int) = g ^ (ea * eb) % p := by
  obtain ⟨ta, a1, s1, l1, v1, f1⟩ := exchange hw ha h0 (by omega) n hn
  obtain ⟨tb, b1, s2, l2, v2, f2⟩ := exchange hw hb h0 (by omega) n hn
  obtain ⟨sa, a2, fa, la, va, na⟩ := f1 tb
  obtain ⟨sb, b2, fb, lb, vb, nb⟩ := f2 ta
  have key : ∀ x y : Nat, ((((g ^ x % p).toNat ^ y % p : Nat)) : Int) = g ^ (x * y) % p := by
    intro x y
    have := Int.emod_nonneg (g ^ x) (show (p : Int) ≠ 0 by omega)
    push_cast
    rw [Int.toNat_of_nonneg this, pow_mul]
    exact ((Int.mod_modEq (g ^ x) p).pow y)
  have kv : beVal tb ^ ea % p = beVal ta ^ eb % p := by
    have h1 := key eb ea
    have h2 := key ea eb
    rw [v1, v2]
    have : ((((g ^ eb % p).toNat ^ ea % p : Nat)) : Int) = (((g ^ ea % p).toNat ^ eb % p : Nat) : Int) := by
      rw [h1, h2, Nat.mul_comm]
    exact_mod_cast this
  have hz : a2.Z = b2.Z := by rw [kv] at na; exact na.unique nb
  have hs : sa = sb := by
    have e1 : Mpi.storeBin w a2.Z n true = some sa := by
      simp only [finish, getSec, Option.bind_eq_bind, Option.bind_eq_some_iff, Option.some.injEq, Prod.mk.injEq] at fa
      obtain ⟨c, -, s, h1, h2, h3⟩ := fa
      rw [← h3, h1, h2]
    have e2 : Mpi.storeBin w b2.Z n true = some sb := by
      simp only [finish, getSec, Option.bind_eq_bind, Option.bind_eq_some_iff, Option.some.injEq, Prod.mk.injEq] at fb
      obtain ⟨c, -, s, h1, h2, h3⟩ := fb
      rw [← h3, h1, h2]
    rw [hz, e2] at e1
    exact (Option.some.inj e1).symm
  subst hs
  refine ⟨ta, a1, tb, b1, sa, a2, b2, s1, s2, fa, fb, hz, la, ?_⟩
  rw [va, v2, key eb ea, Nat.mul_comm]

/-- The parties 23, 5, with the exponents 6 and 15 and 8-bit digits. -/
example : start 8 ⟨⟨false, [23]⟩, ⟨false, [5]⟩, ⟨false, [6]⟩, ⟨false, []⟩, ⟨false, []⟩⟩ 1 =
    some ([8], ⟨⟨false, [23]⟩, ⟨false, [5]⟩, ⟨false, [6]⟩, ⟨false, [8]⟩, ⟨false, []⟩⟩) := by rfl

/-- With modulus 1 and just one exponent 0 the parties end with different secrets. -/
theorem dh_one_wrong : ∃ (a b : Ctx) (a1 b1 : Ctx) (ta tb sa sb : List Byte) (a2 b2 : Ctx),
    Party 8 a 1 5 0 ∧ Party 8 b 1 5 3 ∧ start 8 a 1 = some (ta, a1) ∧ start 8 b 1 = some (tb, b1) ∧
    finish 8 a1 tb 1 = some (sa, a2) ∧ finish 8 b1 ta 1 = some (sb, b2) ∧ sa ≠ sb := by
  refine ⟨⟨⟨false, [1]⟩, ⟨false, [5]⟩, ⟨false, []⟩, ⟨false, []⟩, ⟨false, []⟩⟩,
    ⟨⟨false, [1]⟩, ⟨false, [5]⟩, ⟨false, [3]⟩, ⟨false, []⟩, ⟨false, []⟩⟩, _, _, _, _, [1], [0], _, _, ?_, ?_, rfl, rfl,
    rfl, rfl, by decide⟩
  · exact ⟨NatRep.one (by omega), ⟨(NatRep.digit (by omega) (by omega) (by omega)).wf, by decide +kernel⟩, NatRep.zero _⟩
  · exact ⟨NatRep.one (by omega), ⟨(NatRep.digit (by omega) (by omega) (by omega)).wf, by decide +kernel⟩,
      NatRep.digit (by omega) (by omega) (by omega)⟩

/-- A token loaded over a negative number becomes negative: without `cry_dh_agree` before, the sign of the old content
of `Y` decides. -/
theorem dh_stale_sign {w : Nat} (hw : DigitWidth w) (c : Ctx) (h : c.Y.neg = true) (bs : List Byte) :
    (setTok w c bs).Y.toInt (2 ^ w) = -(beVal bs : Int) := by
  rw [setTok, h]; exact (loadBin_stale_sign hw bs).2

end Verif.Dh
