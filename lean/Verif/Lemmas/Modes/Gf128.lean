import Verif.Lemmas.Bytes
import Verif.Model.Modes.Gcm
import Verif.Spec.Gf128
import Mathlib.RingTheory.AdjoinRoot
import Mathlib.Algebra.CharP.Two
import Mathlib.Algebra.Field.ZMod
import Mathlib.Tactic.LinearCombination
import Mathlib.Tactic.ComputeDegree
/-! `gcm_gf_mul` is multiplication in GF(2)[X] modulo the GCM polynomial. -/
namespace Verif.Gf
open Polynomial Verif.Modes

instance : Fact (Nat.Prime 2) := ⟨Nat.prime_two⟩

theorem two_poly : (2 : (ZMod 2)[X]) = 0 := CharTwo.two_eq_zero

theorem bpoly_zero (w : Nat) : bpoly (0 : BitVec w) = 0 := by
  unfold bpoly
  apply Finset.sum_eq_zero
  intro j _
  simp

theorem bpoly_xor {w : Nat} (a b : BitVec w) : bpoly (a ^^^ b) = bpoly a + bpoly b := by
  unfold bpoly
  rw [← Finset.sum_add_distrib]
  apply Finset.sum_congr rfl
  intro j _
  rw [BitVec.getMsbD_xor]
  cases a.getMsbD j <;> cases b.getMsbD j <;> simp
  rw [← two_mul, two_poly, zero_mul]

theorem bpoly_append {m n : Nat} (a : BitVec m) (b : BitVec n) :
    bpoly (a ++ b) = bpoly a + X ^ m * bpoly b := by
  unfold bpoly
  rw [Finset.sum_range_add, Finset.mul_sum]
  congr 1
  · apply Finset.sum_congr rfl
    intro j hj
    rw [Finset.mem_range] at hj
    have : (a ++ b).getMsbD j = a.getMsbD j := by
      rw [BitVec.getMsbD_append]; simp; omega
    rw [this]
  · apply Finset.sum_congr rfl
    intro j hj
    have : (a ++ b).getMsbD (m + j) = b.getMsbD j := by
      rw [BitVec.getMsbD_append]; simp
    rw [this, mul_ite, mul_zero, pow_add]

theorem bpoly_read32be (a b c d : Byte) :
    bpoly (read32be a b c d) = bpoly a + X ^ 8 * (bpoly b + X ^ 8 * (bpoly c + X ^ 8 * bpoly d)) := by
  rw [read32be_eq, bpoly_append, bpoly_append, bpoly_append]
  ring

/-- A one-bit right shift with a carry-in is multiplication by `X`. -/
theorem bpoly_shift (v p : BitVec 32) :
    bpoly ((v >>> 1) ||| ((p &&& 1) <<< 31)) + (if v.getLsbD 0 then X ^ 32 else 0) =
      X * bpoly v + if p.getLsbD 0 then 1 else 0 := by
  unfold bpoly
  rw [Finset.mul_sum, Finset.sum_range_succ' _ 31, Finset.sum_range_succ (fun i => X * _) 31]
  have h0 : ((v >>> 1) ||| ((p &&& 1) <<< 31)).getMsbD 0 = p.getLsbD 0 := by
    simp [BitVec.getMsbD_eq_getLsbD]
  have h31 : v.getMsbD 31 = v.getLsbD 0 := by simp [BitVec.getMsbD_eq_getLsbD]
  have hs : ∀ j ∈ Finset.range 31,
      (if ((v >>> 1) ||| ((p &&& 1) <<< 31)).getMsbD (j + 1) then (X : (ZMod 2)[X]) ^ (j + 1) else 0) =
        X * if v.getMsbD j then X ^ j else 0 := by
    intro j hj
    rw [Finset.mem_range] at hj
    have : ((v >>> 1) ||| ((p &&& 1) <<< 31)).getMsbD (j + 1) = v.getMsbD j := by
      rw [BitVec.getMsbD_eq_getLsbD, BitVec.getMsbD_eq_getLsbD]
      simp only [BitVec.getLsbD_or, BitVec.getLsbD_ushiftRight, BitVec.getLsbD_shiftLeft, BitVec.getLsbD_and]
      have e1 : 1 + (32 - 1 - (j + 1)) = 32 - 1 - j := by omega
      have e2 : 32 - 1 - (j + 1) < 31 := by omega
      rw [e1]
      simp only [e2, decide_true, Bool.not_true, Bool.and_false, Bool.false_and, Bool.or_false]
      have e3 : j < 32 := by omega
      have e4 : j + 1 < 32 := by omega
      simp only [e3, e4, decide_true, Bool.true_and]
    rw [this, mul_ite, mul_zero, pow_succ']
  rw [Finset.sum_congr rfl hs, h0, h31]
  cases v.getLsbD 0 <;> cases p.getLsbD 0 <;> simp <;> ring

theorem bpoly_shift0 (v : BitVec 32) :
    bpoly (v >>> 1) + (if v.getLsbD 0 then X ^ 32 else 0) = X * bpoly v := by
  have := bpoly_shift v 0
  simpa using this

theorem bpoly_poly : bpoly (0xE1#32 <<< 24) = 1 + X + X ^ 2 + X ^ 7 := by
  have : (0xE1#32 <<< 24) = 0xE1000000#32 := rfl
  rw [this]
  unfold bpoly
  simp [Finset.sum_range_succ, BitVec.getMsbD_eq_getLsbD]

theorem mask_eq (v : BitVec 32) :
    (~~~(v &&& 1) + (1 : BitVec 32)) &&& (0xE1#32 <<< 24) = if v.getLsbD 0 then 0xE1#32 <<< 24 else 0 := by
  have h : v &&& 1 = if v.getLsbD 0 then 1 else 0 := by
    apply BitVec.eq_of_getLsbD_eq
    intro i hi
    rw [BitVec.getLsbD_and]
    by_cases h0 : i = 0
    · subst h0; cases v.getLsbD 0 <;> simp
    · have : (1 : BitVec 32).getLsbD i = false := by
        rw [show (1 : BitVec 32) = 1#32 from rfl, BitVec.getLsbD_one]; simp [h0]
      rw [this]
      cases v.getLsbD 0
      · simp
      · rw [if_pos rfl, this, Bool.and_false]
  rw [h]
  cases v.getLsbD 0 <;> decide

/-- The polynomial of four words. -/
noncomputable def wpoly (v : W4) : (ZMod 2)[X] :=
  bpoly v.w0 + X ^ 32 * (bpoly v.w1 + X ^ 32 * (bpoly v.w2 + X ^ 32 * bpoly v.w3))

theorem wpoly_xor (a b : W4) : wpoly (a.xor b) = wpoly a + wpoly b := by
  simp only [wpoly, W4.xor, bpoly_xor]; ring

/-- Doubling is multiplication by `X` modulo the polynomial. -/
theorem wpoly_dbl (v : W4) :
    wpoly v.dbl = X * wpoly v + if v.w3.getLsbD 0 then gcmMod else 0 := by
  have h0 := bpoly_shift0 v.w0
  have h1 := bpoly_shift v.w1 v.w0
  have h2 := bpoly_shift v.w2 v.w1
  have h3 := bpoly_shift v.w3 v.w2
  have hm : bpoly ((~~~(v.w3 &&& 1) + (1 : BitVec 32)) &&& (0xE1#32 <<< 24)) =
      if v.w3.getLsbD 0 then 1 + X + X ^ 2 + X ^ 7 else 0 := by
    rw [mask_eq]
    split_ifs
    · exact bpoly_poly
    · exact bpoly_zero 32
  have t := two_poly
  unfold wpoly W4.dbl gcmMod
  dsimp only
  rw [bpoly_xor, hm]
  generalize bpoly (v.w0 >>> 1) = s0 at *
  generalize bpoly ((v.w1 >>> 1) ||| ((v.w0 &&& 1) <<< 31)) = s1 at *
  generalize bpoly ((v.w2 >>> 1) ||| ((v.w1 &&& 1) <<< 31)) = s2 at *
  generalize bpoly ((v.w3 >>> 1) ||| ((v.w2 &&& 1) <<< 31)) = s3 at *
  have e : ∀ (c : Bool) (q : (ZMod 2)[X]), (if c then q else 0) = (if c then 1 else 0) * q := by
    intro c q; cases c <;> simp
  rw [e _ (X ^ 32)] at h0 h1 h2 h3
  rw [e _ (1 + X + X ^ 2 + X ^ 7), e _ (X ^ 128 + _)]
  generalize (if v.w0.getLsbD 0 then (1 : (ZMod 2)[X]) else 0) = l0 at *
  generalize (if v.w1.getLsbD 0 then (1 : (ZMod 2)[X]) else 0) = l1 at *
  generalize (if v.w2.getLsbD 0 then (1 : (ZMod 2)[X]) else 0) = l2 at *
  generalize (if v.w3.getLsbD 0 then (1 : (ZMod 2)[X]) else 0) = l3 at *
  linear_combination h0 + X ^ 32 * h1 + X ^ 64 * h2 + X ^ 96 * h3 - l3 * X ^ 128 * t

/-- The polynomial of the first `k` bits of a byte. -/
noncomputable def kpoly (b : Byte) (k : Nat) : (ZMod 2)[X] :=
  ∑ j ∈ Finset.range k, if b.getMsbD j then X ^ j else 0

theorem kpoly_succ (b : Byte) (k : Nat) (hk : k < 8) :
    kpoly b (k + 1) = (if b.getMsbD 0 then (1 : (ZMod 2)[X]) else 0) + X * kpoly (b <<< 1) k := by
  unfold kpoly
  rw [Finset.sum_range_succ', Finset.mul_sum, add_comm, pow_zero]
  congr 1
  apply Finset.sum_congr rfl
  intro j hj
  rw [Finset.mem_range] at hj
  have : (b <<< 1).getMsbD j = b.getMsbD (j + 1) := by
    rw [BitVec.getMsbD_shiftLeft]
  rw [this, mul_ite, mul_zero, pow_succ']

theorem topbit (b : Byte) : (b &&& 0x80 ≠ 0) ↔ b.getMsbD 0 = true := by
  revert b; decide +kernel

/-- The quotient ring. -/
noncomputable abbrev q : (ZMod 2)[X] →+* AdjoinRoot gcmMod := AdjoinRoot.mk gcmMod

theorem q_mod : q gcmMod = 0 := AdjoinRoot.mk_self

theorem q_dbl (v : W4) : q (wpoly v.dbl) = q X * q (wpoly v) := by
  rw [wpoly_dbl, map_add, map_mul]
  split_ifs <;> simp [q_mod]

theorem gfBits_spec : ∀ (k : Nat) (b : Byte) (v z : W4), k ≤ 8 →
    q (wpoly (gfBits k b v z).1) = q X ^ k * q (wpoly v) ∧
    q (wpoly (gfBits k b v z).2) = q (wpoly z) + q (wpoly v) * q (kpoly b k)
  | 0, b, v, z, _ => by simp [gfBits, kpoly]
  | k + 1, b, v, z, hk => by
    rw [gfBits]
    obtain ⟨h1, h2⟩ := gfBits_spec k (b <<< 1) v.dbl (if b &&& 0x80 ≠ 0 then z.xor v else z) (by omega)
    refine ⟨?_, ?_⟩
    · rw [h1, q_dbl]; ring
    · rw [h2, q_dbl, kpoly_succ b k (by omega)]
      by_cases hb : b.getMsbD 0 = true
      · rw [if_pos ((topbit b).2 hb), if_pos hb, wpoly_xor, map_add, map_add, map_mul, map_one]; ring
      · rw [if_neg (mt (topbit b).1 hb), if_neg hb, map_add, map_mul, map_zero]; ring

theorem gfBytes_spec : ∀ (y : List Byte) (v z : W4),
    q (wpoly (gfBytes y v z)) = q (wpoly z) + q (wpoly v) * q (gpoly y)
  | [], v, z => by simp [gfBytes, gpoly]
  | b :: y, v, z => by
    obtain ⟨h1, h2⟩ := gfBits_spec 8 b v z (by omega)
    rw [gfBytes, gpoly, gfBytes_spec y, h1, h2, map_add, map_mul, map_pow]
    have : kpoly b 8 = bpoly b := rfl
    rw [this]; ring

theorem readW4_spec {x : List Byte} (hx : x.length = 16) :
    ∃ v, readW4 x = some v ∧ wpoly v = gpoly x := by
  match x, hx with
  | [a0, a1, a2, a3, b0, b1, b2, b3, c0, c1, c2, c3, d0, d1, d2, d3], _ =>
    refine ⟨_, rfl, ?_⟩
    simp only [wpoly, bpoly_read32be, gpoly]
    ring

theorem writeW4_spec (z : W4) : (writeW4 z).length = 16 ∧ gpoly (writeW4 z) = wpoly z := by
  obtain ⟨a0, a1, a2, a3, e0, r0⟩ := exists_write32be z.w0
  obtain ⟨b0, b1, b2, b3, e1, r1⟩ := exists_write32be z.w1
  obtain ⟨c0, c1, c2, c3, e2, r2⟩ := exists_write32be z.w2
  obtain ⟨d0, d1, d2, d3, e3, r3⟩ := exists_write32be z.w3
  unfold writeW4 wpoly
  rw [e0, e1, e2, e3, ← r0, ← r1, ← r2, ← r3]
  refine ⟨rfl, ?_⟩
  simp only [List.cons_append, List.nil_append, bpoly_read32be, gpoly]
  ring

theorem gfMul_length {x : List Byte} (hx : x.length = 16) (y : List Byte) : (gfMul x y).length = 16 := by
  obtain ⟨v, hv, -⟩ := readW4_spec hx
  unfold gfMul
  rw [hv]
  exact (writeW4_spec _).1

theorem q_gfMul {x : List Byte} (hx : x.length = 16) (y : List Byte) :
    q (gpoly (gfMul x y)) = q (gpoly x) * q (gpoly y) := by
  obtain ⟨v, hv, hp⟩ := readW4_spec hx
  unfold gfMul
  rw [hv]
  dsimp only
  rw [(writeW4_spec _).2, gfBytes_spec, hp]
  have : wpoly ⟨0, 0, 0, 0⟩ = 0 := by simp only [wpoly, bpoly_zero]; ring
  rw [this, map_zero, zero_add]

theorem bpoly_degree {w : Nat} (v : BitVec w) : (bpoly v).degree < (w : ℕ) := by
  unfold bpoly
  apply lt_of_le_of_lt (Polynomial.degree_sum_le _ _)
  rw [Finset.sup_lt_iff (WithBot.bot_lt_coe _)]
  intro j hj
  rw [Finset.mem_range] at hj
  split_ifs
  · rw [degree_X_pow]; exact_mod_cast hj
  · rw [degree_zero]; exact WithBot.bot_lt_coe _

theorem gpoly_degree : ∀ l : List Byte, (gpoly l).degree < ((8 * l.length : ℕ) : WithBot ℕ)
  | [] => by rw [gpoly, degree_zero]; exact WithBot.bot_lt_coe _
  | b :: l => by
    rw [gpoly]
    apply lt_of_le_of_lt (degree_add_le _ _)
    rw [max_lt_iff]
    constructor
    · apply lt_of_lt_of_le (bpoly_degree b)
      rw [List.length_cons]
      exact_mod_cast (by omega)
    · by_cases h0 : gpoly l = 0
      · rw [h0, mul_zero, degree_zero]; exact WithBot.bot_lt_coe _
      · have h := gpoly_degree l
        rw [degree_mul, degree_X_pow, List.length_cons, degree_eq_natDegree h0] at *
        have h' : (gpoly l).natDegree < 8 * l.length := by exact_mod_cast h
        exact_mod_cast (by omega : 8 + (gpoly l).natDegree < 8 * (l.length + 1))

theorem gcmMod_monic : gcmMod.Monic := by
  unfold gcmMod
  monicity!

theorem gcmMod_degree : gcmMod.degree = 128 := by
  unfold gcmMod
  compute_degree!

theorem bpoly_coeff {w : Nat} (v : BitVec w) (j : Nat) (hj : j < w) :
    (bpoly v).coeff j = if v.getMsbD j then 1 else 0 := by
  unfold bpoly
  rw [finset_sum_coeff, Finset.sum_eq_single j]
  · split_ifs <;> simp
  · intro i _ hij
    split_ifs
    · rw [coeff_X_pow, if_neg (Ne.symm hij)]
    · simp
  · intro h; rw [Finset.mem_range] at h; omega

/-- Blocks of equal length are determined by their polynomial. -/
theorem gpoly_inj : ∀ {a b : List Byte}, a.length = b.length → gpoly a = gpoly b → a = b
  | [], [], _, _ => rfl
  | [], _ :: _, h, _ => by simp at h
  | _ :: _, [], h, _ => by simp at h
  | x :: a, y :: b, hl, h => by
    rw [gpoly, gpoly] at h
    have hc : ∀ (x : Byte) (l : List Byte) (j : Nat), j < 8 →
        (bpoly x + X ^ 8 * gpoly l).coeff j = if x.getMsbD j then 1 else 0 := by
      intro x l j hj
      rw [coeff_add, bpoly_coeff x j hj, coeff_X_pow_mul', if_neg (c := 8 ≤ j) (by omega), add_zero]
    have hxy : x = y := by
      apply BitVec.eq_of_getMsbD_eq
      intro j hj
      have h1 := hc x a j hj
      rw [h, hc y b j hj] at h1
      cases hx : x.getMsbD j <;> cases hy : y.getMsbD j <;> rw [hx, hy] at h1 <;> simp_all
    subst hxy
    have h2 := add_left_cancel h
    have h3 : gpoly a = gpoly b := mul_left_cancel₀ (pow_ne_zero 8 X_ne_zero) h2
    rw [gpoly_inj (by simpa using hl) h3]

/-- Reduced polynomials are determined by their class. -/
theorem eq_of_q {a b : List Byte} (ha : a.length = 16) (hb : b.length = 16)
    (h : q (gpoly a) = q (gpoly b)) : a = b := by
  apply gpoly_inj (by omega)
  have hd := AdjoinRoot.mk_eq_mk.1 h
  have h1 := modByMonic_eq_of_dvd_sub gcmMod_monic hd
  have da := gpoly_degree a
  have db := gpoly_degree b
  rw [ha] at da
  rw [hb] at db
  rwa [(modByMonic_eq_self_iff gcmMod_monic).2 (by rw [gcmMod_degree]; exact da),
    (modByMonic_eq_self_iff gcmMod_monic).2 (by rw [gcmMod_degree]; exact db)] at h1

end Verif.Gf
