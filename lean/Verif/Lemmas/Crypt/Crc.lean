import Verif.Model.Crypt.Crc
import Verif.Spec.Crc
import Mathlib.Algebra.CharP.Two
import Mathlib.Tactic.Ring
import Mathlib.Tactic.LinearCombination
import Mathlib.Tactic.ComputeDegree
import Mathlib.Tactic.IntervalCases
import Mathlib.RingTheory.Coprime.Lemmas
import Mathlib.RingTheory.Polynomial.Basic
namespace Verif.Crc
open Polynomial Verif.CrcS

/-! ### Bits and polynomials -/

theorem bit_xor (a b : Bool) : bit (a ^^ b) = bit a + bit b := by cases a <;> cases b <;> decide

theorem bit_inj {a b : Bool} (h : bit a = bit b) : a = b := by revert h; cases a <;> cases b <;> decide

theorem reg_xor {n} (a b : BitVec n) : reg (a ^^^ b) = reg a + reg b := by
  unfold reg
  rw [← Finset.sum_add_distrib]
  apply Finset.sum_congr rfl
  intro i _
  rw [BitVec.getLsbD_xor, bit_xor, C_add, add_mul]

theorem reg_degree {n} (v : BitVec n) : (reg v).degree < n := by
  unfold reg
  refine lt_of_le_of_lt (degree_sum_le _ _) ?_
  rw [Finset.sup_lt_iff (by exact WithBot.bot_lt_coe n)]
  intro i hi
  refine lt_of_le_of_lt (degree_C_mul_X_pow_le _ _) ?_
  have := Finset.mem_range.mp hi
  exact_mod_cast (by omega : n - 1 - i < n)

theorem pol_degree : ∀ l : List Bool, (pol l).degree < l.length
  | [] => by simp [pol]
  | b :: t => by
    rw [pol]
    refine lt_of_le_of_lt (degree_add_le _ _) ?_
    rw [max_lt_iff]
    constructor
    · refine lt_of_le_of_lt (degree_C_mul_X_pow_le _ _) ?_
      exact_mod_cast (by simp : t.length < (b :: t).length)
    · refine lt_trans (pol_degree t) ?_
      exact_mod_cast (by simp : t.length < (b :: t).length)

theorem pol_append : ∀ a b : List Bool, pol (a ++ b) = pol a * X ^ b.length + pol b
  | [], b => by simp [pol]
  | x :: a, b => by
    rw [List.cons_append, pol, pol, pol_append a b, List.length_append, pow_add]
    ring

theorem pol_inj : ∀ a b : List Bool, a.length = b.length → pol a = pol b → a = b
  | [], [], _, _ => rfl
  | x :: a, y :: b, hl, h => by
    have hl' : a.length = b.length := by simpa using hl
    rw [pol, pol] at h
    have hc := congrArg (fun p => p.coeff a.length) h
    simp only [coeff_add, coeff_C_mul_X_pow] at hc
    rw [coeff_eq_zero_of_degree_lt (pol_degree a), if_pos trivial, if_pos hl', hl',
      coeff_eq_zero_of_degree_lt (pol_degree b), add_zero, add_zero] at hc
    rw [hl', bit_inj hc, add_right_inj] at h
    rw [bit_inj hc, pol_inj a b hl' h]

/-! ### The bit-serial register -/

/-- Shift the register by one place. -/
def shift {n} (P r : BitVec n) : BitVec n := (r >>> 1) ^^^ (if r.getLsbD 0 then P else 0)

theorem shift_xor {n} (P a b : BitVec n) : shift P (a ^^^ b) = shift P a ^^^ shift P b := by
  unfold shift
  rw [BitVec.getLsbD_xor, BitVec.ushiftRight_xor_distrib]
  have hz : ∀ x : BitVec n, x ^^^ 0 = x := fun x => BitVec.xor_zero
  cases a.getLsbD 0 <;> cases b.getLsbD 0 <;> simp only [Bool.xor_false, Bool.xor_true, Bool.not_true, Bool.not_false,
    if_true, Bool.false_eq_true, if_false, hz]
  · rw [BitVec.xor_assoc]
  · rw [BitVec.xor_assoc, BitVec.xor_assoc, BitVec.xor_comm P]
  · apply BitVec.eq_of_getLsbD_eq
    intro i _
    simp only [BitVec.getLsbD_xor]
    cases (a >>> 1).getLsbD i <;> cases (b >>> 1).getLsbD i <;> cases P.getLsbD i <;> rfl

theorem reg_shift {n} (P r : BitVec (n + 1)) :
    reg (shift P r) = X * reg r + C (bit (r.getLsbD 0)) * (X ^ (n + 1) + reg P) := by
  have h0 : reg (0 : BitVec (n + 1)) = 0 := by
    unfold reg
    apply Finset.sum_eq_zero
    intro i _
    have : (0 : BitVec (n + 1)).getLsbD i = false := BitVec.getLsbD_zero
    rw [this]; simp [bit]
  have hif : reg (if r.getLsbD 0 then P else 0) = C (bit (r.getLsbD 0)) * reg P := by
    cases r.getLsbD 0
    · simp only [bit, Bool.false_eq_true, if_false, C_0, zero_mul]; exact h0
    · simp [bit]
  have hsh : X * reg r = C (bit (r.getLsbD 0)) * X ^ (n + 1) + reg (r >>> 1) := by
    unfold reg
    rw [Finset.sum_range_succ', Finset.sum_range_succ, mul_add, Finset.mul_sum]
    have hlast : (r >>> 1).getLsbD n = false := by
      rw [BitVec.getLsbD_ushiftRight]
      exact BitVec.getLsbD_of_ge _ _ (by omega)
    rw [hlast]
    have : ∑ i ∈ Finset.range n, X * (C (bit (r.getLsbD (i + 1))) * X ^ (n + 1 - 1 - (i + 1))) =
        ∑ i ∈ Finset.range n, (C (bit ((r >>> 1).getLsbD i)) * X ^ (n + 1 - 1 - i) : Pol) := by
      apply Finset.sum_congr rfl
      intro i hi
      have hi' := Finset.mem_range.mp hi
      rw [BitVec.getLsbD_ushiftRight, Nat.add_comm 1 i, show n + 1 - 1 - i = (n + 1 - 1 - (i + 1)) + 1 by omega, pow_succ]
      ring
    rw [this]
    simp only [bit, Nat.add_sub_cancel, Nat.sub_zero, Bool.false_eq_true, if_false, C_0, zero_mul, add_zero]
    rw [pow_succ]
    ring
  rw [shift, reg_xor, hif, hsh, mul_add]
  have h2 : ∀ a : Pol, a + a = 0 := fun a => CharTwo.add_self_eq_zero a
  linear_combination (-1 : Pol) * h2 (C (bit (r.getLsbD 0)) * X ^ (n + 1))

/-- Feed one bit: it is added to the lowest bit, then the register is shifted. -/
def feed {n} (P r : BitVec n) (m : Bool) : BitVec n := shift P (r ^^^ (if m then 1 else 0))

theorem reg_one (n : Nat) (m : Bool) : reg (if m then 1 else 0 : BitVec (n + 1)) = C (bit m) * X ^ n := by
  unfold reg
  rw [Finset.sum_eq_single 0]
  · cases m
    · simp [bit]
    · simp [bit, BitVec.getLsbD_one]
  · intro i hi h0
    cases m
    · simp [bit]
    · have : (1 : BitVec (n + 1)).getLsbD i = false := by
        rw [show (1 : BitVec (n + 1)) = 1#(n + 1) from rfl, BitVec.getLsbD_one]; simp [h0]
      simp only [if_true, this, bit, Bool.false_eq_true, if_false, C_0, zero_mul]
  · simp

theorem reg_feed {n} (P r : BitVec (n + 1)) (m : Bool) :
    (X ^ (n + 1) + reg P) ∣ reg (feed P r m) - (X * reg r + C (bit m) * X ^ (n + 1)) := by
  rw [feed, reg_shift, reg_xor, reg_one]
  refine ⟨C (bit ((r ^^^ (if m then 1 else 0)).getLsbD 0)), ?_⟩
  rw [pow_succ]
  ring

theorem reg_feeds {n} (P : BitVec (n + 1)) : ∀ (ms : List Bool) (r : BitVec (n + 1)),
    (X ^ (n + 1) + reg P) ∣ reg (ms.foldl (feed P) r) - (X ^ ms.length * reg r + X ^ (n + 1) * pol ms)
  | [], r => by simp [pol]
  | m :: ms, r => by
    rw [List.foldl_cons, List.length_cons, pol]
    obtain ⟨q, hq⟩ := reg_feed P r m
    obtain ⟨q', hq'⟩ := reg_feeds P ms (feed P r m)
    refine ⟨q' + X ^ ms.length * q, ?_⟩
    rw [pow_succ]
    linear_combination hq' + X ^ ms.length * hq

theorem gen_monic {n} (P : BitVec n) : (X ^ n + reg P : Pol).Monic := monic_X_pow_add (reg_degree P)

theorem gen_degree {n} (P : BitVec n) : (X ^ n + reg P : Pol).degree = n := by
  rw [degree_add_eq_left_of_degree_lt (by rw [degree_X_pow]; exact reg_degree P), degree_X_pow]

theorem reg_feeds_mod {n} (P : BitVec (n + 1)) (ms : List Bool) (r : BitVec (n + 1)) :
    reg (ms.foldl (feed P) r) = (X ^ ms.length * reg r + X ^ (n + 1) * pol ms) %ₘ (X ^ (n + 1) + reg P) := by
  have h := reg_feeds P ms r
  rw [← modByMonic_eq_zero_iff_dvd (gen_monic P), sub_modByMonic, sub_eq_zero] at h
  rw [← h]
  exact ((modByMonic_eq_self_iff (gen_monic P)).mpr (by rw [gen_degree]; exact reg_degree _)).symm

/-! ### A table row is eight steps -/

/-- Eight shifts. -/
def shift8 {n} (P r : BitVec n) : BitVec n :=
  shift P (shift P (shift P (shift P (shift P (shift P (shift P (shift P r)))))))

theorem shift8_xor {n} (P a b : BitVec n) : shift8 P (a ^^^ b) = shift8 P a ^^^ shift8 P b := by
  simp only [shift8, shift_xor]

def byteBits (b : Byte) : List Bool := (List.range 8).map b.getLsbD

theorem feed_xor {n} (P a b : BitVec n) (m : Bool) : feed P (a ^^^ b) m = feed P a m ^^^ shift P b := by
  unfold feed
  rw [BitVec.xor_assoc, BitVec.xor_comm b, ← BitVec.xor_assoc, shift_xor]

theorem feeds_xor {n} (P r : BitVec n) (b : Byte) :
    (byteBits b).foldl (feed P) r = (byteBits b).foldl (feed P) 0 ^^^ shift8 P r := by
  have h : (byteBits b).foldl (feed P) (0 ^^^ r) = (byteBits b).foldl (feed P) 0 ^^^ shift8 P r := by
    unfold byteBits shift8
    simp only [List.range, List.range.loop, List.map_cons, List.map_nil, List.foldl_cons, List.foldl_nil, feed_xor]
  rwa [show (0 : BitVec n) ^^^ r = r from BitVec.zero_xor] at h

/-- The table of a CRC with polynomial `P`. -/
structure TabOk {n} (tab : List (BitVec n)) (P : BitVec n) : Prop where
  row : ∀ i : Byte, tab.getD i.toNat 0 = shift8 P (i.setWidth n)
  bits : ∀ i : Byte, (byteBits i).foldl (feed P) 0 = shift8 P (i.setWidth n)

theorem setWidth_xor8 {n} (a b : Byte) : (a ^^^ b).setWidth n = a.setWidth n ^^^ b.setWidth n := BitVec.setWidth_xor

theorem shift_high {n} (P r : BitVec n) (h : r.getLsbD 0 = false) : shift P r = r >>> 1 := by
  unfold shift
  rw [h]
  simp

theorem shift8_high {n} (P r : BitVec n) (h : ∀ i < 8, r.getLsbD i = false) : shift8 P r = r >>> 8 := by
  unfold shift8
  rw [shift_high P r (h 0 (by omega))]
  rw [shift_high P (r >>> 1) (by rw [BitVec.getLsbD_ushiftRight]; exact h _ (by omega)), ← BitVec.shiftRight_add]
  rw [shift_high P (r >>> (1 + 1)) (by rw [BitVec.getLsbD_ushiftRight]; exact h _ (by omega)), ← BitVec.shiftRight_add]
  rw [shift_high P (r >>> (1 + 1 + 1)) (by rw [BitVec.getLsbD_ushiftRight]; exact h _ (by omega)), ← BitVec.shiftRight_add]
  rw [shift_high P (r >>> (1 + 1 + 1 + 1)) (by rw [BitVec.getLsbD_ushiftRight]; exact h _ (by omega)), ← BitVec.shiftRight_add]
  rw [shift_high P (r >>> (1 + 1 + 1 + 1 + 1)) (by rw [BitVec.getLsbD_ushiftRight]; exact h _ (by omega)), ← BitVec.shiftRight_add]
  rw [shift_high P (r >>> (1 + 1 + 1 + 1 + 1 + 1)) (by rw [BitVec.getLsbD_ushiftRight]; exact h _ (by omega)), ← BitVec.shiftRight_add]
  rw [shift_high P (r >>> (1 + 1 + 1 + 1 + 1 + 1 + 1)) (by rw [BitVec.getLsbD_ushiftRight]; exact h _ (by omega)), ← BitVec.shiftRight_add]

theorem ff_getLsbD {n} (hn : 8 ≤ n) (i : Nat) : (0xFF#n).getLsbD i = decide (i < 8) := by
  rw [BitVec.getLsbD_ofNat]
  by_cases h : i < 8
  · have : i < n := by omega
    simp only [this, h, decide_true, Bool.true_and]
    interval_cases i <;> rfl
  · simp only [h, decide_false, Bool.and_eq_false_iff]
    right
    exact Nat.testBit_lt_two_pow (lt_of_lt_of_le (by norm_num : 0xFF < 2 ^ 8) (Nat.pow_le_pow_right (by omega) (by omega)))

theorem step_eq {n} (hn : 8 ≤ n) {tab : List (BitVec n)} {P : BitVec n} (h : TabOk tab P) (r : BitVec n) (b : Byte) :
    tab.getD ((b.setWidth n ^^^ r) &&& 0xFF#n).toNat 0 ^^^ (r >>> 8) = (byteBits b).foldl (feed P) r := by
  have hidx : ((b.setWidth n ^^^ r) &&& 0xFF#n).toNat = (b ^^^ r.setWidth 8).toNat := by
    have : ((b.setWidth n ^^^ r) &&& 0xFF#n) = (b ^^^ r.setWidth 8).setWidth n := by
      apply BitVec.eq_of_getLsbD_eq
      intro i hi
      simp only [BitVec.getLsbD_and, BitVec.getLsbD_xor, BitVec.getLsbD_setWidth, ff_getLsbD hn, hi, decide_true,
        Bool.true_and]
      by_cases h8 : i < 8
      · simp [h8]
      · simp [h8, BitVec.getLsbD_of_ge b i (by omega)]
    rw [this, BitVec.toNat_setWidth, Nat.mod_eq_of_lt]
    exact lt_of_lt_of_le (b ^^^ r.setWidth 8).isLt (Nat.pow_le_pow_right (by omega) hn)
  rw [hidx, h.row, setWidth_xor8, shift8_xor, feeds_xor, h.bits, BitVec.xor_assoc]
  congr 1
  have hr : r = (r.setWidth 8).setWidth n ^^^ (r &&& ~~~ 0xFF#n) := by
    apply BitVec.eq_of_getLsbD_eq
    intro i hi
    simp only [BitVec.getLsbD_and, BitVec.getLsbD_xor, BitVec.getLsbD_setWidth, BitVec.getLsbD_not, ff_getLsbD hn, hi,
      decide_true, Bool.true_and]
    by_cases h8 : i < 8 <;> simp [h8]
  conv_rhs => rw [hr, shift8_xor]
  congr 1
  rw [shift8_high]
  · apply BitVec.eq_of_getLsbD_eq
    intro i hi
    simp only [BitVec.getLsbD_and, BitVec.getLsbD_ushiftRight, BitVec.getLsbD_not, ff_getLsbD hn]
    by_cases h8 : 8 + i < n
    · simp [h8]
    · rw [BitVec.getLsbD_of_ge r _ (by omega)]; rfl
  · intro i hi
    simp only [BitVec.getLsbD_and, BitVec.getLsbD_not, ff_getLsbD hn, hi]
    simp

theorem update_spec {n} (hn : 8 ≤ n) {P : BitVec n} : ∀ (msg : List Byte) (c : Ctx n), TabOk c.tab P →
    update c msg = { c with crc := (bits msg).foldl (feed P) c.crc }
  | [], c, _ => rfl
  | b :: msg, c, h => by
    rw [update, step_eq hn h]
    rw [update_spec hn msg ⟨c.tab, (byteBits b).foldl (feed P) c.crc, c.compl, c.swap⟩ h, show bits (b :: msg) = byteBits b ++ bits msg from List.flatMap_cons .., List.foldl_append]

theorem bits_length (msg : List Byte) : (bits msg).length = 8 * msg.length := by
  induction msg with
  | nil => rfl
  | cons b msg ih =>
    rw [bits, List.flatMap_cons, List.length_append]
    rw [bits] at ih
    rw [ih]
    simp; omega

theorem reg_inj {n} {a b : BitVec n} (h : reg a = reg b) : a = b := by
  have hc : ∀ (v : BitVec n) (i : Nat), i < n → (reg v).coeff (n - 1 - i) = bit (v.getLsbD i) := by
    intro v i hi
    unfold reg
    rw [finset_sum_coeff, Finset.sum_eq_single i]
    · simp
    · intro j hj hne
      have := Finset.mem_range.mp hj
      rw [coeff_C_mul_X_pow, if_neg (by omega)]
    · intro hni
      exact absurd (Finset.mem_range.mpr hi) hni
  apply BitVec.eq_of_getLsbD_eq
  intro i hi
  exact bit_inj (by rw [← hc a i hi, ← hc b i hi, h])

/-- Two bit sequences that differ only in a stretch no longer than the register leave different registers. -/
theorem feeds_burst {n} (P : BitVec (n + 1)) (hP : IsCoprime (X ^ (n + 1) + reg P : Pol) X) (pre x y post : List Bool)
    (hl : x.length = y.length) (hx : x.length ≤ n + 1) (r : BitVec (n + 1))
    (h : (pre ++ x ++ post).foldl (feed P) r = (pre ++ y ++ post).foldl (feed P) r) : x = y := by
  have h1 := reg_feeds P (pre ++ x ++ post) r
  have h2 := reg_feeds P (pre ++ y ++ post) r
  rw [h] at h1
  have h3 := dvd_sub h1 h2
  have hlen : (pre ++ x ++ post).length = (pre ++ y ++ post).length := by simp [hl]
  have he : (reg ((pre ++ y ++ post).foldl (feed P) r) - (X ^ (pre ++ x ++ post).length * reg r +
      X ^ (n + 1) * pol (pre ++ x ++ post))) - (reg ((pre ++ y ++ post).foldl (feed P) r) -
      (X ^ (pre ++ y ++ post).length * reg r + X ^ (n + 1) * pol (pre ++ y ++ post))) =
      X ^ (n + 1) * (X ^ post.length * (pol y - pol x)) := by
    rw [hlen, pol_append, pol_append, pol_append, pol_append, hl]
    ring
  rw [he] at h3
  have h4 := (hP.pow_right (n := post.length)).dvd_of_dvd_mul_left ((hP.pow_right (n := n + 1)).dvd_of_dvd_mul_left h3)
  have hd : (pol y - pol x).degree < (X ^ (n + 1) + reg P : Pol).degree := by
    rw [gen_degree]
    refine lt_of_le_of_lt (degree_sub_le _ _) (max_lt ?_ ?_)
    · exact lt_of_lt_of_le (pol_degree y) (by exact_mod_cast (by omega : y.length ≤ n + 1))
    · exact lt_of_lt_of_le (pol_degree x) (by exact_mod_cast hx)
  have h0 := eq_zero_of_dvd_of_degree_lt h4 hd
  exact pol_inj x y hl (sub_eq_zero.mp h0).symm

end Verif.Crc
