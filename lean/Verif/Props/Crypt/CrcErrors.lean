import Verif.Lemmas.Crypt.CrcOrder
/-!
# C115: errors in two bits, and in an odd number of bits
-/
namespace Verif.Crc
open Polynomial Verif.CrcS Verif.CrcOrder

/-- The messages differ in exactly two bits, `d` places apart in the order they are sent. -/
def TwoBits (d : Nat) (a b : List Byte) : Prop :=
  ∃ pre x mid y post, bits a = (pre ++ x :: mid) ++ y :: post ∧ bits b = (pre ++ (!x) :: mid) ++ (!y) :: post ∧ mid.length + 1 = d

theorem remainder_eq_iff {n : Nat} {P : BitVec (n + 1)} {g : Pol} (hg : X ^ (n + 1) + reg P = g) (start : BitVec (n + 1)) {a b : List Byte} (hl : a.length = b.length) :
    remainder g start a = remainder g start b ↔ g ∣ X ^ (n + 1) * (pol (bits a) - pol (bits b)) := by
  have hm : g.Monic := hg ▸ gen_monic P
  rw [remainder, remainder, ← sub_eq_zero, ← sub_modByMonic, modByMonic_eq_zero_iff_dvd hm, hl,
    show ∀ u v w : Pol, u + v - (u + w) = v - w from fun u v w => by ring, mul_sub]

theorem two_iff {n : Nat} {P : BitVec (n + 1)} {g : Pol} (hg : X ^ (n + 1) + reg P = g) (hc : IsCoprime g X) (start : BitVec (n + 1)) {d : Nat} {a b : List Byte}
    (h : TwoBits d a b) : remainder g start a = remainder g start b ↔ g ∣ X ^ d - 1 := by
  obtain ⟨pre, x, mid, y, post, ha, hb, rfl⟩ := h
  have hl : a.length = b.length := by
    have h1 := bits_length a
    have h2 := bits_length b
    rw [ha] at h1
    rw [hb] at h2
    simp only [List.length_append, List.length_cons] at h1 h2
    omega
  have hx : ∀ x, C (bit x) - C (bit (!x)) = (1 : Pol) := fun x => by
    rw [← C_sub, ← C_1]; congr 1; cases x <;> decide
  have h2 : (2 : Pol) = 0 := CharTwo.two_eq_zero
  have hd : pol (bits a) - pol (bits b) = X ^ post.length * (X ^ (mid.length + 1) - 1) := by
    rw [ha, hb, pol_append, pol_append, pol_append, pol_append, pol, pol, pol, pol]
    simp only [List.length_cons]
    linear_combination X ^ mid.length * X ^ (post.length + 1) * hx x + X ^ post.length * hx y + X ^ post.length * h2
  rw [remainder_eq_iff hg start hl, hd]
  constructor
  · intro h
    exact (hc.pow_right (n := post.length)).dvd_of_dvd_mul_left ((hc.pow_right (n := n + 1)).dvd_of_dvd_mul_left h)
  · intro h
    exact (h.mul_left _).mul_left _

theorem ccitt_eq (a b : List Byte) : ccitt a = ccitt b ↔ remainder gCcitt 0xFFFF#16 a = remainder gCcitt 0xFFFF#16 b := by
  obtain ⟨r, hr, hv⟩ := ccitt_remainder a
  obtain ⟨s, hs, hw⟩ := ccitt_remainder b
  rw [hv, hw, ← hr, ← hs]
  exact ⟨fun h => congrArg reg (not_inj' (rot8_inj h)), fun h => by rw [reg_inj h]⟩

theorem dnp_eq (a b : List Byte) : dnp a = dnp b ↔ remainder gDnp 0#16 a = remainder gDnp 0#16 b := by
  obtain ⟨r, hr, hv⟩ := dnp_remainder a
  obtain ⟨s, hs, hw⟩ := dnp_remainder b
  rw [hv, hw, ← hr, ← hs]
  exact ⟨fun h => congrArg reg (not_inj' (rot8_inj h)), fun h => by rw [reg_inj h]⟩

theorem ibm_eq (a b : List Byte) : ibm a = ibm b ↔ remainder gIbm 0xFFFF#16 a = remainder gIbm 0xFFFF#16 b := by
  rw [← ibm_remainder, ← ibm_remainder]
  exact ⟨congrArg reg, reg_inj⟩

theorem eth_eq (a b : List Byte) : eth a = eth b ↔ remainder gEth 0xFFFFFFFF#32 a = remainder gEth 0xFFFFFFFF#32 b := by
  obtain ⟨r, hr, hv⟩ := eth_remainder a
  obtain ⟨s, hs, hw⟩ := eth_remainder b
  rw [hv, hw, ← hr, ← hs]
  exact ⟨fun h => congrArg reg (not_inj' h), fun h => by rw [reg_inj h]⟩

/-- C115: CRC-16-CCITT misses a change of two bits exactly when they are a multiple of 32767 places apart. -/
theorem ccitt_two {d : Nat} {a b : List Byte} (h : TwoBits d a b) : ccitt a = ccitt b ↔ 32767 ∣ d := by
  rw [ccitt_eq, two_iff ccitt_gen ccitt_coprime _ h, ccitt_order]

/-- C115: the same for CRC-16-IBM. -/
theorem ibm_two {d : Nat} {a b : List Byte} (h : TwoBits d a b) : ibm a = ibm b ↔ 32767 ∣ d := by
  rw [ibm_eq, two_iff ibm_gen ibm_coprime _ h, ibm_order]

/-- C115: CRC-16-DNP, with 151 places. -/
theorem dnp_two {d : Nat} {a b : List Byte} (h : TwoBits d a b) : dnp a = dnp b ↔ 151 ∣ d := by
  rw [dnp_eq, two_iff dnp_gen dnp_coprime _ h, dnp_order]

/-- C115: CRC-32-ETH, with 2^32 - 1 places. -/
theorem eth_two {d : Nat} {a b : List Byte} (h : TwoBits d a b) : eth a = eth b ↔ 4294967295 ∣ d := by
  rw [eth_eq, two_iff eth_gen eth_coprime _ h, eth_order]

-- two bits, 9 places apart
example : TwoBits 9 [0x00, 0x00] [0x01, 0x02] := ⟨[], false, List.replicate 8 false, false, List.replicate 6 false, by decide, by decide, by decide⟩
-- the shortest pairs that DNP misses
example : dnp (List.replicate 19 0) = dnp (0x01 :: (List.replicate 17 0 ++ [0x80])) := by decide +kernel

theorem eval_pol : ∀ l : List Bool, (pol l).eval 1 = (l.count true : ZMod 2)
  | [] => by simp [pol]
  | b :: l => by
    rw [pol, eval_add, eval_pol l]
    cases b <;> simp [bit, add_comm]

theorem odd_ne {n : Nat} {P : BitVec (n + 1)} {g : Pol} (hg : X ^ (n + 1) + reg P = g) (h1 : g.eval 1 = 0) (start : BitVec (n + 1)) {a b : List Byte} (hl : a.length = b.length)
    (h : (bits a).count true % 2 ≠ (bits b).count true % 2) : remainder g start a ≠ remainder g start b := by
  rw [Ne, remainder_eq_iff hg start hl]
  rintro ⟨c, hc⟩
  have := congrArg (eval 1) hc
  rw [eval_mul, eval_mul, eval_sub, eval_pol, eval_pol, h1, zero_mul, eval_pow, eval_X, one_pow, one_mul, sub_eq_zero] at this
  exact h ((ZMod.natCast_eq_natCast_iff' _ _ 2).1 this)

/-- C115: the three CRCs of 16 bits notice every change of an odd number of bits. -/
theorem crc16_odd {a b : List Byte} (hl : a.length = b.length) (h : (bits a).count true % 2 ≠ (bits b).count true % 2) :
    ccitt a ≠ ccitt b ∧ ibm a ≠ ibm b ∧ dnp a ≠ dnp b := by
  rw [Ne, Ne, Ne, ccitt_eq, ibm_eq, dnp_eq]
  exact ⟨odd_ne ccitt_gen (by simp [gCcitt]; decide) _ hl h, odd_ne ibm_gen (by simp [gIbm]; decide) _ hl h, odd_ne dnp_gen (by simp [gDnp]; decide) _ hl h⟩

example : (bits [0x07, 0x10]).count true % 2 ≠ (bits [0x07, 0x11]).count true % 2 := by decide

/-- CRC-32-ETH does not: it misses this change of 15 bits. -/
theorem eth_odd_missed : ∃ a b : List Byte, a.length = b.length ∧ (bits a).count true % 2 ≠ (bits b).count true % 2 ∧ eth a = eth b :=
  ⟨[0, 0, 0, 0, 0], [0x41, 0x06, 0x71, 0xDB, 0x01], rfl, by decide +kernel, by decide +kernel⟩

end Verif.Crc
