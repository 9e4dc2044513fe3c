import Verif.Props.Ram.Crc
/-!
# C117: the digest of a CRC taken again
-/
namespace Verif.RamCrc
open Verif.Ram Verif.RamHash Verif.Crc

theorem final16_bit (c : Ctx 16) (i : Nat) (hi : i < 16) :
    (final16 c).getLsbD i = (c.crc.getLsbD (if c.swap then (i + 8) % 16 else i) ^^ c.compl) := by
  obtain ⟨t, v, co, sw⟩ := c
  unfold final16
  cases co <;> cases sw <;> interval_cases i <;> simp

theorem final32_bit (c : Ctx 32) (i : Nat) (hi : i < 32) :
    (final32 c).getLsbD i = (c.crc.getLsbD (if c.swap then 24 - 8 * (i / 8) + i % 8 else i) ^^ c.compl) := by
  obtain ⟨t, v, co, sw⟩ := c
  unfold final32
  cases co <;> cases sw <;> interval_cases i <;> simp

theorem final16_get (c : Ctx 16) (i : Nat) (hi : i < 16) :
    (final16 c)[i] = (c.crc.getLsbD (if c.swap then (i + 8) % 16 else i) ^^ c.compl) := by
  rw [← BitVec.getLsbD_eq_getElem, final16_bit c i hi]

theorem final32_get (c : Ctx 32) (i : Nat) (hi : i < 32) :
    (final32 c)[i] = (c.crc.getLsbD (if c.swap then 24 - 8 * (i / 8) + i % 8 else i) ^^ c.compl) := by
  rw [← BitVec.getLsbD_eq_getElem, final32_bit c i hi]

theorem final16_twice (c : Ctx 16) : final16 { c with crc := final16 c } = c.crc := by
  apply BitVec.eq_of_getLsbD_eq
  intro i hi
  rw [final16_bit _ _ hi]
  dsimp only
  rw [final16_bit _ _ (by split_ifs <;> omega), Bool.xor_assoc, Bool.xor_self, Bool.xor_false]
  congr 1
  split_ifs <;> omega

theorem final32_twice (c : Ctx 32) : final32 { c with crc := final32 c } = c.crc := by
  apply BitVec.eq_of_getLsbD_eq
  intro i hi
  rw [final32_bit _ _ hi]
  dsimp only
  rw [final32_bit _ _ (by split_ifs <;> omega), Bool.xor_assoc, Bool.xor_self, Bool.xor_false]
  congr 1
  split_ifs <;> omega

/-- C117: a digest taken twice.  The first leaves its value in the context, so the second writes the register itself, neither
complemented nor exchanged, and leaves the context as it was before the first. -/
theorem ram_crc16_again {R : Ram} (c : Ctx 16) {out out' : Nat} (h : R.Owned out 2) (h' : R.Owned out' 2) :
    ∃ R1 c1 R2 a b, digest16 R c out = some (R1, c1) ∧ digest16 R1 c1 out' = some (R2, c) ∧
      (a ++ b : BitVec 16) = c.crc ∧ Wrote R1 R2 [(out', [a, b])] [] := by
  obtain ⟨a, b, e1, e2⟩ := digest16_value { c with crc := final16 c }
  refine ⟨_, _, _, a, b, digest16_eq h, ?_, e2.trans (final16_twice c), Verif.Ram.wrote_put1 _ _ _⟩
  rw [digest16_eq ((owned_put _ _ _ _).2 h'), e1, final16_twice]

/-- C117: the same for 32 bits. -/
theorem ram_crc32_again {R : Ram} (c : Ctx 32) {out out' : Nat} (h : R.Owned out 4) (h' : R.Owned out' 4) :
    ∃ R1 c1 R2 a b d e, digest32 R c out = some (R1, c1) ∧ digest32 R1 c1 out' = some (R2, c) ∧
      (a ++ b ++ d ++ e : BitVec 32) = c.crc ∧ Wrote R1 R2 [(out', [a, b, d, e])] [] := by
  obtain ⟨a, b, d, e, e1, e2⟩ := digest32_value { c with crc := final32 c }
  refine ⟨_, _, _, a, b, d, e, digest32_eq h, ?_, e2.trans (final32_twice c), Verif.Ram.wrote_put1 _ _ _⟩
  rw [digest32_eq ((owned_put _ _ _ _).2 h'), e1, final32_twice]

example : RamHash.exRam.Owned 100 4 ∧ RamHash.exRam.Owned 102 4 := ⟨RamHash.exRam_owned (by decide), RamHash.exRam_owned (by decide)⟩

/-- C117: so the second digest of CRC-32 is the complement of the first: never the same. -/
theorem crc_eth_again (msg : List Byte) : final32 { Crc.update ethInit msg with crc := Crc.eth msg } = ~~~ Crc.eth msg := by
  have hk := update_keeps msg ethInit
  rw [show Crc.eth msg = final32 (Crc.update ethInit msg) from rfl, final32_twice]
  apply BitVec.eq_of_getLsbD_eq
  intro i hi
  rw [BitVec.getLsbD_not, final32_bit _ _ hi, hk.2.1, hk.2.2]
  simp [ethInit, hi]

/-- C117: the flag of the exchange reverses the bytes of the digest, with any table, register and complement. -/
theorem crc_swap (t : List (BitVec 16)) (v : BitVec 16) (t' : List (BitVec 32)) (v' : BitVec 32) (co : Bool) :
    Crc.digest16 ⟨t, v, co, true⟩ = (Crc.digest16 ⟨t, v, co, false⟩).reverse ∧
    Crc.digest32 ⟨t', v', co, true⟩ = (Crc.digest32 ⟨t', v', co, false⟩).reverse := by
  unfold Crc.digest16 Crc.digest32
  simp only [List.reverse_cons, List.reverse_nil, List.nil_append, List.cons_append, List.cons.injEq, and_true]
  refine ⟨⟨?_, ?_⟩, ?_, ?_, ?_, ?_⟩ <;>
  · apply BitVec.eq_of_getLsbD_eq
    intro i hi
    interval_cases i <;> simp [final16_get, final32_get]

-- the flag alone: 0x01020304 is written as 04 03 02 01
example : Crc.digest32 ⟨[], 0x01020304#32, false, true⟩ = [4, 3, 2, 1] := by decide

/-- C117: the complement flag complements each byte of the digest. -/
theorem crc_compl (t : List (BitVec 16)) (v : BitVec 16) (t' : List (BitVec 32)) (v' : BitVec 32) (sw : Bool) :
    Crc.digest16 ⟨t, v, true, sw⟩ = (Crc.digest16 ⟨t, v, false, sw⟩).map (~~~ ·) ∧
    Crc.digest32 ⟨t', v', true, sw⟩ = (Crc.digest32 ⟨t', v', false, sw⟩).map (~~~ ·) := by
  unfold Crc.digest16 Crc.digest32
  simp only [List.map_cons, List.map_nil, List.cons.injEq, and_true]
  refine ⟨⟨?_, ?_⟩, ?_, ?_, ?_, ?_⟩ <;>
  · apply BitVec.eq_of_getLsbD_eq
    intro i hi
    interval_cases i <;> simp [final16_get, final32_get]

end Verif.RamCrc
