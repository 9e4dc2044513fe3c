import Verif.Model.Bytes
import Mathlib.Tactic.IntervalCases
/-! Byte-order conversions bit by bit. -/
namespace Verif

theorem read32be_eq (a b c d : Byte) : read32be a b c d = a ++ b ++ c ++ d := by
  apply BitVec.eq_of_getLsbD_eq
  intro i hi
  simp only [read32be, BitVec.getLsbD_append, BitVec.getLsbD_or, BitVec.getLsbD_shiftLeft,
    BitVec.getLsbD_setWidth]
  interval_cases i <;> simp

theorem read32le_eq (a b c d : Byte) : read32le a b c d = read32be d c b a := rfl

theorem write32be_read32be (a b c d : Byte) : write32be (read32be a b c d) = [a, b, c, d] := by
  simp only [write32be, List.cons.injEq, and_true]
  refine ⟨?_, ?_, ?_, ?_⟩ <;>
  (apply BitVec.eq_of_getLsbD_eq
   intro i hi
   simp only [read32be, BitVec.getLsbD_or, BitVec.getLsbD_shiftLeft, BitVec.getLsbD_setWidth,
     BitVec.getLsbD_and, BitVec.getLsbD_ushiftRight]
   interval_cases i <;> simp)

theorem write32le_eq (v : BitVec 32) : write32le v = (write32be v).reverse := rfl

/-- The four bytes written are read back. -/
theorem exists_write32be (v : BitVec 32) : ∃ a b c d, write32be v = [a, b, c, d] ∧ read32be a b c d = v := by
  refine ⟨_, _, _, _, rfl, ?_⟩
  apply BitVec.eq_of_getLsbD_eq
  intro i hi
  simp only [read32be, BitVec.getLsbD_or, BitVec.getLsbD_shiftLeft, BitVec.getLsbD_setWidth,
    BitVec.getLsbD_and, BitVec.getLsbD_ushiftRight]
  interval_cases i <;> simp

theorem write32be_length (v : BitVec 32) : (write32be v).length = 4 := rfl

end Verif
