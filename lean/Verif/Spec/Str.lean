import Verif.Model.MemXor
import Mathlib.Data.Nat.Size
/-!
# Numerals as byte strings
-/
namespace Verif

/-- Value of an ASCII digit or letter (case-insensitive), if it is one. -/
def digitValue (c : Byte) : Option Nat :=
  if 48 ≤ c.toNat ∧ c.toNat ≤ 57 then some (c.toNat - 48)
  else if 97 ≤ c.toNat ∧ c.toNat ≤ 122 then some (c.toNat - 97 + 10)
  else if 65 ≤ c.toNat ∧ c.toNat ≤ 90 then some (c.toNat - 65 + 10)
  else none

/-- `c` is a digit of the radix. -/
def IsDigit (radix : Nat) (c : Byte) : Prop := ∃ d, digitValue c = some d ∧ d < radix

/-- Value of a numeral, most significant character first. -/
def numeralFrom (radix : Nat) : Nat → List Byte → Nat
  | v, [] => v
  | v, c :: cs => numeralFrom radix (v * radix + (digitValue c).getD 0) cs

def numeral (radix : Nat) (cs : List Byte) : Nat := numeralFrom radix 0 cs

/-- The string of an integer: a minus sign if it is negative, then digits, most significant first, without leading zeros. -/
def IsNumeral (radix : Nat) (z : Int) (t : List Byte) : Prop :=
  ∃ ds, t = (if z < 0 then 45#8 :: ds else ds) ∧ (∀ c ∈ ds, IsDigit radix c) ∧ numeral radix ds = z.natAbs ∧ ds ≠ [] ∧
    (z = 0 → ds = [48#8]) ∧ (z ≠ 0 → ds.head? ≠ some 48#8)

/-- An optional sign in front of a string. -/
def withSign : Option Bool → List Byte → List Byte
  | none, ds => ds
  | some true, ds => 45#8 :: ds
  | some false, ds => 43#8 :: ds

/-- Bytes of the magnitude. -/
def byteLen (z : Int) : Nat := (Nat.size z.natAbs + 7) / 8

/-- The string of the integer and its terminating 0 fit into `2 * byteLen z + 2` bytes: a digit takes at least a place of the
radix, a minus sign one more. -/
def Fits (radix : Nat) (z : Int) : Prop := z.natAbs < radix ^ (2 * byteLen z + 1 - (if z < 0 then 1 else 0))

end Verif
