import Verif.Spec.Bytes
/-! PKCS#1 v1.5 blocks (RFC 2313, section 8.1). -/
namespace Verif.Pkcs

/-- `eb = 00 || BT || PS || 00 || D`: block type 1 with padding bytes FF for the private-key operation, block type 2
with non-zero padding bytes for the public-key operation. -/
def Form (priv : Bool) (ps msg eb : List Byte) : Prop :=
  eb = 0#8 :: (if priv then 1#8 else 2#8) :: (ps ++ 0#8 :: msg) ∧
  ∀ b ∈ ps, if priv then b = 0xFF#8 else b ≠ 0#8

/-- A block of `k` bytes holding `msg`; the padding string has at least eight bytes. -/
def Block (k : Nat) (priv : Bool) (msg eb : List Byte) : Prop :=
  eb.length = k ∧ ∃ ps, Form priv ps msg eb ∧ 8 ≤ ps.length

end Verif.Pkcs
