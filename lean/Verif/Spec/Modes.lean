import Verif.Model.MemXor
/-!
# Textbook definitions of the block cipher modes (NIST SP 800-38A)

A block cipher is a function on byte strings; messages are lists of blocks.
-/
namespace Verif.Modes

/-- Bytewise exclusive or, as long as the shorter string. -/
def xorB (a b : List Byte) : List Byte := List.zipWith (· ^^^ ·) a b

/-- CBC encryption: `C_i = E (P_i xor C_(i-1))`. -/
def cbcEnc (E : List Byte → List Byte) : List Byte → List (List Byte) → List (List Byte)
  | _, [] => []
  | iv, p :: ps => E (xorB p iv) :: cbcEnc E (E (xorB p iv)) ps

/-- CBC decryption: `P_i = D C_i xor C_(i-1)`. -/
def cbcDec (D : List Byte → List Byte) : List Byte → List (List Byte) → List (List Byte)
  | _, [] => []
  | iv, y :: ys => xorB (D y) iv :: cbcDec D y ys

/-- CFB encryption with full-block feedback; the last block may be shorter. -/
def cfbEnc (E : List Byte → List Byte) : List Byte → List (List Byte) → List (List Byte)
  | _, [] => []
  | iv, p :: ps => xorB p (E iv) :: cfbEnc E (xorB p (E iv)) ps

/-- CFB with 8-bit feedback, encryption: the register is shifted by one ciphertext byte. -/
def cfb8Enc (E : List Byte → List Byte) : List Byte → List Byte → List Byte
  | _, [] => []
  | v, p :: ps =>
    let y := p ^^^ (E v).headD 0
    y :: cfb8Enc E (v.drop 1 ++ [y]) ps

/-- CFB with 8-bit feedback, decryption. -/
def cfb8Dec (E : List Byte → List Byte) : List Byte → List Byte → List Byte
  | _, [] => []
  | v, y :: ys => (y ^^^ (E v).headD 0) :: cfb8Dec E (v.drop 1 ++ [y]) ys

/-- The register after the ciphertext bytes `ys`. -/
def cfb8Reg (v ys : List Byte) : List Byte := (v ++ ys).drop ys.length

/-- Big-endian encoding of `n` modulo `256^c` in `c` bytes. -/
def encodeBE : Nat → Nat → List Byte
  | 0, _ => []
  | c + 1, n => encodeBE c (n / 256) ++ [BitVec.ofNat 8 n]

/-- Value of a big-endian byte string. -/
def beVal : List Byte → Nat := List.foldl (fun a b => 256 * a + b.toNat) 0

/-- CTR keystream: `k` blocks `E n, E (n+1), …`, the counter being a `c`-byte big-endian number. -/
def ctrStream (E : List Byte → List Byte) (c : Nat) : Nat → Nat → List Byte
  | _, 0 => []
  | n, k + 1 => E (encodeBE c n) ++ ctrStream E c (n + 1) k

end Verif.Modes
