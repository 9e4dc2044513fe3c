import Verif.Spec.Modes
/-!
# GCM (NIST SP 800-38D)

The multiplication of blocks is a parameter; it is identified with GF(2^128) in `Verif.Spec.Gf128`.
-/
namespace Verif.Modes

/-- Zero padding to whole blocks of 16 bytes. -/
def pad16 (l : List Byte) : List Byte := l ++ List.replicate ((16 - l.length % 16) % 16) 0

/-- GHASH of a list of blocks (6.4): `Y_i = (Y_(i-1) xor X_i) * H`. -/
def ghash (mul : List Byte → List Byte → List Byte) (H : List Byte) (xs : List (List Byte)) : List Byte :=
  xs.foldl (fun y x => mul (xorB y x) H) (List.replicate 16 0)

/-- Cut a string of whole blocks into blocks. -/
def cut16 (l : List Byte) : List (List Byte) :=
  (List.range (l.length / 16)).map fun i => (l.drop (16 * i)).take 16

/-- `inc_32` (6.2). -/
def gcmInc (cb : List Byte) : List Byte := cb.take 12 ++ encodeBE 4 (beVal (cb.drop 12) + 1)

/-- Key stream of GCTR (6.5). -/
def gctrStream (E : List Byte → List Byte) : List Byte → Nat → List Byte
  | _, 0 => []
  | cb, k + 1 => E cb ++ gctrStream E (gcmInc cb) k

/-- GCTR. -/
def gctr (E : List Byte → List Byte) (icb x : List Byte) : List Byte :=
  xorB x (gctrStream E icb ((x.length + 15) / 16))

/-- The pre-counter block `J_0` (7.1, step 2). -/
def gcmJ0 (mul : List Byte → List Byte → List Byte) (H iv : List Byte) : List Byte :=
  if iv.length = 12 then iv ++ [0, 0, 0, 1]
  else ghash mul H (cut16 (pad16 iv ++ List.replicate 8 0 ++ encodeBE 8 (8 * iv.length)))

/-- Authenticated encryption (7.1): ciphertext and full tag. -/
def gcmAE (mul : List Byte → List Byte → List Byte) (E : List Byte → List Byte)
    (iv aad p : List Byte) : List Byte × List Byte :=
  let H := E (List.replicate 16 0)
  let j0 := gcmJ0 mul H iv
  let y := gctr E (gcmInc j0) p
  let s := ghash mul H (cut16 (pad16 aad ++ pad16 y ++ encodeBE 8 (8 * aad.length) ++ encodeBE 8 (8 * y.length)))
  (y, xorB s (E j0))

end Verif.Modes
