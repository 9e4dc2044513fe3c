import Verif.Model.MemXor
import Verif.Model.LongInv
/-! Model of the affine cipher (src/crypt/affine.c). -/
namespace Verif.Affine
open Verif.LongInv

/-- `struct cry_affine_ctx` (include/cry/affine.h:36-41); the arrays have `CRY_AFFINE_KEYMAX` = 32 bytes. -/
structure Ctx where
  keya : List Byte
  inva : List Byte
  keyb : List Byte
  keylen : Nat
deriving DecidableEq

/-- The loop of `cry_affine_encrypt` (src/crypt/affine.c:11-16).  The arithmetic is done in `int`, where it does not
overflow, and cut to eight bits.  `none`: a read outside the key arrays. -/
def encLoop (c : Ctx) : Nat → List Byte → Option (List Byte)
  | _, [] => some []
  | k, x :: l =>
    match c.keya[k]?, c.keyb[k]? with
    | some a, some b =>
      (encLoop c (if k + 1 = c.keylen then 0 else k + 1) l).map ((x * a + b) :: ·)
    | _, _ => none

/-- `cry_affine_encrypt` (src/crypt/affine.c:5-17). -/
def encrypt (c : Ctx) (src : List Byte) : Option (List Byte) := encLoop c 0 src

/-- The loop of `cry_affine_decrypt` (src/crypt/affine.c:25-30). -/
def decLoop (c : Ctx) : Nat → List Byte → Option (List Byte)
  | _, [] => some []
  | k, x :: l =>
    match c.inva[k]?, c.keyb[k]? with
    | some a, some b =>
      (decLoop c (if k + 1 = c.keylen then 0 else k + 1) l).map (((x - b) * a) :: ·)
    | _, _ => none

/-- `cry_affine_decrypt` (src/crypt/affine.c:19-31). -/
def decrypt (c : Ctx) (src : List Byte) : Option (List Byte) := decLoop c 0 src

/-- The loop of `cry_affine_init` over the rest `as` of the multipliers (src/crypt/affine.c:46-53): result and inverses
stored.  `none`: `cry_long_inv` does not end. -/
def invLoop : List Byte → Option (Int × List Byte)
  | [] => some (0, [])
  | a :: as =>
    if a &&& 1#8 ≠ 1#8 then some (-1, [])
    else match longInv (a.setWidth 64) 256 with
      | none => none
      | some i => (invLoop as).map fun (res, l) => (res, i.setWidth 8 :: l)

/-- Fill an array of 32 bytes. -/
def pad (l : List Byte) : List Byte := l ++ List.replicate (32 - l.length) 0

/-- `cry_affine_init` (src/crypt/affine.c:33-55): result and context.  `none`: a read outside the key arguments, or no
end. -/
def init (keya keyb : List Byte) (keylen : Nat) : Option (Int × Ctx) :=
  let keylen := if keylen > 32 then 32 else keylen
  if keya.length < keylen ∨ keyb.length < keylen then none
  else (invLoop (keya.take keylen)).map fun (res, inv) =>
    (res, ⟨pad (keya.take keylen), pad inv, pad (keyb.take keylen), keylen⟩)

end Verif.Affine
