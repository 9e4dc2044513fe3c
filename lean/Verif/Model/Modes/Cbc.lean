import Verif.Model.MemXor
/-!
# Model of CBC (src/crypt/cbc.c)

A cipher context with its interface is a pair of functions on blocks of `c` bytes; calling its
`encrypt`/`decrypt` on `size` bytes applies the function to the whole blocks in turn (as the loops of
`cry_aes_encrypt` and `cry_des_encrypt` do).  Buffers are byte lists; a buffer written by a function is
part of its result.  `none` is undefined behaviour (access outside a buffer).
-/
namespace Verif.Modes

/-- The first `n` pieces of `c` bytes. -/
def pieces (c : Nat) : Nat → List Byte → List (List Byte)
  | 0, _ => []
  | n + 1, l => l.take c :: pieces c n (l.drop c)

/-- A call `encrypt(ciph, dst, src, size)` through the cipher interface (src/crypt/aes.c:411-459, 461-509,
src/crypt/des.c:303-333): block after block. -/
def ecb (F : List Byte → List Byte) (c : Nat) (src : List Byte) : List Byte :=
  ((pieces c (src.length / c) src).map F).flatten

/-- `cry_memxor`/`cry_memxor2` on list level (src/crypt/memxor.c, memory level in `Verif.MemXor`). -/
def mxor (a b : List Byte) : List Byte := List.zipWith (· ^^^ ·) a b

/-- `iv_set` of all modes (src/crypt/cbc.c:35-41, cfb.c:32-38, ctr.c:35-41): length and zero-padded
16-byte value. -/
def ivSet (iv : List Byte) : Nat × List Byte :=
  let n := min 16 iv.length
  (n, iv.take n ++ List.replicate (16 - n) 0)

/-- `size &= ~(ctrlen - 1)` on 64-bit values (src/crypt/cbc.c:49,70). -/
def maskSize (size c : Nat) : Nat := size &&& ((2 ^ 64 - 1) ^^^ ((c + (2 ^ 64 - 1)) % 2 ^ 64))

/-- Loop of `cry_cbc_encrypt` (src/crypt/cbc.c:51-59): `k` bounds the turns (the masked size is
enough). -/
def cbcEncLoop (E : List Byte → List Byte) (c : Nat) :
    Nat → List Byte → List Byte → Nat → Option (List Byte × List Byte)
  | _, ctr, _, 0 => some ([], ctr)
  | 0, _, _, _ + 1 => none
  | k + 1, ctr, src, size =>
    if size < c ∨ src.length < c then none
    else
      let y := E (mxor ctr (src.take c))
      match cbcEncLoop E c k y (src.drop c) (size - c) with
      | none => none
      | some (dst, ctr') => some (y ++ dst, ctr')

/-- `cry_cbc_encrypt` (src/crypt/cbc.c:43-60): ciphertext and new chaining value; the same for `dst` equal
to or disjoint from `src`, since a block is read before it is written. -/
def cbcEncrypt (E : List Byte → List Byte) (c : Nat) (ctr src : List Byte) :
    Option (List Byte × List Byte) :=
  let size := maskSize src.length c
  cbcEncLoop E c size ctr src size

/-- `cry_cbc_decrypt`, `src != dst` (src/crypt/cbc.c:72-76). -/
def cbcDecryptOut (D : List Byte → List Byte) (c : Nat) (ctr src : List Byte) :
    Option (List Byte × List Byte) :=
  let size := maskSize src.length c
  if size < c then none
  else
    let src := src.take size
    let dst := ecb D c src
    let dst := mxor (dst.take c) ctr ++ dst.drop c
    let dst := dst.take c ++ mxor (dst.drop c) (src.take (size - c))
    some (dst, (src.drop (size - c)).take c)

/-- One pass of the in-place branch over `src` (src/crypt/cbc.c:95-100, 106-114), `n` its length. -/
def cbcInChunk (D : List Byte → List Byte) (c : Nat) (ctr src : List Byte) (n : Nat) :
    List Byte × List Byte :=
  let buf := ecb D c (src.take n)
  let initIv := ctr.take c
  let ctr := (src.drop (n - c)).take c
  (mxor (buf.take c) initIv ++ mxor (buf.drop c) (src.take (n - c)), ctr)

/-- Loop of the in-place branch and the final pass (src/crypt/cbc.c:94-114), `k` bounding the turns. -/
def cbcInLoop (D : List Byte → List Byte) (c bufsiz : Nat) :
    Nat → List Byte → List Byte → Nat → Option (List Byte × List Byte)
  | k, ctr, src, size =>
    if size > bufsiz then
      match k with
      | 0 => none
      | k + 1 =>
        if bufsiz < c then none
        else
          let (d, ctr) := cbcInChunk D c ctr src bufsiz
          match cbcInLoop D c bufsiz k ctr (src.drop bufsiz) (size - bufsiz) with
          | none => none
          | some (dst, ctr') => some (d ++ dst, ctr')
    else if size < c then none
    else some (cbcInChunk D c ctr src size)

/-- `cry_cbc_decrypt`, `src == dst` (src/crypt/cbc.c:77-118); `alloc` tells whether `malloc` succeeds. -/
def cbcDecryptIn (D : List Byte → List Byte) (c : Nat) (alloc : Bool) (ctr src : List Byte) :
    Option (List Byte × List Byte) :=
  let size := maskSize src.length c
  let bufsiz := if alloc then min size 512 else 16
  cbcInLoop D c bufsiz size ctr (src.take size) size

end Verif.Modes
