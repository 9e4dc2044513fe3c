import Verif.Model.Modes.Cfb
/-!
# Model of AES key wrap (src/utils/aes_wrap.c)

`E` and `D` are AES encryption and decryption of one block under the given key; `in` and `out` do not
overlap.
-/
namespace Verif.Modes

/-- `a[7] ^= t`, cut to a byte (src/utils/aes_wrap.c:44, 73). -/
def xor7 (a : List Byte) (t : Nat) : List Byte := a.modify 7 (· ^^^ BitVec.ofNat 8 t)

/-- The inner loop of `cry_aes_wrap` (src/utils/aes_wrap.c:39-47), `k` turns left, counter `j`: new `a` and
new bytes from `r` on. -/
def wrapInner (E : List Byte → List Byte) (blks i : Nat) :
    Nat → Nat → List Byte → List Byte → List Byte × List Byte
  | 0, _, a, r => (a, r)
  | k + 1, j, a, r =>
    let b := E (a ++ r.take 8)
    let s := wrapInner E blks i k (j + 1) (xor7 (b.take 8) (blks * i + j)) (r.drop 8)
    (s.1, b.drop 8 ++ s.2)

/-- `cry_aes_wrap` (src/utils/aes_wrap.c:20-50): the output buffer; the result is always 0. -/
def aesWrap (E : List Byte → List Byte) (inp : List Byte) : List Byte :=
  let blks := inp.length / 8
  let s := [0, 1, 2, 3, 4, 5].foldl (fun s i => wrapInner E blks i blks 1 s.1 s.2)
    (List.replicate 8 0xA6, inp)
  s.1 ++ s.2

/-- The inner loop of `cry_aes_unwrap` (src/utils/aes_wrap.c:71-79), counting `j` down to 1; `r` points to
`out + (j-1)*8`. -/
def unwrapInner (D : List Byte → List Byte) (blks i : Nat) :
    Nat → List Byte → List Byte → List Byte × List Byte
  | 0, a, out => (a, out)
  | k + 1, a, out =>
    let b := D (xor7 a (blks * i + (k + 1)) ++ rd out (8 * k) 8)
    unwrapInner D blks i k (b.take 8) (wr out (8 * k) (b.drop 8))

/-- `cry_aes_unwrap` (src/utils/aes_wrap.c:52-90), `inp` of `len + 8` bytes: result and output buffer.
With no block at all the check reads an uninitialised buffer (`none`); otherwise `b[0..7]` equals `a`. -/
def aesUnwrap (D : List Byte → List Byte) (inp : List Byte) : Option (Int × List Byte) :=
  if inp.length < 8 then none
  else
    let len := inp.length - 8
    let blks := len / 8
    if blks = 0 then none
    else
      let s := [5, 4, 3, 2, 1, 0].foldl (fun s i => unwrapInner D blks i blks s.1 s.2)
        (inp.take 8, inp.drop 8)
      if s.1 = List.replicate 8 0xA6 then some (0, s.2)
      else some (-1, List.replicate len 0)

end Verif.Modes
