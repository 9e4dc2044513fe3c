import Verif.Model.Modes.Cbc
/-!
# Model of CFB and CFB8 (src/crypt/cfb.c)
-/
namespace Verif.Modes

/-- `cry_cfb_crypt` (src/crypt/cfb.c:40-60), also used as `cry_cfb_decrypt` (include/cry/cfb.h: macro).
`k` bounds the turns of the loop (the message length is enough unless `vlen = 0`, when the loop never
ends).  `tail` are the bytes that lie in the destination buffer behind the message: after a final
partial block `vlen` bytes are copied from there; reading past the end of the buffer gives `none`. -/
def cfbLoop (E : List Byte → List Byte) (vlen : Nat) (tail : List Byte) :
    Nat → List Byte → List Byte → Option (List Byte × List Byte)
  | 0, _, _ => none
  | k + 1, v, src =>
    if vlen ≤ src.length then
      let y := mxor (src.take vlen) (E v)
      match cfbLoop E vlen tail k y (src.drop vlen) with
      | none => none
      | some (dst, v') => some (y ++ dst, v')
    else if src.length ≠ 0 then
      let y := mxor src (E v)
      if (y ++ tail).length < vlen then none else some (y, (y ++ tail).take vlen)
    else some ([], v)

def cfbCrypt (E : List Byte → List Byte) (vlen : Nat) (v src tail : List Byte) :
    Option (List Byte × List Byte) :=
  cfbLoop E vlen tail (src.length + 1) v src

/-- Read `n` bytes at offset `i` of a local buffer. -/
def rd (b : List Byte) (i n : Nat) : List Byte := (b.drop i).take n

/-- Overwrite a local buffer at offset `i`. -/
def wr (b : List Byte) (i : Nat) (x : List Byte) : List Byte :=
  b.take i ++ x ++ b.drop (i + x.length)

/-- Loop of `cry_cfb8_encrypt` (src/crypt/cfb.c:72-82): buffer, position, remaining source. -/
def cfb8EncLoop (E : List Byte → List Byte) (vlen : Nat) :
    List Byte → Nat → List Byte → List Byte × List Byte
  | buf, pos, [] => ([], rd buf pos vlen)
  | buf, pos, p :: src =>
    let buf' := if pos = vlen then wr buf 0 (rd buf vlen vlen) else buf
    let pos' := if pos = vlen then 0 else pos
    let v := E (rd buf' pos' vlen)
    let y := p ^^^ v.headD 0
    let r := cfb8EncLoop E vlen (wr buf' (pos' + vlen) [y]) (pos' + 1) src
    (y :: r.1, r.2)

/-- `cry_cfb8_encrypt` (src/crypt/cfb.c:62-83): output and new register; `junk` is the initial content of
the 32-byte local buffer. -/
def cfb8Encrypt (E : List Byte → List Byte) (vlen : Nat) (junk v src : List Byte) :
    List Byte × List Byte :=
  cfb8EncLoop E vlen (wr junk 0 (v.take vlen)) 0 src

/-- The inner loop of `cry_cfb8_decrypt` (src/crypt/cfb.c:98-99), `n` turns from `i`. -/
def cfb8Inner (E : List Byte → List Byte) (vlen : Nat) (buf : List Byte) : Nat → Nat → List Byte → List Byte
  | 0, _, obuf => obuf
  | n + 1, i, obuf => cfb8Inner E vlen buf n (i + 1) (wr obuf i (E (rd buf i vlen)))

/-- Outer loop of `cry_cfb8_decrypt` (src/crypt/cfb.c:97-107), `k` bounding its turns; `i` is the
value of the counter left by the previous turn. -/
def cfb8DecLoop (E : List Byte → List Byte) (vlen : Nat) :
    Nat → List Byte → List Byte → Nat → List Byte → Option (List Byte × List Byte)
  | k, buf, obuf, i, src =>
    if src.length ≠ 0 then
      match k with
      | 0 => none
      | k + 1 =>
        let i := min src.length vlen
        let obuf := cfb8Inner E vlen buf i 0 obuf
        let dst := mxor (src.take i) obuf
        let src := src.drop i
        let buf := wr buf 0 (rd buf vlen vlen)
        let buf := wr buf vlen (src.take (min src.length vlen))
        match cfb8DecLoop E vlen k buf obuf i src with
        | none => none
        | some (d, v) => some (dst ++ d, v)
    else some ([], rd buf i vlen)

/-- `cry_cfb8_decrypt` (src/crypt/cfb.c:85-108); `junk`, `ojunk` are the initial contents of the two
32-byte local buffers. -/
def cfb8Decrypt (E : List Byte → List Byte) (vlen : Nat) (junk ojunk v src : List Byte) :
    Option (List Byte × List Byte) :=
  let buf := wr junk 0 (v.take vlen)
  let buf := wr buf vlen (src.take (min src.length vlen))
  cfb8DecLoop E vlen src.length buf ojunk 0 src

end Verif.Modes
