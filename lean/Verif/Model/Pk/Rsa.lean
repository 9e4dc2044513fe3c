import Verif.Model.Mpi.NumTheory
import Verif.Model.Mpi.Bin
/-! Model of RSA (src/crypt/rsa.c:8-297).  Exhaustion of memory is not modelled. -/
namespace Verif.Rsa
open Verif.Mpi

/-- Result of a function: undefined behaviour, no end, an error code, or a value. -/
inductive Res (α : Type) where
  | ub
  | hang
  | fail
  | ok (v : α)
deriving DecidableEq

/-- Continue with the value. -/
def Res.bind {α β : Type} : Res α → (α → Res β) → Res β
  | .ub, _ => .ub
  | .hang, _ => .hang
  | .fail, _ => .fail
  | .ok v, f => f v

/-- A call that fails with an error code. -/
def ofOption {α : Type} : Option α → Res α
  | none => .fail
  | some v => .ok v

/-- `cry_rsa_ctx` (include/cry/rsa.h:21-28); the members `p` and `q` are not used here.  `padding` is 0 for none, 1 for
PKCS#1 v1.5 and 2 for v2.1. -/
structure Ctx where
  n : Mpi
  e : Mpi
  d : Mpi
  padding : Nat

/-- What `nozero_rand` makes of a byte (src/crypt/rsa.c:14-17). -/
def nozero (b : Byte) : Byte := if b = 0#8 then 1#8 else b

/-- `padding_add` (src/crypt/rsa.c:21-60): the block of `dlen` bytes.  `rnd i` are the bytes of the generator.  The
check `slen > dlen - 11` is made on unsigned numbers, so that it never fails when `dlen` is below 11; then the number
of padding bytes may wrap and the block is written far past its end.  Other values of `padding` leave bytes of the
block indeterminate. -/
def paddingAdd (dlen : Nat) (src : List Byte) (padding : Nat) (sign : Bool) (rnd : Nat → Byte) : Res (List Byte) :=
  if 11 ≤ dlen ∧ src.length > dlen - 11 then .fail
  else if dlen < src.length + 3 then .ub
  else
    let j := dlen - 3 - src.length
    match padding with
    | 1 =>
      if sign then .ok (0#8 :: 1#8 :: (List.replicate j 0xFF#8 ++ 0#8 :: src))
      else .ok (0#8 :: 2#8 :: ((List.range j).map (fun i => nozero (rnd i)) ++ 0#8 :: src))
    | 2 => .fail
    | _ => .ub

/-- The loop of `padding_del` and the copy (src/crypt/rsa.c:79-89), on the bytes from index `i` on. -/
def delScan (dlen : Nat) (sign : Bool) : List Byte → Res (List Byte)
  | [] => .fail
  | b :: bs =>
    if b = 0#8 then .ok (bs.take dlen)
    else if sign ∧ b ≠ 0xFF#8 then .fail
    else delScan dlen sign bs

/-- `padding_del` (src/crypt/rsa.c:62-90): the bytes copied; their number is the value returned.  A block of fewer than
two bytes is read past its end. -/
def paddingDel (dlen : Nat) (src : List Byte) (sign : Bool) : Res (List Byte) :=
  match src with
  | [] => .ub
  | [a] => if a ≠ 0#8 then .fail else .ub
  | a :: b :: bs =>
    if a ≠ 0#8 ∨ (sign = true ∧ b ≠ 1#8) ∨ (sign = false ∧ b ≠ 2#8) then .fail else delScan dlen sign bs

/-- `encrypt_block` (src/crypt/rsa.c:92-131).  Without padding the block is the input followed by zeros. -/
def encryptBlock (w : Nat) (c : Ctx) (src : List Byte) (sign : Bool) (rnd : Nat → Byte) : Res (List Byte) :=
  let key := if sign then c.d else c.e
  let modLen := countBytes w c.n
  let buf :=
    if c.padding ≠ 0 then paddingAdd modLen src c.padding sign rnd
    else if modLen < src.length then .ub
    else .ok (src ++ List.replicate (modLen - src.length) 0#8)
  buf.bind fun buf =>
    (ofOption (modExp w (loadBin w false buf) key (some c.n))).bind fun m =>
      ofOption (storeBin w m modLen true)

/-- `decrypt_block` (src/crypt/rsa.c:133-171): the bytes written to `out`, their number being the value returned. -/
def decryptBlock (w : Nat) (c : Ctx) (src : List Byte) (sign : Bool) : Res (List Byte) :=
  let key := if sign then c.e else c.d
  let modLen := countBytes w c.n
  if src.length ≠ modLen then .fail
  else
    (ofOption (modExp w (loadBin w false src) key (some c.n))).bind fun m =>
      (ofOption (storeBin w m modLen true)).bind fun buf =>
        if c.padding ≠ 0 then paddingDel modLen buf sign else .ok buf

/-- The loop of `encrypt` (src/crypt/rsa.c:187-205), turn `i`; the bytes written.  The bound on the turns is used up
only if a turn takes no byte, when the loop does not end. -/
def encLoop (w : Nat) (c : Ctx) (sign : Bool) (rnd : Nat → Nat → Byte) : Nat → Nat → Nat → List Byte → Res (List Byte)
  | 0, _, _, _ => .hang
  | fuel + 1, i, blockSiz, inp =>
    if inp = [] then .ok []
    else
      let blockSiz := if inp.length < blockSiz then inp.length else blockSiz
      (encryptBlock w c (inp.take blockSiz) sign (rnd i)).bind fun blk =>
        (encLoop w c sign rnd fuel (i + 1) blockSiz (inp.drop blockSiz)).bind fun rest => .ok (blk ++ rest)

/-- `encrypt` (src/crypt/rsa.c:174-214), used by `cry_rsa_encrypt` (`sign` false) and `cry_rsa_sign` (`sign` true).  The
size of a block is computed in `size_t` (64 bits).  For the empty input the status is an uninitialised variable. -/
def encrypt (w : Nat) (c : Ctx) (sign : Bool) (rnd : Nat → Nat → Byte) (inp : List Byte) : Res (List Byte) :=
  let modSiz := countBytes w c.n
  let blockSiz := if c.padding ≠ 0 then (modSiz + 2 ^ 64 - 11) % 2 ^ 64 else modSiz
  if inp = [] then .ub else encLoop w c sign rnd (inp.length + 1) 0 blockSiz inp

/-- The loop of `decrypt` (src/crypt/rsa.c:227-249): the output buffer and the length.  `none` in the buffer is an
indeterminate byte.  Every block is written to the start of the buffer. -/
def decLoop (w : Nat) (c : Ctx) (sign : Bool) : Nat → List (Option Byte) → Nat → List Byte →
    Res (List (Option Byte) × Nat)
  | 0, _, _, _ => .hang
  | fuel + 1, mem, outlen, inp =>
    let modSiz := countBytes w c.n
    if inp = [] then .ok (mem, outlen)
    else if inp.length < modSiz then .fail
    else
      let mem := mem ++ List.replicate (outlen + modSiz - mem.length) none
      (decryptBlock w c (inp.take modSiz) sign).bind fun r =>
        decLoop w c sign fuel (r.map some ++ mem.drop r.length) (outlen + r.length) (inp.drop modSiz)

/-- `decrypt` (src/crypt/rsa.c:216-258), used by `cry_rsa_decrypt` (`sign` false) and `cry_rsa_verify` (`sign` true):
the `outlen` bytes of the output. -/
def decrypt (w : Nat) (c : Ctx) (sign : Bool) (inp : List Byte) : Res (List (Option Byte)) :=
  if inp = [] then .ub
  else (decLoop w c sign (inp.length + 1) [] 0 inp).bind fun r => .ok (r.1.take r.2)

/-- `memcmp(out, in, inlen) != 0` (src/crypt/rsa.c:291): `none` if the result depends on an indeterminate byte. -/
def differ : List (Option Byte) → List Byte → Option Bool
  | _, [] => some false
  | [], _ :: _ => none
  | none :: _, _ :: _ => none
  | some a :: as, b :: bs => if a ≠ b then some true else differ as bs

/-- `cry_rsa_verify` (src/crypt/rsa.c:280-297): `ok ()` is acceptance. -/
def verify (w : Nat) (c : Ctx) (sig msg : List Byte) : Res Unit :=
  (decrypt w c true sig).bind fun out =>
    if (c.padding = 0 ∧ out.length < msg.length) ∨ (c.padding ≠ 0 ∧ out.length ≠ msg.length) then .fail
    else
      match differ out msg with
      | none => .ub
      | some true => .fail
      | some false => .ok ()

end Verif.Rsa
