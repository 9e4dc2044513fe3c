import Verif.Model.Mem.Pk
import Verif.Model.Pk.Rsa
/-! Model of RSA on numbers in memory (src/crypt/rsa.c:92-297, 355-368).  The members `d`, `e`, `n`, `p`, `q` of the context
are objects; `padding` is 0 for none, 1 for PKCS#1 v1.5 and 2 for v2.1.  The blocks of bytes that the functions
allocate are values, `none` for a null pointer; `malloc`, `realloc` and `free` act on the allocator of the memory. -/
namespace Verif.Mem
open Verif.Rsa (paddingAdd paddingDel differ)

/-- The block of `modLen` bytes before the power is taken (src/crypt/rsa.c:111-119). -/
def rsaPad (modLen padding : Nat) (src : List Byte) (sign : Bool) (rnd : Nat → Byte) : Rsa.Res (List Byte) :=
  if padding ≠ 0 then paddingAdd modLen src padding sign rnd
  else if modLen < src.length then .ub
  else .ok (src ++ List.replicate (modLen - src.length) 0#8)

/-- `encrypt_block` (src/crypt/rsa.c:92-131) to offset `off` of the buffer `b`; `c`, `m` at `sp`, `sp + 1`. -/
def rsaEncBlock (w sp n e d padding : Nat) (b : Buf) (off : Nat) (src : List Byte) (sign : Bool) (rnd : Nat → Byte) : M (Int × Buf) := do
  let modLen ← countBytes w n
  if ← request 1 then do
    decl sp 2
    let st ← initList [sp, sp + 1]
    if st ≠ 0 then do
      release
      pure (st, b)
    else do
      let r ← (match rsaPad modLen padding src sign rnd with
        | .ub => ub
        | .hang => hang
        | .fail => pure (-1, b)
        | .ok buf => do
          let st ← chk (loadBin w (sp + 1) buf) (modExp w (sp + 2) sp (sp + 1) (if sign then d else e) (some n))
          if st ≠ 0 then pure (st, b) else storeBin w sp b off modLen true)
      clearList [sp, sp + 1]
      release
      pure r
  else pure (-1, b)

/-- The bytes of a buffer, all of which must have been written. -/
def bufBytes : Buf → M (List Byte)
  | [] => pure []
  | some v :: b => do
    let bs ← bufBytes b
    pure (v :: bs)
  | none :: _ => ub

/-- The copy of the message to the start of `out` (src/crypt/rsa.c:88, 164). -/
def putFirst (b : Buf) (bs : List Byte) : M Buf := if bs.length ≤ b.length then pure (bs.map some ++ b.drop bs.length) else ub

/-- What is taken from the block after the power is taken (src/crypt/rsa.c:161-166). -/
def rsaUnpad (modLen padding : Nat) (buf : List Byte) (sign : Bool) : Rsa.Res (List Byte) :=
  if padding ≠ 0 then paddingDel modLen buf sign else .ok buf

/-- The message to the start of the buffer; the number of its bytes is the status. -/
def rsaGive (b : Buf) : Rsa.Res (List Byte) → M (Int × Buf)
  | .ub => ub
  | .hang => hang
  | .fail => pure (-1, b)
  | .ok bs => do
    let b ← putFirst b bs
    pure ((bs.length : Int), b)

/-- The second half of `decrypt_block` (src/crypt/rsa.c:158-166): the number at `m` becomes a block, the message is taken from it. -/
def rsaTake (w m modLen padding : Nat) (b : Buf) (sign : Bool) : M (Int × Buf) := do
  let r ← storeBin w m (List.replicate modLen none) 0 modLen true
  if r.1 ≠ 0 then pure (r.1, b)
  else do
    let buf ← bufBytes r.2
    rsaGive b (rsaUnpad modLen padding buf sign)

/-- `decrypt_block` (src/crypt/rsa.c:133-171) to the start of the buffer `b`; `c`, `m` at `sp`, `sp + 1`.  The number of bytes
is converted from `size_t` to `int`, which is not modelled. -/
def rsaDecBlock (w sp n e d padding : Nat) (b : Buf) (src : List Byte) (sign : Bool) : M (Int × Buf) := do
  let modLen ← countBytes w n
  if src.length ≠ modLen then pure (-1, b)
  else if ← request 1 then do
    decl sp 2
    let st ← initList [sp, sp + 1]
    if st ≠ 0 then do
      release
      pure (st, b)
    else do
      let st ← chk (loadBin w sp src) (modExp w (sp + 2) (sp + 1) sp (if sign then e else d) (some n))
      let r ← (if st ≠ 0 then pure (st, b) else rsaTake w (sp + 1) modLen padding b sign)
      clearList [sp, sp + 1]
      release
      pure r
  else pure (-1, b)

/-- `realloc(*out, size)` (src/crypt/rsa.c:191, 234): the block, with indeterminate new bytes, if the request succeeds. -/
def reallocBuf (out : Option Buf) (size : Nat) : M (Option Buf) := do
  if ← request (if out.isNone then 1 else 0) then
    pure (some ((out.getD []).take size ++ List.replicate (size - (out.getD []).length) none))
  else pure none

/-- The loop of `encrypt` (src/crypt/rsa.c:187-205), turn `i`: the status, `*out`, `*outlen`.  The bound on the turns is used up
only if a turn takes no byte, when the loop does not end. -/
def rsaEncLoop (w sp n e d padding : Nat) (sign : Bool) (rnd : Nat → Nat → Byte) (modSiz : Nat) :
    Nat → Nat → Nat → List Byte → Option Buf → Nat → M (Int × Option Buf × Nat)
  | 0, _, _, _, _, _ => hang
  | fuel + 1, i, blockSiz, inp, out, outlen =>
    if inp = [] then pure (0, out, outlen)
    else do
      let blockSiz := if inp.length < blockSiz then inp.length else blockSiz
      match ← reallocBuf out (outlen + modSiz) with
      | none => pure (-1, out, outlen)
      | some b =>
        let r ← rsaEncBlock w sp n e d padding b outlen (inp.take blockSiz) sign (rnd i)
        if r.1 ≠ 0 then pure (r.1, some r.2, outlen)
        else rsaEncLoop w sp n e d padding sign rnd modSiz fuel (i + 1) blockSiz (inp.drop blockSiz) (some r.2) (outlen + modSiz)

/-- What `encrypt` and `decrypt` do at the end (src/crypt/rsa.c:207-213, 251-257). -/
def rsaFinish (r : Int × Option Buf × Nat) : M (Int × Option Buf × Nat) :=
  if r.1 ≠ 0 then do
    if r.2.1.isSome then release
    pure (r.1, none, 0)
  else pure r

/-- `encrypt` (src/crypt/rsa.c:174-214), used by `cry_rsa_encrypt` (`sign` false) and `cry_rsa_sign` (`sign` true): the status,
`*out` and `*outlen`.  The size of a block is computed in `size_t` (64 bits).  For the empty input the status is an
uninitialised variable. -/
def rsaEncrypt (w sp n e d padding : Nat) (sign : Bool) (rnd : Nat → Nat → Byte) (inp : List Byte) : M (Int × Option Buf × Nat) := do
  let modSiz ← countBytes w n
  let blockSiz := if padding ≠ 0 then (modSiz + 2 ^ 64 - 11) % 2 ^ 64 else modSiz
  if inp = [] then ub
  else do
    let r ← rsaEncLoop w sp n e d padding sign rnd modSiz (inp.length + 1) 0 blockSiz inp none 0
    rsaFinish r

/-- The loop of `decrypt` (src/crypt/rsa.c:227-249): the status, `*out`, `*outlen`.  Every block is written to the start of the
buffer. -/
def rsaDecLoop (w sp n e d padding : Nat) (sign : Bool) (modSiz : Nat) : Nat → List Byte → Option Buf → Nat → M (Int × Option Buf × Nat)
  | 0, _, _, _ => hang
  | fuel + 1, inp, out, outlen =>
    if inp = [] then pure (0, out, outlen)
    else if inp.length < modSiz then pure (-1, out, outlen)
    else do
      match ← reallocBuf out (outlen + modSiz) with
      | none => pure (-1, out, outlen)
      | some b =>
        let r ← rsaDecBlock w sp n e d padding b (inp.take modSiz) sign
        if r.1 < 0 then pure (r.1, some r.2, outlen)
        else rsaDecLoop w sp n e d padding sign modSiz fuel (inp.drop modSiz) (some r.2) (outlen + r.1.toNat)

/-- `decrypt` (src/crypt/rsa.c:216-258), used by `cry_rsa_decrypt` (`sign` false) and `cry_rsa_verify` (`sign` true): the status,
`*out` and `*outlen`. -/
def rsaDecrypt (w sp n e d padding : Nat) (sign : Bool) (inp : List Byte) : M (Int × Option Buf × Nat) := do
  let modSiz ← countBytes w n
  if inp = [] then ub
  else do
    let r ← rsaDecLoop w sp n e d padding sign modSiz (inp.length + 1) inp none 0
    rsaFinish r

/-- `cry_rsa_verify` (src/crypt/rsa.c:280-297). -/
def rsaVerify (w sp n e d padding : Nat) (sig msg : List Byte) : M Int := do
  let r ← rsaDecrypt w sp n e d padding true sig
  if r.1 = 0 then do
    let b := (r.2.1.getD []).take r.2.2
    let st ← (if (padding = 0 ∧ r.2.2 < msg.length) ∨ (padding ≠ 0 ∧ r.2.2 ≠ msg.length) then pure (-1)
      else match differ b msg with
        | none => ub
        | some true => pure (-1)
        | some false => pure 0)
    if r.2.1.isSome then release
    pure st
  else pure r.1

/-- `cry_rsa_init` (src/crypt/rsa.c:355-360). -/
def rsaInit (d e n p q : Nat) : M Int := initList [d, e, n, p, q]

/-- `cry_rsa_clear` (src/crypt/rsa.c:362-368). -/
def rsaClear (d e n p q : Nat) : M Unit := do
  clearList [d, e, n, p, q]
  wipe [d, e, n, p, q]

end Verif.Mem
