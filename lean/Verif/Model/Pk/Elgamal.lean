import Verif.Model.Mpi.NumTheory
import Verif.Model.Mpi.Bin
/-! Model of ElGamal signatures (src/crypt/elgamal.c).  Here `CHK` stores the error code (line 7).  All error codes are
shown as -1; exhaustion of memory is not modelled. -/
namespace Verif.Elgamal
open Verif.Mpi

/-- `cry_elgamal_ctx` (include/cry/elgamal.h). -/
structure Ctx where
  p : Mpi
  d : Mpi
  g : Mpi
  y : Mpi

/-- `cry_elgamal_sig` (include/cry/elgamal.h). -/
structure Sig where
  r : Mpi
  s : Mpi
deriving DecidableEq

/-- Result of signing: undefined behaviour (in `cry_mpi_rand`), or a status and the signature left in the object. -/
inductive SignOut where
  | ub
  | ok (res : Int) (sig : Sig)
deriving DecidableEq

/-- What one turn of `secret_gen` takes from outside: the number of digits allocated for `k`, the bytes of the
generator, and the contents of uninitialised digits in `cry_mpi_gcd`. -/
structure Draw where
  alloc : Nat
  bytes : List Byte
  jx : Nat
  jy : Nat

/-- Result of `secret_gen`. -/
inductive GenOut where
  | ub
  | fail
  | ok (k : Mpi)

/-- The loop of `secret_gen` (src/crypt/elgamal.c:43-50), turn `i`, with `n` turns left.  When the turns are used up the
status is the 0 of the last successful call, so that the last `k` is returned. -/
def genLoop (w : Nat) (t : Mpi) (draw : Nat → Draw) : Nat → Nat → Mpi → GenOut
  | 0, _, k => .ok k
  | n + 1, i, k =>
    match randRange w k.neg (draw i).alloc t (draw i).bytes with
    | .ub => .ub
    | .err => .fail
    | .ok k =>
      match gcd w (draw i).jx (draw i).jy k t with
      | none => .fail
      | some r => if cmp r ⟨false, [1]⟩ = 0 then .ok k else genLoop w t draw n (i + 1) k

/-- `secret_gen` (src/crypt/elgamal.c:33-54) into a fresh `k`; `MAX_ITER` is 1024. -/
def secretGen (w : Nat) (t : Mpi) (draw : Nat → Draw) : GenOut := genLoop w t draw 1024 0 ⟨false, []⟩

/-- The calls of `cry_elgamal_sign2` after the nonce (src/crypt/elgamal.c:80-90). -/
def signWith (w : Nat) (c : Ctx) (old : Sig) (msg : List Byte) (t k : Mpi) : SignOut :=
  match modExp w c.g k (some c.p) with
  | none => .ok (-1) old
  | some r =>
    let z := loadBin w false msg
    match mul w old.s.neg c.d r with
    | none => .ok (-1) ⟨r, old.s⟩
    | some s =>
      match sub (2 ^ w) z s with
      | none => .ok (-1) ⟨r, s⟩
      | some s =>
        match mod w .none s t with
        | none => .ok (-1) ⟨r, s⟩
        | some s =>
          match inv w k t with
          | none => .ok (-1) ⟨r, s⟩
          | some k =>
            match mul w false s k with
            | none => .ok (-1) ⟨r, s⟩
            | some s =>
              match mod w .none s t with
              | none => .ok (-1) ⟨r, s⟩
              | some s => .ok 0 ⟨r, s⟩

/-- `cry_elgamal_sign2` (src/crypt/elgamal.c:56-94); `old` is the signature object before. -/
def sign2 (w : Nat) (c : Ctx) (old : Sig) (msg : List Byte) (draw : Nat → Draw) : SignOut :=
  if msg.length > countBytes w c.p then .ok (-1) old
  else
    match sub (2 ^ w) c.p ⟨false, [1]⟩ with
    | none => .ok (-1) old
    | some t =>
      match secretGen w t draw with
      | .ub => .ub
      | .fail => .ok (-1) old
      | .ok k => signWith w c old msg t k

/-- The calls of `cry_elgamal_verify2` and the comparison (src/crypt/elgamal.c:108-118). -/
def verifySteps (w : Nat) (c : Ctx) (sig : Sig) (msg : List Byte) : Option Bool := do
  let r ← modExp w c.y sig.r (some c.p)
  let z ← modExp w sig.r sig.s (some c.p)
  let r ← mul w false r z
  let r ← mod w .none r c.p
  let z := loadBin w z.neg msg
  let z ← modExp w c.g z (some c.p)
  some (cmp r z == 0)

/-- `cry_elgamal_verify2` (src/crypt/elgamal.c:96-122). -/
def verify2 (w : Nat) (c : Ctx) (sig : Sig) (msg : List Byte) : Int :=
  if msg.length > countBytes w c.p then -1
  else
    match verifySteps w c sig msg with
    | some true => 0
    | _ => -1

/-- Result of `cry_elgamal_sign`: undefined, an error, or the bytes written. -/
inductive Out where
  | ub
  | fail
  | ok (bytes : List Byte)
deriving DecidableEq

/-- `cry_elgamal_sign` (src/crypt/elgamal.c:124-142): the buffer is taken to hold twice the size of `p`. -/
def sign (w : Nat) (c : Ctx) (msg : List Byte) (draw : Nat → Draw) : Out :=
  match sign2 w c ⟨⟨false, []⟩, ⟨false, []⟩⟩ msg draw with
  | .ub => .ub
  | .ok res sig =>
    if res = 0 then
      let siz := countBytes w c.p
      match storeBin w sig.r siz true with
      | none => .fail
      | some a =>
        match storeBin w sig.s siz true with
        | none => .fail
        | some b => .ok (a ++ b)
    else .fail

/-- `cry_elgamal_verify` (src/crypt/elgamal.c:144-162); `none`: the signature buffer is too short and read past its
end. -/
def verify (w : Nat) (c : Ctx) (sg msg : List Byte) : Option Int :=
  let siz := countBytes w c.p
  if sg.length < 2 * siz then none
  else some (verify2 w c ⟨loadBin w false (sg.take siz), loadBin w false ((sg.drop siz).take siz)⟩ msg)

end Verif.Elgamal
