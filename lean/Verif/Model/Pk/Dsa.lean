import Verif.Model.Mpi.NumTheory
import Verif.Model.Mpi.Bin
/-! Model of DSA signing and verification (src/crypt/dsa.c:1-122).  Exhaustion of memory is not modelled.

The macro `CHK` of this file jumps to the label without storing the error code (src/crypt/dsa.c:5, src/misc.h:185-188),
so that `res` keeps the 0 of the successful initialisation: a failing call ends the function with success. -/
namespace Verif.Dsa
open Verif.Mpi

/-- `cry_dsa_ctx` (include/cry/dsa.h). -/
structure Ctx where
  p : Mpi
  q : Mpi
  g : Mpi
  pvt : Mpi
  pub : Mpi

/-- `cry_dsa_sig` (include/cry/dsa.h). -/
structure Sig where
  r : Mpi
  s : Mpi
deriving DecidableEq

/-- Result of signing: undefined behaviour (in `cry_mpi_rand`), or a status and the signature left in the object. -/
inductive SignOut where
  | ub
  | ok (res : Int) (sig : Sig)
deriving DecidableEq

/-- `secret_gen` (src/crypt/dsa.c:30-51) into a fresh `k`, with `bs` the bytes of the generator.  A failing call leaves
`k` as it is at that point and is not reported. -/
def secretGen (w : Nat) (q : Mpi) (bs : List Byte) : RandOut :=
  match sub (2 ^ w) q ⟨false, [1]⟩ with
  | none => .ok ⟨false, []⟩
  | some t =>
    match rand w false 8 (countBits w q) bs with
    | .ub => .ub
    | .err => .ok ⟨false, []⟩
    | .ok k =>
      match mod w .none k t with
      | none => .ok k
      | some k =>
        match add (2 ^ w) k ⟨false, [1]⟩ with
        | none => .ok k
        | some k => .ok k

/-- The number loaded from the message, which is cut to the size of `q` (src/crypt/dsa.c:62-65, 94-97); `z` is
fresh. -/
def loadMsg (w : Nat) (q : Mpi) (msg : List Byte) : Mpi :=
  loadBin w false (if q.digs.length * (w / 8) < msg.length then msg.take (q.digs.length * (w / 8)) else msg)

/-- `cry_dsa_sign` (src/crypt/dsa.c:53-83); `old` is the signature object before. -/
def sign (w : Nat) (c : Ctx) (old : Sig) (msg bs : List Byte) : SignOut :=
  let z := loadMsg w c.q msg
  match secretGen w c.q bs with
  | .ub => .ub
  | .err => .ok 0 old
  | .ok k =>
    match modExp w c.g k (some c.p) with
    | none => .ok 0 old
    | some r =>
      match mod w .none r c.q with
      | none => .ok 0 ⟨r, old.s⟩
      | some r =>
        match inv w k c.q with
        | none => .ok 0 ⟨r, old.s⟩
        | some k =>
          match mul w old.s.neg c.pvt r with
          | none => .ok 0 ⟨r, old.s⟩
          | some s =>
            match add (2 ^ w) s z with
            | none => .ok 0 ⟨r, s⟩
            | some s =>
              match mul w false s k with
              | none => .ok 0 ⟨r, s⟩
              | some s =>
                match mod w .none s c.q with
                | none => .ok 0 ⟨r, s⟩
                | some s => .ok 0 ⟨r, s⟩

/-- The calls of `cry_dsa_verify` and the comparison (src/crypt/dsa.c:94-119); `none`: one of the calls failed. -/
def verifySteps (w : Nat) (c : Ctx) (sig : Sig) (msg : List Byte) : Option Bool := do
  let z := loadMsg w c.q msg
  let v ← inv w sig.s c.q
  let z ← mul w false z v
  let z ← mod w .none z c.q
  let v ← mul w false sig.r v
  let v ← mod w .none v c.q
  let u1 ← modExp w c.g z (some c.p)
  let u2 ← modExp w c.pub v (some c.p)
  let u1 ← mul w false u1 u2
  let u1 ← mod w .none u1 c.p
  let u1 ← mod w .none u1 c.q
  some (cmpAbs u1 sig.r == 0)

/-- `cry_dsa_verify` (src/crypt/dsa.c:85-122): the status.  A failing call leaves the status at 0. -/
def verify (w : Nat) (c : Ctx) (sig : Sig) (msg : List Byte) : Int :=
  match verifySteps w c sig msg with
  | none => 0
  | some true => 0
  | some false => -1

end Verif.Dsa
