import Verif.Model.Mpi.NumTheory
import Verif.Model.Mpi.Bin
/-! Model of Diffie-Hellman (src/crypt/dh.c).  `none` is an error return of the function; exhaustion of memory is
not modelled here. -/
namespace Verif.Dh
open Verif.Mpi

/-- `cry_dh_ctx` (include/cry/dh.h). -/
structure Ctx where
  p : Mpi
  g : Mpi
  e : Mpi
  Y : Mpi
  Z : Mpi

/-- `cry_dh_agree` (src/crypt/dh.c:18-21). -/
def agree (w : Nat) (c : Ctx) : Option Ctx := do
  let y ← modExp w c.g c.e (some c.p)
  some { c with Y := y }

/-- `cry_dh_finalize` (src/crypt/dh.c:23-26). -/
def finalize (w : Nat) (c : Ctx) : Option Ctx := do
  let z ← modExp w c.Y c.e (some c.p)
  some { c with Z := z }

/-- `cry_dh_get_tok` (src/crypt/dh.c:28-31). -/
def getTok (w : Nat) (c : Ctx) (n : Nat) : Option (List Byte) := storeBin w c.Y n true

/-- `cry_dh_set_tok` (src/crypt/dh.c:33-36): the old sign of `Y` matters. -/
def setTok (w : Nat) (c : Ctx) (bs : List Byte) : Ctx := { c with Y := loadBin w c.Y.neg bs }

/-- `cry_dh_get_sec` (src/crypt/dh.c:38-41). -/
def getSec (w : Nat) (c : Ctx) (n : Nat) : Option (List Byte) := storeBin w c.Z n true

/-- One party of the exchange, up to its token: `cry_dh_agree`, `cry_dh_get_tok`. -/
def start (w : Nat) (c : Ctx) (n : Nat) : Option (List Byte × Ctx) := do
  let c ← agree w c
  let t ← getTok w c n
  some (t, c)

/-- The other half: `cry_dh_set_tok` with the token of the peer, `cry_dh_finalize`, `cry_dh_get_sec`. -/
def finish (w : Nat) (c : Ctx) (tok : List Byte) (n : Nat) : Option (List Byte × Ctx) := do
  let c ← finalize w (setTok w c tok)
  let s ← getSec w c n
  some (s, c)

end Verif.Dh
