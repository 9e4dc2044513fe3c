import Verif.Model.Ecp.Ecp
/-! Model of ECDSA (src/crypt/ecdsa.c).  Exhaustion of memory is not modelled.

In `cry_ecdsa_verify` the list cleared at the end (line 91) names coordinates of `G` and `Q` that have been cleared in the
line before; `cry_mpi_clear` leaves a null pointer behind, so that this has no effect. -/
namespace Verif.Ecdsa
open Verif.Mpi Verif.Ecp

/-- `cry_ecdsa_ctx` (include/cry/ecdsa.h). -/
structure Ctx where
  grp : Grp
  d : Mpi
  q : Pt

/-- `cry_ecdsa_sig` (include/cry/ecdsa.h). -/
structure Sig where
  r : Mpi
  s : Mpi
deriving DecidableEq

/-- Result of signing: undefined behaviour (in `cry_mpi_rand`), no end, or a status and the signature left in the
object. -/
inductive SignOut where
  | ub
  | hang
  | ok (res : Int) (sig : Sig)
deriving DecidableEq

/-- The number loaded from the message, which is cut to the size of the digits of `n` (src/crypt/ecdsa.c:18-21, 64-67);
`z` is fresh. -/
def loadMsg (w : Nat) (n : Mpi) (msg : List Byte) : Mpi :=
  loadBin w false (if n.digs.length * (w / 8) < msg.length then msg.take (n.digs.length * (w / 8)) else msg)

/-- `cry_ecdsa_sign` (src/crypt/ecdsa.c:7-50); `old` is the signature object before, `bs` the bytes of the generator.  The
function always returns 0 (line 49).  `k` is a fresh object of 8 digits. -/
def sign (w : Nat) (c : Ctx) (old : Sig) (msg bs : List Byte) : SignOut :=
  let z := loadMsg w c.grp.n msg
  match randRange w false 8 c.grp.n bs with
  | .ub => .ub
  | .err => .ok 0 old
  | .ok k =>
    match mulPt w c.grp.g k c.grp with
    | .ub => .ub
    | .hang => .hang
    | .fail => .ok 0 old
    | .ok X =>
      let r := X.x
      match inv w k c.grp.n with
      | none => .ok 0 ⟨r, old.s⟩
      | some k =>
        match mul w old.s.neg c.d r with
        | none => .ok 0 ⟨r, old.s⟩
        | some s =>
          match add (2 ^ w) s z with
          | none => .ok 0 ⟨r, s⟩
          | some s =>
            match mul w false s k with
            | none => .ok 0 ⟨r, s⟩
            | some s =>
              match mod w .none s c.grp.n with
              | none => .ok 0 ⟨r, s⟩
              | some s => .ok 0 ⟨r, s⟩

/-- `cry_ecdsa_verify` (src/crypt/ecdsa.c:52-93); `.ok true` stands for the status 0, `.ok false` and `.fail` for a
negative one. -/
def verify (w : Nat) (c : Ctx) (sig : Sig) (msg : List Byte) : Out Bool :=
  let z := loadMsg w c.grp.n msg
  (call (inv w sig.s c.grp.n)).bind fun v =>
  (call (mul w false z v)).bind fun z =>
  (call (mod w .none z c.grp.n)).bind fun z =>
  (call (mul w false sig.r v)).bind fun v =>
  (call (mod w .none v c.grp.n)).bind fun v =>
  (mulPt w c.grp.g z c.grp).bind fun G =>
  (mulPt w c.q v c.grp).bind fun Q =>
  (call (Ecp.add w G Q c.grp)).bind fun G =>
  (call (mod w .none G.x c.grp.n)).bind fun x =>
  .ok (cmpAbs x sig.r == 0)

/-- `cry_ecdsa_keygen` (src/crypt/ecdsa.c:122-129): `old` and `alloc` are the sign flag and the allocated digits of the
private key object before. -/
def keygen (w : Nat) (c : Ctx) (alloc : Nat) (bs : List Byte) : Out Ctx :=
  match randRange w c.d.neg alloc c.grp.n bs with
  | .ub => .ub
  | .err => .fail
  | .ok d => (mulPt w c.grp.g d c.grp).bind fun q => .ok { c with d := d, q := q }

end Verif.Ecdsa
