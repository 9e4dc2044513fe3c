import Verif.Model.Mpi.PrimeGen
/-! Model of RSA key generation (src/crypt/rsa.c:300-353).  Exhaustion of memory is not modelled. -/
namespace Verif.RsaGen
open Verif.Mpi

/-- `cry_rsa_ctx` (include/cry/rsa.h:21-28) without the padding. -/
structure Ctx where
  n : Mpi
  e : Mpi
  d : Mpi
  p : Mpi
  q : Mpi
deriving DecidableEq

/-- What one turn takes from outside: digits allocated for `p`, `q` and `e`, the bytes of the generator, and the contents
of uninitialised digits in `cry_mpi_gcd`. -/
structure Draw where
  pAlloc : Nat
  p : Nat → PrimeDraw
  qAlloc : Nat
  q : Nat → PrimeDraw
  eAlloc : Nat
  e : List Byte
  jx : Nat
  jy : Nat

/-- What happens at the end of one turn: undefined behaviour, no end, `break` with a status, or the test of the loop with
the present `g`. -/
inductive Turn where
  | ub
  | hang
  | stop (res : Int) (c : Ctx)
  | test (c : Ctx) (g : Mpi)
deriving DecidableEq

/-- The part of a turn after the two primes are drawn (src/crypt/rsa.c:330-349).  The products `p1` and `q1` and `phi` of
earlier turns are not negative, so that the sign flag of `phi` is 0 before. -/
def turnRest (w bits : Nat) (e : Int) (dr : Draw) (c : Ctx) (g : Mpi) : Turn :=
  if cmp c.q c.p = 0 then .test c g
  else
    match mul w c.n.neg c.p c.q with
    | none => .stop (-1) c
    | some n =>
      let c := { c with n := n }
      if countBits w n ≠ bits then .test c g
      else
        match sub (2 ^ w) c.p ⟨false, [1]⟩ with
        | none => .stop (-1) c
        | some p1 =>
          match sub (2 ^ w) c.q ⟨false, [1]⟩ with
          | none => .stop (-1) c
          | some q1 =>
            match mul w false p1 q1 with
            | none => .stop (-1) c
            | some phi =>
              match (if e = 0 then rand w c.e.neg dr.eAlloc bits dr.e else .ok c.e) with
              | .ub => .ub
              | .err => .stop (-1) c
              | .ok ev =>
                let c := { c with e := ev }
                match gcd w dr.jx dr.jy c.e phi with
                | none => .stop (-1) c
                | some g => .test c g

/-- One turn of the loop of `cry_rsa_keygen` (src/crypt/rsa.c:323-349); `MAX_ITER` is 10000. -/
def turn (w bits : Nat) (e : Int) (dr : Draw) (c : Ctx) (g : Mpi) : Turn :=
  match prime w c.p dr.pAlloc (bits >>> 1) 10000 dr.p with
  | .ub => .ub
  | .hang => .hang
  | .ok res p _ =>
    let c := { c with p := p }
    if res ≠ 0 then .stop res c
    else
      match prime w c.q dr.qAlloc (bits >>> 1) 10000 dr.q with
      | .ub => .ub
      | .hang => .hang
      | .ok res q _ =>
        let c := { c with q := q }
        if res ≠ 0 then .stop res c else turnRest w bits e dr c g

/-- Result of `cry_rsa_keygen`. -/
inductive KeyOut where
  | ub
  | hang
  | ok (res : Int) (c : Ctx)
deriving DecidableEq

/-- The loop (src/crypt/rsa.c:322-349), turn `j`, with `m` turns left.  When the turns are used up the status is the 0 of
the last successful call. -/
def keyLoop (w bits : Nat) (e : Int) (draw : Nat → Draw) : Nat → Nat → Ctx → Mpi → KeyOut
  | 0, _, c, _ => .ok 0 c
  | m + 1, j, c, g =>
    match turn w bits e (draw j) c g with
    | .ub => .ub
    | .hang => .hang
    | .stop res c => .ok res c
    | .test c g => if cmp g ⟨false, [1]⟩ ≠ 0 then keyLoop w bits e draw m (j + 1) c g else .ok 0 c

/-- `cry_rsa_keygen` (src/crypt/rsa.c:302-353). -/
def keygen (w bits : Nat) (e : Int) (draw : Nat → Draw) (c : Ctx) : KeyOut :=
  if e ≠ 0 then
    match setInt w e with
    | none => .ub
    | some ev => keyLoop w bits e draw 10000 0 { c with e := ev } ⟨false, []⟩
  else keyLoop w bits e draw 10000 0 c ⟨false, []⟩

end Verif.RsaGen
