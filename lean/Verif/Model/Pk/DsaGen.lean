import Verif.Model.Mpi.PrimeGen
import Verif.Model.Pk.Dsa
/-! Model of DSA key generation (src/crypt/dsa.c:137-195).  Exhaustion of memory is not modelled.  `CHK` ends the function
with `res`, which is -1 until a key is complete. -/
namespace Verif.DsaGen
open Verif.Mpi Verif.Dsa

/-- What one turn of the search for `p` takes from outside: digits allocated, the bytes of the generator for the number,
and for each Miller-Rabin iteration. -/
structure PDraw where
  alloc : Nat
  bytes : List Byte
  mr : Nat → List Byte

/-- What one call of `cry_mpi_rand_range` takes from outside. -/
structure RDraw where
  alloc : Nat
  bytes : List Byte

/-- What one turn of the outer loop takes from outside. -/
structure Draw where
  qAlloc : Nat
  q : Nat → PrimeDraw
  p : Nat → PDraw
  g : Nat → RDraw
  x : RDraw

/-- How a search ends: undefined behaviour, no end, a failed call, the turns used up, or found. -/
inductive Found where
  | ub
  | hang
  | fail (v : Mpi)
  | none (v : Mpi)
  | some (v : Mpi)
deriving DecidableEq

/-- The search for `p` (src/crypt/dsa.c:162-170), turn `j`, with `n` turns left.  Any status of `cry_mpi_is_prime` other
than 0 ends the search, including an error. -/
def pLoop (w bits : Nat) (q : Mpi) (draw : Nat → PDraw) : Nat → Nat → Mpi → Found
  | 0, _, p => .none p
  | n + 1, j, p =>
    match rand w p.neg (draw j).alloc bits (draw j).bytes with
    | .ub => .ub
    | .err => .fail p
    | .ok p =>
      match add (2 ^ w) q q with
      | .none => .fail p
      | .some r =>
        match mod w .rIsB p r with
        | .none => .fail p
        | .some r =>
          match sub (2 ^ w) p r with
          | .none => .fail p
          | .some p =>
            match add (2 ^ w) p ⟨false, [1]⟩ with
            | .none => .fail p
            | .some p =>
              match isPrime w (draw j).mr p with
              | .ub => .ub
              | .hang => .hang
              | .res false => pLoop w bits q draw n (j + 1) p
              | _ => .some p

/-- The search for `g` (src/crypt/dsa.c:177-184), turn `j`, with `n` turns left; `k` is the local `q`.  The object `r`
is not negative before each call. -/
def gLoop (w : Nat) (p p1 k : Mpi) (draw : Nat → RDraw) : Nat → Nat → Mpi → Found
  | 0, _, g => .none g
  | n + 1, j, g =>
    match randRange w false (draw j).alloc p1 (draw j).bytes with
    | .ub => .ub
    | .err => .fail g
    | .ok r =>
      match add (2 ^ w) r ⟨false, [1]⟩ with
      | .none => .fail g
      | .some r =>
        match modExp w r k (some p) with
        | .none => .fail g
        | .some g => if cmpAbs g ⟨false, [1]⟩ > 0 then .some g else gLoop w p p1 k draw n (j + 1) g

/-- How a turn of the outer loop ends: undefined behaviour, no end, the end of the function with a status, or another
turn. -/
inductive Turn where
  | ub
  | hang
  | stop (res : Int) (c : Ctx)
  | retry (c : Ctx)

/-- The last part: the private and the public key (src/crypt/dsa.c:188-190); the results of both calls are dropped.
`cry_mpi_rand_range` fails when `k` is zero, after it has stored zero. -/
def keys (w : Nat) (c : Ctx) (k : Mpi) (dr : RDraw) : Turn :=
  match randRange w c.pvt.neg dr.alloc k dr.bytes with
  | .ub => .ub
  | .err =>
    let c := { c with pvt := ⟨false, []⟩ }
    match modExp w c.g c.pvt (some c.p) with
    | none => .stop 0 c
    | some y => .stop 0 { c with pub := y }
  | .ok x =>
    let c := { c with pvt := x }
    match modExp w c.g c.pvt (some c.p) with
    | none => .stop 0 c
    | some y => .stop 0 { c with pub := y }

/-- The part of a turn after `p` is found (src/crypt/dsa.c:174-191); `ITER_MAX_IN` is 4096. -/
def turnRest (w : Nat) (dr : Draw) (c : Ctx) : Turn :=
  match sub (2 ^ w) c.p ⟨false, [1]⟩ with
  | none => .stop (-1) c
  | some p1 =>
    match div w .none true false p1 c.q with
    | .ub => .ub
    | .err => .stop (-1) c
    | .ok k _ =>
      match gLoop w c.p p1 k dr.g 4096 0 c.g with
      | .ub => .ub
      | .hang => .hang
      | .fail g => .stop (-1) { c with g := g }
      | .none g => .retry { c with g := g }
      | .some g => keys w { c with g := g } k dr.x

/-- One turn of the outer loop (src/crypt/dsa.c:160-191).  `512 + l*64` is computed on 32 bits. -/
def turn (w l : Nat) (dr : Draw) (c : Ctx) : Turn :=
  match prime w c.q dr.qAlloc 160 5000 dr.q with
  | .ub => .ub
  | .hang => .hang
  | .ok res q _ =>
    let c := { c with q := q }
    if res ≠ 0 then .stop (-1) c
    else
      match pLoop w ((512 + l * 64) % 2 ^ 32) c.q dr.p 4096 0 c.p with
      | .ub => .ub
      | .hang => .hang
      | .fail p => .stop (-1) { c with p := p }
      | .none p => .retry { c with p := p }
      | .some p => turnRest w dr { c with p := p }

/-- Result of `cry_dsa_keygen`. -/
inductive KeyOut where
  | ub
  | hang
  | ok (res : Int) (c : Ctx)

/-- The outer loop (src/crypt/dsa.c:158-192), turn `i`, with `n` turns left. -/
def keyLoop (w l : Nat) (draw : Nat → Draw) : Nat → Nat → Ctx → KeyOut
  | 0, _, c => .ok (-1) c
  | n + 1, i, c =>
    match turn w l (draw i) c with
    | .ub => .ub
    | .hang => .hang
    | .stop res c => .ok res c
    | .retry c => keyLoop w l draw n (i + 1) c

/-- `cry_dsa_keygen` (src/crypt/dsa.c:149-195); `ITER_MAX_OUT` is 1024. -/
def keygen (w l : Nat) (draw : Nat → Draw) (c : Ctx) : KeyOut := keyLoop w l draw 1024 0 c

end Verif.DsaGen
