import Verif.Model.Mpi.Div
/-!
# Model of exponentiation, inverse, gcd, lcm and square root
(src/mpi/mpi_mod_exp.c, mpi_exp.c, mpi_inv.c, mpi_gcd.c, mpi_lcm.c, mpi_sqrt.c)

Temporaries are fresh objects, allocation succeeds.  Loops without an obvious bound take a number
of turns as first argument and return `none` when it is used up; the theorems show that this
does not happen.
-/
namespace Verif.Mpi

/-- `cry_mpi_is_bit_set` (src/mpi/mpi_pvt.h:70-72), for an existing digit. -/
def isBitSet (w : Nat) (x : Mpi) (bit : Nat) : Bool :=
  (dig x.digs (bit / w) &&& (1 <<< (bit % w))) != 0

/-- `m != NULL && cry_mpi_mod(&exp, &exp, m)` (src/mpi/mpi_mod_exp.c:21,25). -/
def modOpt (w : Nat) (x : Mpi) : Option Mpi → Option Mpi
  | none => some x
  | some m => mod w .none x m

/-- Loop of `cry_mpi_mod_exp` (src/mpi/mpi_mod_exp.c:19-28), `bits` bits are left.  Squaring is
in place, so there is no stale sign. -/
def expLoop (w : Nat) (b e : Mpi) (m : Option Mpi) : Nat → Mpi → Option Mpi
  | 0, x => some x
  | bits + 1, x => do
    let x ← sqr w false x
    let x ← modOpt w x m
    let x ← if isBitSet w e bits then do
        let x ← mul w false x b
        modOpt w x m
      else some x
    expLoop w b e m bits x

/-- `cry_mpi_mod_exp` (src/mpi/mpi_mod_exp.c:6-33); `none` is the error return.  `m = none` is a
`NULL` modulus.  Result and operands may coincide, the result is written last. -/
def modExp (w : Nat) (b e : Mpi) (m : Option Mpi) : Option Mpi :=
  if e.neg || (match m with | none => false | some m => m.neg) then none
  else expLoop w b e m (countBits w e) ⟨false, [1]⟩

/-- `cry_mpi_exp` (src/mpi/mpi_exp.c:3-6). -/
def exp (w : Nat) (b e : Mpi) : Option Mpi := modExp w b e none

/-- Loop of `cry_mpi_inv` (src/mpi/mpi_inv.c:24-36).  The status codes are ignored there; a failing
call is `none` here. The object `q` is freshly zeroed in each turn. -/
def invLoop (w : Nat) : Nat → Mpi → Mpi → Mpi → Mpi → Option (Mpi × Mpi)
  | 0, _, _, _, _ => none
  | fuel + 1, r0, r1, s0, s1 =>
    if isZero r1 then some (r0, s0)
    else
      match div w .none true true r0 r1 with
      | .ok q r => do
        let q ← mul w false q s1
        let s ← sub (2 ^ w) s0 q
        invLoop w fuel r1 r s1 s
      | _ => none

/-- `cry_mpi_inv` (src/mpi/mpi_inv.c:11-49, `CRY_MPI_INV_EUCLID`), result distinct from `m`.  `none`
is the error return. -/
def inv (w : Nat) (a m : Mpi) : Option Mpi := do
  let (r0, s0) ← invLoop w (val (2 ^ w) m.digs + 2) a m ⟨false, [1]⟩ ⟨false, []⟩
  if r0.digs = [1] ∧ r0.neg = false then
    if s0.neg then mod w .none s0 m else some s0
  else none

/-- Second loop of `cry_mpi_lsb` on digit `d` (src/mpi/mpi_gcd.c:13-16) from bit `j`, `n` bits left. -/
def lsbDig (d : Nat) : Nat → Nat → Nat
  | 0, _ => 0
  | n + 1, j => if (d >>> j) &&& 1 ≠ 0 then 0 else lsbDig d n (j + 1) + 1

/-- `cry_mpi_lsb` (src/mpi/mpi_gcd.c:7-18).  For zero it reads `data[0]`, which is indeterminate in
fresh storage: `junk` is the digit found there. -/
def lsb (w junk : Nat) : List Nat → Nat
  | [] => lsbDig junk w 0
  | d :: ds => if d = 0 then w + lsb w junk ds else lsbDig d w 0

/-- Loop of `cry_mpi_gcd` (src/mpi/mpi_gcd.c:46-62); `jx`, `jy` are the uninitialised digits
of the two temporaries. -/
def gcdLoop (w jx jy : Nat) : Nat → Mpi → Mpi → Option Mpi
  | 0, _, _ => none
  | fuel + 1, tx, ty =>
    if isZero tx then some ty
    else
      let tx := shr w tx (lsb w jx tx.digs)
      let ty := shr w ty (lsb w jy ty.digs)
      if cmpAbs tx ty ≥ 0 then do
        let t ← subAbs (2 ^ w) tx ty
        gcdLoop w jx jy fuel (shr w t 1) ty
      else do
        let t ← subAbs (2 ^ w) ty tx
        gcdLoop w jx jy fuel tx (shr w t 1)

/-- `cry_mpi_gcd` (src/mpi/mpi_gcd.c:24-65); `jx`, `jy` are what the uninitialised digits
of the temporaries contain. -/
def gcd (w jx jy : Nat) (x y : Mpi) : Option Mpi := do
  let lz := lsb w jx x.digs
  let lzt := lsb w jy y.digs
  let lz := if lzt < lz then lzt else lz
  let t ← gcdLoop w jx jy (val (2 ^ w) x.digs + val (2 ^ w) y.digs + 1) (shr w x lz) (shr w y lz)
  some (shl w t lz)

/-- `cry_mpi_lcm` (src/mpi/mpi_lcm.c:6-20): the quotient of a division with `NULL` remainder. -/
def lcm (w jx jy : Nat) (x y : Mpi) : DivOut :=
  match gcd w jx jy x y with
  | none => .err
  | some g =>
    match mul w false x y with
    | none => .err
    | some p => div w .none true false p g

/-- `cry_mpi_div(&t2, NULL, a, &t1); cry_mpi_add(&t1, &t1, &t2); cry_mpi_shr(&t1, &t1, 1)`
(src/mpi/mpi_sqrt.c:74-79, 83-88): the new `t1` and `t2`. -/
def sqrtStep (w : Nat) (a t1 : Mpi) : Option (Mpi × Mpi) :=
  match div w .none true false a t1 with
  | .ok t2 _ => do
    let t ← add (2 ^ w) t1 t2
    some (shr w t 1, t2)
  | _ => none

/-- The do-while loop (src/mpi/mpi_sqrt.c:81-89). -/
def sqrtLoop (w : Nat) (a : Mpi) : Nat → Mpi → Option Mpi
  | 0, _ => none
  | fuel + 1, t1 => do
    let (t1, t2) ← sqrtStep w a t1
    if cmpAbs t1 t2 > 0 then sqrtLoop w a fuel t1 else some t1

/-- `cry_mpi_sqrt` (src/mpi/mpi_sqrt.c:51-95). -/
def sqrt (w : Nat) (a : Mpi) : Option Mpi :=
  if a.neg then none
  else if isZero a then some ⟨false, []⟩
  else do
    let t1 := shrd a (a.digs.length / 2)
    let (t1, _) ← sqrtStep w a t1
    sqrtLoop w a (val (2 ^ w) t1.digs + 1) t1

end Verif.Mpi
