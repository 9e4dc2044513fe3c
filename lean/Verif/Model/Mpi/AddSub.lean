import Verif.Spec.Mpi.Value
/-!
# Model of comparison, addition and subtraction (src/mpi)

`b` is the digit base (`2^64` in the default build, `2^8`, `2^16`, `2^32` with other
`CRY_MPI_DIGIT_TYPE` settings).  Digit arithmetic wraps modulo `b` as in C.
Simplification: memory allocation succeeds.
-/
namespace Verif.Mpi

/-- `cry_mpi_adjust` (src/mpi/mpi_pvt.h:56-59): drop leading zero digits. -/
def adjust : List Nat → List Nat
  | [] => []
  | d :: ds =>
    match adjust ds with
    | [] => if d = 0 then [] else [d]
    | e :: es => d :: e :: es

/-- The scan of `cry_mpi_cmp_abs` (src/mpi/mpi_cmp_abs.c:16-27) over numbers of equal
length: higher digits are compared first. -/
def cmpDigs : List Nat → List Nat → Int
  | x :: xs, y :: ys =>
    let r := cmpDigs xs ys
    if r ≠ 0 then r
    else if x < y then -1
    else if x > y then 1
    else 0
  | _, _ => 0

/-- `cry_mpi_cmp_abs` (src/mpi/mpi_cmp_abs.c:6-28). -/
def cmpAbs (x y : Mpi) : Int :=
  if x.digs.length < y.digs.length then -1
  else if x.digs.length > y.digs.length then 1
  else cmpDigs x.digs y.digs

/-- `cry_mpi_cmp` (src/mpi/mpi_cmp.c:6-20). -/
def cmp (x y : Mpi) : Int :=
  if x.neg = true ∧ y.neg = false then -1
  else if x.neg = false ∧ y.neg = true then 1
  else
    let r := cmpAbs x y
    if x.neg then -r else r

/-- Second and third loop of `cry_mpi_add_abs` (src/mpi/mpi_add_abs.c:36-46): propagate the
carry `c`, then either append a digit 1 or copy the remaining digits. -/
def addCarry (b : Nat) : List Nat → Nat → List Nat
  | [], c => if c ≠ 0 then [1] else []
  | x :: xs, c =>
    if c ≠ 0 then
      let d := (x + 1) % b
      d :: addCarry b xs (if d = 0 then 1 else 0)
    else x :: xs

/-- First loop of `cry_mpi_add_abs` (src/mpi/mpi_add_abs.c:27-34), then the others.  The
first list is the longer one. -/
def addLoop (b : Nat) : List Nat → List Nat → Nat → List Nat
  | x :: xs, y :: ys, c =>
    let t := (x + c) % b
    let c1 := if t < c then 1 else 0
    let l := (t + y) % b
    let c2 := c1 + (if l < t then 1 else 0)
    l :: addLoop b xs ys c2
  | xs, _, c => addCarry b xs c

/-- `cry_mpi_add_abs` (src/mpi/mpi_add_abs.c:3-48). -/
def addAbs (b : Nat) (x y : Mpi) : Mpi :=
  if x.digs.length < y.digs.length then ⟨false, addLoop b y.digs x.digs 0⟩
  else ⟨false, addLoop b x.digs y.digs 0⟩

/-- Second and third loop of `cry_mpi_sub_abs` (src/mpi/mpi_sub_abs.c:37-44): propagate the
borrow; `none` is the error return of line 42. -/
def subBorrow (b : Nat) : List Nat → Nat → Option (List Nat)
  | [], c => if c ≠ 0 then none else some []
  | x :: xs, c =>
    if c ≠ 0 then
      (subBorrow b xs (if x = 0 then 1 else 0)).map (((x + b - 1) % b) :: ·)
    else some (x :: xs)

/-- First loop of `cry_mpi_sub_abs` (src/mpi/mpi_sub_abs.c:24-31), then the others.
`t1 - t2 - c` wraps modulo `b`; it is written here as `t1 + 2b - t2 - c` modulo `b`. -/
def subLoop (b : Nat) : List Nat → List Nat → Nat → Option (List Nat)
  | x :: xs, y :: ys, c =>
    let d := (x + 2 * b - y - c) % b
    let c' := if x ≠ y then (if x < y then 1 else 0) else c
    (subLoop b xs ys c').map (d :: ·)
  | xs, _, c => subBorrow b xs c

/-- `cry_mpi_sub_abs` (src/mpi/mpi_sub_abs.c:3-47); `none` is the return value −1. -/
def subAbs (b : Nat) (x y : Mpi) : Option Mpi :=
  if cmpAbs x y < 0 then none
  else (subLoop b x.digs y.digs 0).map fun ds => ⟨false, adjust ds⟩

/-- `cry_mpi_add` (src/mpi/mpi_add.c:3-34); `none` is an error return. -/
def add (b : Nat) (x y : Mpi) : Option Mpi :=
  if x.neg = y.neg then some { addAbs b x y with neg := x.neg }
  else
    let r := cmpAbs x y
    if r = 1 then (subAbs b x y).map fun z => { z with neg := x.neg }
    else if r = -1 then (subAbs b y x).map fun z => { z with neg := y.neg }
    else some ⟨false, []⟩

/-- `cry_mpi_sub` (src/mpi/mpi_sub.c:6-33); `none` is an error return. -/
def sub (b : Nat) (x y : Mpi) : Option Mpi :=
  if x.neg ≠ y.neg then some { addAbs b x y with neg := x.neg }
  else
    let r := cmpAbs x y
    if r = 1 then (subAbs b x y).map fun z => { z with neg := x.neg }
    else if r = -1 then (subAbs b y x).map fun z => { z with neg := !y.neg }
    else some ⟨false, []⟩

end Verif.Mpi
