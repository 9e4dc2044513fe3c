import Verif.Model.Mpi.Mul
/-!
# Model of the division (src/mpi/mpi_div_abs.c, mpi_div.c)

The long division reads digits of its working copy `x` by index, also the digit just above
`x.used`, so `x` is modelled as an object with its whole digit array, updated in place by the
store versions of `cry_mpi_sub` and `cry_mpi_add`.
-/
namespace Verif.Mpi

/-- An object holding a number.  The digits above `used` are irrelevant where this is used
(operand `t1`, whose digits above `used` are never read). -/
def ofMpi (z : Mpi) : Obj := ⟨z.neg, z.digs.length, fun i => dig z.digs i⟩

/-- `cry_mpi_sub(&x, &x, &t)`, in place on `x`. -/
def subInto (b : Nat) (x : Obj) (t : Mpi) : Option Obj :=
  (subS b 0 0 1 (fun p => if p = 0 then x else ofMpi t)).map fun s => s 0

/-- `cry_mpi_add(&x, &x, &t)`, in place on `x`. -/
def addInto (b : Nat) (x : Obj) (t : Mpi) : Option Obj :=
  (addS b 0 0 1 (fun p => if p = 0 then x else ofMpi t)).map fun s => s 0

/-- `q.data[k] = v`; `none` outside the allocated digits. -/
def setDig (q : List Nat) (k v : Nat) : Option (List Nat) :=
  if k < q.length then some (q.set k v) else none

/-- First loop (src/mpi/mpi_div_abs.c:128-131): `y` is already shifted, `k = n - t`.  The first
argument bounds the number of turns (`none` when used up). -/
def divTop (w : Nat) (y : Mpi) (k : Nat) : Nat → Obj → List Nat → Option (Obj × List Nat)
  | 0, _, _ => none
  | fuel + 1, x, q =>
    if cmp x.mpi y ≠ -1 then do
      let q ← setDig q k ((dig q k + 1) % 2 ^ w)
      let x ← subInto (2 ^ w) x y
      divTop w y k fuel x q
    else some (x, q)

/-- Step 3.1 (src/mpi/mpi_div_abs.c:146-157): first estimate of a quotient digit.  `none` is
division by zero (undefined). -/
def divEst (w xi xi1 yt : Nat) : Option Nat :=
  if xi = yt then some (2 ^ w - 1)
  else if yt = 0 then none
  else
    let tmp := (((xi <<< w) % 2 ^ (2 * w)) ||| xi1) / yt
    let tmp := if tmp > 2 ^ w - 1 then 2 ^ w - 1 else tmp
    some (tmp &&& (2 ^ w - 1))

/-- The do-while loop (src/mpi/mpi_div_abs.c:163-179) entered with estimate `q`.
`t1 = q·[y{t-1}, yt]` by `cry_mpi_mul_dig` in place (so the stale sign is 0), compared with
`t2 = [x{i-2}, x{i-1}, xi]`, whose `used` is 3 even if `xi = 0`.  `none` when `q` would wrap
below zero. -/
def divCorr (w yt1 yt : Nat) (t2 : List Nat) : Nat → Option Nat
  | 0 => do
    let t1 ← mulDig w false ⟨false, [yt1, yt]⟩ 0
    if cmpAbs t1 ⟨false, t2⟩ = 1 then none else some 0
  | q + 1 => do
    let t1 ← mulDig w false ⟨false, [yt1, yt]⟩ (q + 1)
    if cmpAbs t1 ⟨false, t2⟩ = 1 then divCorr w yt1 yt t2 q else some (q + 1)

/-- One turn of the main loop (src/mpi/mpi_div_abs.c:138-198) for digit `i`; `t = y.used - 1`.
All digits read have index at most `n`, hence are allocated and initialised.  `t1` is
non-negative before line 185, so the stale sign given to `mulDig` is `false`. -/
def divStep (w : Nat) (y : Mpi) (t i : Nat) (x : Obj) (q : List Nat) : Option (Obj × List Nat) :=
  if i > x.used then some (x, q)
  else do
    let yt := dig y.digs t
    let yt1 := if t = 0 then 0 else dig y.digs (t - 1)
    let e ← divEst w (x.data i) (x.data (i - 1)) yt
    let x0 := if i ≤ 1 then 0 else x.data (i - 2)
    let x1 := if i = 0 then 0 else x.data (i - 1)
    let qd ← divCorr w yt1 yt [x0, x1, x.data i] e
    let t1 ← mulDig w false y qd
    let t1 := shld t1 (i - t - 1)
    let x ← subInto (2 ^ w) x t1
    if x.neg then do
      let t1 := shld y (i - t - 1)
      let x ← addInto (2 ^ w) x t1
      let q ← setDig q (i - t - 1) ((qd + 2 ^ w - 1) % 2 ^ w)
      some (x, q)
    else do
      let q ← setDig q (i - t - 1) qd
      some (x, q)

/-- The main loop `for (i = n; i >= t + 1; i--)` (src/mpi/mpi_div_abs.c:137-199); `k` turns are
left, the next one for `i = t + k`. -/
def divLoop (w : Nat) (y : Mpi) (t : Nat) : Nat → Obj → List Nat → Option (Obj × List Nat)
  | 0, x, q => some (x, q)
  | k + 1, x, q => do
    let (x, q) ← divStep w y t (t + (k + 1)) x q
    divLoop w y t k x q

/-- The shift that normalises the divisor (src/mpi/mpi_div_abs.c:113-120). -/
def divNorm (w : Nat) (b : Mpi) : Nat :=
  let m := countBits w b % w
  if m < w - 1 then w - 1 - m else 0

/-- `cry_mpi_div_abs` (src/mpi/mpi_div_abs.c:77-220): quotient and remainder, `none` is the
error return.  Either output may be `NULL` in C, it is then just dropped; operands are copied
before the outputs are written, so outputs may coincide with operands.  Allocation succeeds. -/
def divAbs (w : Nat) (a b : Mpi) : Option (Mpi × Mpi) :=
  if b.digs = [] then none
  else if cmpAbs a b < 0 then some (⟨false, []⟩, a)
  else do
    let q := List.replicate (a.digs.length + 2) 0
    let norm := divNorm w b
    let x : Mpi := shl w ⟨false, a.digs⟩ norm
    let y : Mpi := shl w ⟨false, b.digs⟩ norm
    let n := x.digs.length - 1
    let t := y.digs.length - 1
    let (x, q) ← divTop w (shld y (n - t)) (n - t) (2 ^ w) (ofMpi x) q
    let y := shrd (shld y (n - t)) (n - t)
    let (x, q) ← divLoop w y t (n - t) x q
    some (⟨false, adjust q⟩, ⟨false, (shr w x.mpi norm).digs⟩)

/-- Outcome of `cry_mpi_div`: error return, undefined behaviour, or values of the outputs. -/
inductive DivOut where
  | err
  | ub
  | ok (q r : Mpi)
deriving DecidableEq

/-- Which output object coincides with the divisor object. -/
inductive DivAlias where
  | none
  | rIsB
  | qIsB
deriving DecidableEq

/-- `cry_mpi_div` (src/mpi/mpi_div.c:3-27).  `wantQ`/`wantR`: the pointer is not `NULL` (an
unwanted output of `ok` is meaningless).  With different signs `cry_mpi_is_zero(r)` dereferences
`r`, undefined for `NULL`.  Line 22 reads the divisor after the outputs were written. -/
def div (w : Nat) (al : DivAlias) (wantQ wantR : Bool) (a b : Mpi) : DivOut :=
  match divAbs w a b with
  | none => .err
  | some (q, r) =>
    if a.neg ^^ b.neg then
      if wantR then
        if r.digs ≠ [] then
          match sub (2 ^ w) { q with neg := true } ⟨false, [1]⟩ with
          | none => .err
          | some q' =>
            let b' := match al with
              | .none => b
              | .rIsB => r
              | .qIsB => if wantQ then q' else b
            match subAbs (2 ^ w) b' r with
            | none => .err
            | some r' => .ok q' r'
        else .ok q r
      else .ub
    else .ok q r

/-- `cry_mpi_mod(r, a, m)` (include/cry/mpi.h: `cry_mpi_div(NULL, r, a, m)`), result in `r`. -/
def mod (w : Nat) (al : DivAlias) (a m : Mpi) : Option Mpi :=
  match div w al false true a m with
  | .ok _ r => some r
  | _ => none

end Verif.Mpi
