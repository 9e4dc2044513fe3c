import Verif.Model.Mpi.NumTheory
/-! Model of the number functions that other build options select: division by shifting and subtracting
(`CRY_MPI_DIV_SMALL`) and the inverse without `CRY_MPI_INV_EUCLID`.  Both replace the function of the same name, all
callers are unchanged.  Allocation succeeds. -/
namespace Verif.Mpi

/-- Loop of `cry_mpi_div_abs` with `CRY_MPI_DIV_SMALL` (src/mpi/mpi_div_abs.c:39-48); the first argument is the number of
turns left, `n + 1` at the start. -/
def divSmallLoop (w : Nat) : Nat → Mpi → Mpi → Mpi → Mpi → Option (Mpi × Mpi)
  | 0, ta, _, _, q => some (q, ta)
  | n + 1, ta, tb, tq, q =>
    if cmp tb ta ≤ 0 then do
      let ta ← sub (2 ^ w) ta tb
      let q ← add (2 ^ w) q tq
      divSmallLoop w n ta (shr w tb 1) (shr w tq 1) q
    else divSmallLoop w n ta (shr w tb 1) (shr w tq 1) q

/-- `cry_mpi_div_abs` with `CRY_MPI_DIV_SMALL` (src/mpi/mpi_div_abs.c:6-62): quotient and remainder, `none` is the error
return.  The outputs are swapped in at the end, so they may coincide with operands. -/
def divAbsSmall (w : Nat) (a b : Mpi) : Option (Mpi × Mpi) :=
  if b.digs = [] then none
  else if cmpAbs a b < 0 then some (⟨false, []⟩, a)
  else do
    let n := countBits w a - countBits w b
    let (q, r) ← divSmallLoop w (n + 1) ⟨false, a.digs⟩ (shl w ⟨false, b.digs⟩ n) (shl w ⟨false, [1]⟩ n) ⟨false, []⟩
    some (⟨false, q.digs⟩, ⟨false, r.digs⟩)

/-- Outcome of the binary inverse: error return, a loop that is still running after the given number of turns, or a
value. -/
inductive BinOut (α : Type) where
  | err
  | hang
  | ok (v : α)
deriving DecidableEq

/-- Continue with the value. -/
def BinOut.bind {α β : Type} : BinOut α → (α → BinOut β) → BinOut β
  | .err, _ => .err
  | .hang, _ => .hang
  | .ok v, f => f v

/-- A call that may fail.  The statuses of the additions and subtractions are ignored in C; they cannot fail here. -/
def binCall {α : Type} : Option α → BinOut α
  | none => .err
  | some v => .ok v

/-- The loops `while (cry_mpi_is_even(&TU))` and `while (cry_mpi_is_even(&TV))` of `cry_mpi_inv` without
`CRY_MPI_INV_EUCLID` (src/mpi/mpi_inv.c:79-87, 88-96), at most `fuel - 1` turns. -/
def invHalve (w : Nat) (ta tb : Mpi) : Nat → Mpi → Mpi → Mpi → BinOut (Mpi × Mpi × Mpi)
  | 0, _, _, _ => .hang
  | fuel + 1, t, c1, c2 =>
    if isEven t then
      if isOdd c1 || isOdd c2 then
        (binCall (add (2 ^ w) c1 tb)).bind fun c1 => (binCall (sub (2 ^ w) c2 ta)).bind fun c2 =>
          invHalve w ta tb fuel (shr w t 1) (shr w c1 1) (shr w c2 1)
      else invHalve w ta tb fuel (shr w t 1) (shr w c1 1) (shr w c2 1)
    else .ok (t, c1, c2)

/-- Main loop (src/mpi/mpi_inv.c:78-106), at most `fuel` turns, inner loops bounded by `n`; the value is `V1`. -/
def invBinLoop (w : Nat) (ta tb : Mpi) (n : Nat) : Nat → Mpi → Mpi → Mpi → Mpi → Mpi → Mpi → BinOut Mpi
  | 0, _, _, _, _, _, _ => .hang
  | fuel + 1, tu, u1, u2, tv, v1, v2 =>
    (invHalve w ta tb n tu u1 u2).bind fun (tu, u1, u2) =>
    (invHalve w ta tb n tv v1 v2).bind fun (tv, v1, v2) =>
    if cmp tu tv ≥ 0 then
      (binCall (sub (2 ^ w) tu tv)).bind fun tu =>
      (binCall (sub (2 ^ w) u1 v1)).bind fun u1 =>
      (binCall (sub (2 ^ w) u2 v2)).bind fun u2 =>
      if tu.digs = [] then .ok v1 else invBinLoop w ta tb n fuel tu u1 u2 tv v1 v2
    else
      (binCall (sub (2 ^ w) tv tu)).bind fun tv =>
      (binCall (sub (2 ^ w) v1 u1)).bind fun v1 =>
      (binCall (sub (2 ^ w) v2 u2)).bind fun v2 =>
      if tu.digs = [] then .ok v1 else invBinLoop w ta tb n fuel tu u1 u2 tv v1 v2

/-- `while (V1.used && V1.sign)` (src/mpi/mpi_inv.c:108-109). -/
def invUp (w : Nat) (m : Mpi) : Nat → Mpi → BinOut Mpi
  | 0, _ => .hang
  | fuel + 1, v =>
    if v.digs ≠ [] ∧ v.neg = true then (binCall (add (2 ^ w) v m)).bind fun v => invUp w m fuel v else .ok v

/-- `while (cry_mpi_cmp(&V1, m) >= 0)` (src/mpi/mpi_inv.c:111-112). -/
def invDown (w : Nat) (m : Mpi) : Nat → Mpi → BinOut Mpi
  | 0, _ => .hang
  | fuel + 1, v =>
    if cmp v m ≥ 0 then (binCall (sub (2 ^ w) v m)).bind fun v => invDown w m fuel v else .ok v

/-- `cry_mpi_inv` without `CRY_MPI_INV_EUCLID` (src/mpi/mpi_inv.c:58-119), no loop followed for more than `n` turns. The
result is swapped in at the end, so it may coincide with an operand. -/
def invBin (w n : Nat) (x m : Mpi) : BinOut Mpi :=
  (binCall (mod w .none x m)).bind fun ta =>
  (invBinLoop w ta m n n ta ⟨false, [1]⟩ ⟨false, []⟩ m ⟨false, []⟩ ⟨false, [1]⟩).bind fun v1 =>
  (invUp w m n v1).bind fun v1 => invDown w m n v1

/-- The options for products: `CRY_MPI_MUL_TOOM3`, `CRY_MPI_MUL_KARATSUBA`, `CRY_MPI_MUL_COMBA` (config.mk). -/
structure MulOpts where
  toom : Bool
  kara : Bool
  comba : Bool
deriving DecidableEq

/-- `cry_mpi_mul_abs` (src/mpi/mpi_mul_abs.c:8-25) with any options; recursion depth and `old` as for `mulAbs`. -/
def mulAbsOpt (w : Nat) (o : MulOpts) : Nat → Bool → Mpi → Mpi → Option Mpi
  | 0, _, _, _ => none
  | fuel + 1, old, x, y =>
    if o.toom = true ∧ min x.digs.length y.digs.length > 300 then
      mulToom3 w (mulWith (mulAbsOpt w o fuel false)) x y
    else if o.kara = true ∧ min x.digs.length y.digs.length > 64 then
      mulKaratsuba w (mulAbsOpt w o fuel false) x y
    else if o.comba = true then some (mulComba w old x y)
    else some (mulBaseline w x y)

/-- `cry_mpi_mul` (src/mpi/mpi_mul.c:3-12) with any options. -/
def mulOpt (w : Nat) (o : MulOpts) (old : Bool) (x y : Mpi) : Option Mpi :=
  mulWith (mulAbsOpt w o (min x.digs.length y.digs.length + 1) old) x y

/-- `cry_mpi_sqr` (src/mpi/mpi_sqr.c:7-19) with any options and bounded recursion depth. -/
def sqrFuelOpt (w : Nat) (o : MulOpts) : Nat → Bool → Mpi → Option Mpi
  | 0, _, _ => none
  | fuel + 1, old, x =>
    if o.kara = true ∧ x.digs.length > 64 then sqrKaratsuba w (sqrFuelOpt w o fuel false) x
    else if o.comba = true then some (sqrComba w old x)
    else sqrBaseline w x

/-- `cry_mpi_sqr` (src/mpi/mpi_sqr.c:7-19) with any options; `old` as for `sqr`. -/
def sqrOpt (w : Nat) (o : MulOpts) (old : Bool) (x : Mpi) : Option Mpi := sqrFuelOpt w o (x.digs.length + 1) old x

end Verif.Mpi
