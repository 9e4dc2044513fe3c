import Verif.Model.Mem.Mul
/-!
# Division in memory (src/mpi/mpi_div_abs.c:77-220, mpi_div.c)

The long division with its five temporaries.  A `NULL` output is `none`.
-/
namespace Verif.Mem
open Verif.Mpi (Mpi)

/-- `cry_mpi_init_copy(&v, a)`, the code up to the label that clears `v`, `cry_mpi_clear(&v)`. -/
def withinCopy (v a : Nat) (body : M Int) : M Int :=
  chk (initCopy v a) do
    let st ← body
    clear v
    pure st

/-- First loop (src/mpi/mpi_div_abs.c:128-131); `k = n - t`. -/
def divTop (w q x y k : Nat) : Nat → M Int
  | 0 => hang
  | fuel + 1 => do
    if (← cmp x y) ≠ -1 then
      wr q k (((← rd q k) + 1) % 2 ^ w)
      chk (sub (2 ^ w) x x y) (divTop w q x y k fuel)
    else pure 0

/-- Loop correcting a quotient digit (src/mpi/mpi_div_abs.c:164-177); `k = i - t - 1`, locals of called functions
from `sp` on. -/
def divCorr (w sp q t1 t2 x y i t k : Nat) : Nat → M Int
  | 0 => hang
  | fuel + 1 => do
    wr q k (((← rd q k) + 2 ^ w - 1) % 2 ^ w)
    zero t1
    wr t1 0 (← if t = 0 then pure 0 else rd y (t - 1))
    wr t1 1 (← rd y t)
    setUsed t1 2
    let qd ← rd q k
    chk (mulDig w sp t1 t1 qd) do
      wr t2 0 (← if i ≤ 1 then pure 0 else rd x (i - 2))
      wr t2 1 (← if i = 0 then pure 0 else rd x (i - 1))
      wr t2 2 (← rd x i)
      setUsed t2 3
      if (← cmpAbs t1 t2) = 1 then divCorr w sp q t1 t2 x y i t k fuel
      else pure 0

/-- One turn of the main loop (src/mpi/mpi_div_abs.c:138-198). -/
def divStep (w sp q t1 t2 x y t i : Nat) : M Int := do
  if i > (← hdr x).used then pure 0
  else
    let k := i - t - 1
    let xi ← rd x i
    let yt ← rd y t
    let e ← (if xi = yt then pure (2 ^ w - 1)
      else do
        let x1 ← rd x (i - 1)
        if yt = 0 then ub
        else
          let tmp := (((xi <<< w) % 2 ^ (2 * w)) ||| x1) / yt
          let tmp := if tmp > 2 ^ w - 1 then 2 ^ w - 1 else tmp
          pure (tmp &&& (2 ^ w - 1)))
    wr q k e
    wr q k (((← rd q k) + 1) % 2 ^ w)
    chk (divCorr w sp q t1 t2 x y i t k (2 ^ w)) do
      let qd ← rd q k
      chk (mulDig w sp t1 y qd) <|
      chk (shld t1 k) <|
      chk (sub (2 ^ w) x x t1) do
        if (← hdr x).neg then
          chk (copy t1 y) <|
          chk (shld t1 k) <|
          chk (add (2 ^ w) x x t1) do
            wr q k (((← rd q k) + 2 ^ w - 1) % 2 ^ w)
            pure 0
        else pure 0

/-- The main loop `for (i = n; i >= t + 1; i--)` (src/mpi/mpi_div_abs.c:137-199); `k` turns are left, the next
one for `i = t + k`. -/
def divLoop (w sp q t1 t2 x y t : Nat) : Nat → M Int
  | 0 => pure 0
  | k + 1 => chk (divStep w sp q t1 t2 x y t (t + (k + 1))) (divLoop w sp q t1 t2 x y t k)

/-- The working part of `cry_mpi_div_abs` (src/mpi/mpi_div_abs.c:109-215) between allocation and clean-up. -/
def divWork (w sp q t1 t2 x y : Nat) (rq rr : Option Nat) : M Int := do
  setSign y false
  setSign x false
  let m := (← countBits w y) % w
  let norm := if m < w - 1 then w - 1 - m else 0
  chk (if m < w - 1 then chk (shl w x x norm) (shl w y y norm) else pure 0) do
    let n := (← hdr x).used - 1
    let t := (← hdr y).used - 1
    chk (shld y (n - t)) <|
    chk (divTop w q x y (n - t) (2 ^ w)) do
      let _ ← shrd y (n - t)
      chk (divLoop w sp q t1 t2 x y t (n - t)) do
        match rq with
        | some v => do
          adjust q
          swap q v
          setSign v false
        | none => pure ()
        match rr with
        | some v => do
          let _ ← shr w x x norm
          swap x v
          setSign v false
        | none => pure ()
        pure 0

/-- `cry_mpi_div_abs` (src/mpi/mpi_div_abs.c:77-220) in the default configuration.  Locals `q, t1, t2, x, y` from
`sp` on.
The number of turns of the `while` loops is bounded by the number of values of a digit (`hang` beyond). -/
def divAbs (w sp : Nat) (rq rr : Option Nat) (a b : Nat) : M Int := do
  decl sp 5
  if (← hdr b).used = 0 then pure (-1)
  else if (← cmpAbs a b) < 0 then
    let res ← (match rr with
      | some v => copy v a
      | none => pure 0)
    match rq with
    | some v => zero v
    | none => pure ()
    pure res
  else
    let ha ← hdr a
    within sp (ha.used + 2) do
      setUsedZ sp (ha.used + 2)
      within (sp + 1) 2 <| within (sp + 2) 3 <| withinCopy (sp + 3) a <| withinCopy (sp + 4) b
        (divWork w (sp + 5) sp (sp + 1) (sp + 2) (sp + 3) (sp + 4) rq rr)

/-- `cry_mpi_div` (src/mpi/mpi_div.c:3-27).  The local `one` is at `sp`; `cry_mpi_is_zero(r)` dereferences `r`. -/
def div (w sp : Nat) (q r : Option Nat) (a b : Nat) : M Int := do
  let ha ← hdr a
  let hb ← hdr b
  chk (divAbs w sp q r a b) do
    if xor ha.neg hb.neg then
      match r with
      | none => ub
      | some vr =>
        if (← hdr vr).used ≠ 0 then
          match q with
          | some vq => do
            setObj sp ⟨some ⟨false, 1, 1⟩, .mem false [some 1]⟩
            setSign vq true
            let _ ← sub (2 ^ w) vq vq sp
          | none => pure ()
          subAbs (2 ^ w) vr b vr
        else pure 0
    else pure 0

/-- `cry_mpi_mod(r, a, m)` (include/cry/mpi.h: `cry_mpi_div(NULL, r, a, m)`). -/
def mod (w sp r a m : Nat) : M Int := div w sp none (some r) a m

end Verif.Mem
