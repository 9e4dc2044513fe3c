import Verif.Model.Mpi.NumTheory
import Verif.Model.Mpi.Bin
/-! Model of the elliptic-curve arithmetic (src/ecp/ecp_add.c, ecp_dbl.c, ecp_mul.c, ecp_core.c).  Exhaustion of memory is
not modelled.  In all functions the result object is written after the last operand has been read (a swap or copies at
the end), so that it may be one of the operands; on an error it is left as it was. -/
namespace Verif.Ecp
open Verif.Mpi

/-- `cry_ecp` (include/cry/ecp.h:26-30). -/
structure Pt where
  x : Mpi
  y : Mpi
  z : Mpi
deriving DecidableEq

/-- `cry_ecp_grp` (include/cry/ecp.h:38-44). -/
structure Grp where
  p : Mpi
  a : Mpi
  b : Mpi
  g : Pt
  n : Mpi
deriving DecidableEq

/-- `cry_ecp_is_zero` (include/cry/ecp.h:77-78). -/
def isZeroPt (q : Pt) : Bool := isZero q.z

/-- `cry_ecp_set_zero` (include/cry/ecp.h:80-84); the status codes ignored there are errors here. -/
def setZero (w : Nat) : Option Pt := do
  let x ← setInt w 1
  let y ← setInt w 1
  let z ← setInt w 0
  some ⟨x, y, z⟩

/-- `cry_ecp_dbl` (src/ecp/ecp_dbl.c:6-52); `none` is an error return.  `r.x` is a fresh object, hence not negative before
it receives the square. -/
def dbl (w : Nat) (p1 : Pt) (g : Grp) : Option Pt :=
  if isZeroPt p1 then some p1
  else do
    let num ← setInt w 3
    let num ← mul w false num p1.x
    let num ← mul w false num p1.x
    let num ← mod w .none num g.p
    let num ← add (2 ^ w) num g.a
    let num ← mod w .none num g.p
    let den ← setInt w 2
    let den ← mul w false den p1.y
    let den ← inv w den g.p
    let den ← mod w .none den g.p
    let lam ← mul w false num den
    let _ ← mod w .none den g.p
    let x ← sqr w false lam
    let x ← mod w .none x g.p
    let x ← sub (2 ^ w) x p1.x
    let x ← sub (2 ^ w) x p1.x
    let x ← mod w .none x g.p
    let y ← sub (2 ^ w) p1.x x
    let y ← mul w false y lam
    let y ← mod w .none y g.p
    let y ← sub (2 ^ w) y p1.y
    let y ← mod w .none y g.p
    let z ← setInt w 1
    some ⟨x, y, z⟩

/-- `cry_ecp_add` (src/ecp/ecp_add.c:7-67); `none` is an error return. -/
def add (w : Nat) (p1 p2 : Pt) (g : Grp) : Option Pt :=
  if isZeroPt p1 then some p2
  else if isZeroPt p2 then some p1
  else do
    let num ← sub (2 ^ w) p2.y p1.y
    let num ← mod w .none num g.p
    let den ← sub (2 ^ w) p2.x p1.x
    let den ← mod w .none den g.p
    if isZero den then
      if isZero num then dbl w p1 g else setZero w
    else do
      let den ← inv w den g.p
      let lam ← mul w false num den
      let lam ← mod w .none lam g.p
      let x ← sqr w false lam
      let x ← mod w .none x g.p
      let x ← sub (2 ^ w) x p1.x
      let x ← sub (2 ^ w) x p2.x
      let x ← mod w .none x g.p
      let y ← sub (2 ^ w) p1.x x
      let y ← mul w false y lam
      let y ← mod w .none y g.p
      let y ← sub (2 ^ w) y p1.y
      let y ← mod w .none y g.p
      let z ← setInt w 1
      some ⟨x, y, z⟩

/-- Outcome of `cry_ecp_mul`. -/
inductive Out (α : Type) where
  | ub
  | hang
  | fail
  | ok (v : α)
deriving DecidableEq

/-- Continue with the value. -/
def Out.bind {α β : Type} : Out α → (α → Out β) → Out β
  | .ub, _ => .ub
  | .hang, _ => .hang
  | .fail, _ => .fail
  | .ok v, f => f v

/-- A call that may return an error. -/
def call {α : Type} : Option α → Out α
  | none => .fail
  | some v => .ok v

/-- The table of points (src/ecp/ecp_mul.c:38-48). -/
def winGen (w : Nat) (p1 : Pt) (g : Grp) : Option (List Pt) := do
  let w0 ← dbl w p1 g
  let w0 ← dbl w w0 g
  let w0 ← dbl w w0 g
  let w1 ← add w w0 p1 g
  let w2 ← add w w1 p1 g
  let w3 ← add w w2 p1 g
  let w4 ← add w w3 p1 g
  let w5 ← add w w4 p1 g
  let w6 ← add w w5 p1 g
  let w7 ← add w w6 p1 g
  some [w0, w1, w2, w3, w4, w5, w6, w7]

/-- Bit `j` of digit `i` of the scalar (src/ecp/ecp_mul.c:62,76); a read outside the digits is undefined. -/
def bitAt (ds : List Nat) (i j : Nat) : Out Bool :=
  match ds[i]? with
  | none => .ub
  | some d => .ok ((d >>> j) &&& 1 ≠ 0)

/-- Doubling unless nothing has been added yet: `if (!paf) CHK(cry_ecp_dbl(&r, &r, grp))` (src/ecp/ecp_mul.c:59-60 and
73-74).  `none` stands for `paf = 1`, in which case `r` has not been used yet. -/
def dblUnless (w : Nat) (g : Grp) : Option Pt → Out (Option Pt)
  | none => .ok none
  | some r => (call (dbl w r g)).bind fun r => .ok (some r)

/-- Addition or first copy (src/ecp/ecp_mul.c:82-87 and 90-95). -/
def addOrCopy (w : Nat) (g : Grp) (q : Pt) : Option Pt → Out (Option Pt)
  | none => .ok (some q)
  | some r => (call (add w r q g)).bind fun r => .ok (some r)

/-- The loop reading the rest of a window, `while (w < 8)` (src/ecp/ecp_mul.c:67-78): the point, the window, the position.
Below digit 0 the index wraps. -/
def window (w : Nat) (g : Grp) (ds : List Nat) : Nat → Nat → Nat → Nat → Option Pt → Out (Option Pt × Nat × Nat × Nat)
  | 0, _, _, _, _ => .hang
  | fuel + 1, i, j, v, r =>
    if v < 8 then
      if j = 0 ∧ i = 0 then .ub
      else
        let i' := if j = 0 then i - 1 else i
        let j' := (if j = 0 then w else j) - 1
        (dblUnless w g r).bind fun r =>
        (bitAt ds i' j').bind fun b =>
        window w g ds fuel i' j' (2 * v + (if b then 1 else 0)) r
    else .ok (r, v, i, j)

/-- The two nested loops (src/ecp/ecp_mul.c:54-98) at position `i`, `j` before the decrement of `j`; the outer one goes on
to the digit below when `j` is 0. -/
def mulLoop (w : Nat) (g : Grp) (p1 : Pt) (win : List Pt) (ds : List Nat) : Nat → Nat → Nat → Option Pt → Out (Option Pt)
  | 0, _, _, _ => .hang
  | fuel + 1, i, 0, r => if i = 0 then .ok r else mulLoop w g p1 win ds fuel (i - 1) w r
  | fuel + 1, i, j + 1, r =>
    (dblUnless w g r).bind fun r =>
    (bitAt ds i j).bind fun b =>
    if b then
      if i ≠ 0 ∨ j ≥ 3 then
        (window w g ds 4 i j 1 r).bind fun (r, v, i, j) =>
        match win[v &&& 7]? with
        | none => .ub
        | some q => (addOrCopy w g q r).bind fun r => mulLoop w g p1 win ds fuel i j r
      else (addOrCopy w g p1 r).bind fun r => mulLoop w g p1 win ds fuel i j r
    else mulLoop w g p1 win ds fuel i j r

/-- `cry_ecp_mul` (src/ecp/ecp_mul.c:12-107, `CRY_ECP_MUL_SLIDING_WIN`).  `r` starts as the point at infinity.  The sign
of the scalar is not looked at. -/
def mulPt (w : Nat) (p1 : Pt) (k : Mpi) (g : Grp) : Out Pt :=
  if isZeroPt p1 then .ok p1
  else
    (call (winGen w p1 g)).bind fun win =>
    (mulLoop w g p1 win k.digs (k.digs.length * (w + 1) + 1) k.digs.length 0 none).bind fun r =>
    match r with
    | some r => .ok r
    | none => call (setZero w)

end Verif.Ecp
