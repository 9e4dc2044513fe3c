import Verif.Model.Mpi.AddSub
/-!
# Addition and subtraction on a store of objects

The value-level model in `Model/Mpi/AddSub.lean` cannot express that the result object is
the same object as an operand.  Here the functions run on a store: a map from object
identities to objects whose digit array is written in place, one digit at a time, while the
operands are being read.
-/
namespace Verif.Mpi

/-- A `cry_mpi` object (include/cry/mpi.h:57-62) with its whole digit array.
Simplification: `alloc` is not modelled, writes never run out of space
(`cry_mpi_grow` succeeds). -/
structure Obj where
  neg : Bool
  used : Nat
  data : Nat → Nat

/-- Object identity (address of the struct) to object. -/
abbrev Store := Nat → Obj

/-- `f i, f (i+1), …` (`n` digits). -/
def seg (f : Nat → Nat) (i : Nat) : Nat → List Nat
  | 0 => []
  | n + 1 => f i :: seg f (i + 1) n

/-- The number an object holds. -/
def Obj.mpi (o : Obj) : Mpi := ⟨o.neg, seg o.data 0 o.used⟩

/-- Replace one object. -/
def Store.set (s : Store) (r : Nat) (o : Obj) : Store := fun p => if p = r then o else s p

/-- `r->data[i] = v`. -/
def Store.wr (s : Store) (r i v : Nat) : Store :=
  s.set r { s r with data := fun j => if j = i then v else (s r).data j }

/-- Copy loop (src/mpi/mpi_add_abs.c:44-45, src/mpi/mpi_sub_abs.c:43-44). -/
def copyS (r x : Nat) : Nat → Nat → Store → Store
  | 0, _, s => s
  | n + 1, i, s => copyS r x n (i + 1) (s.wr r i ((s x).data i))

/-- Carry loop and tail of `cry_mpi_add_abs` (src/mpi/mpi_add_abs.c:36-46). -/
def carryS (b r x : Nat) : Nat → Nat → Nat → Store → Store
  | 0, i, c, s =>
    if c ≠ 0 then
      let s' := s.wr r i 1
      s'.set r { s' r with used := (s' r).used + 1 }
    else s
  | n + 1, i, c, s =>
    if c ≠ 0 then
      let d := ((s x).data i + 1) % b
      carryS b r x n (i + 1) (if d = 0 then 1 else 0) (s.wr r i d)
    else copyS r x (n + 1) i s

/-- First loop of `cry_mpi_add_abs` (src/mpi/mpi_add_abs.c:28-34) followed by the rest;
`n` digits are left in the shorter operand and `n + m` in the longer one. -/
def addLoopS (b r x y m : Nat) : Nat → Nat → Nat → Store → Store
  | 0, i, c, s => carryS b r x m i c s
  | n + 1, i, c, s =>
    let t := ((s x).data i + c) % b
    let c1 := if t < c then 1 else 0
    let l := (t + (s y).data i) % b
    let c2 := c1 + (if l < t then 1 else 0)
    addLoopS b r x y m n (i + 1) c2 (s.wr r i l)

/-- `cry_mpi_add_abs` (src/mpi/mpi_add_abs.c:3-48). -/
def addAbsS (b r x y : Nat) (s : Store) : Store :=
  let (x, y) := if (s x).used < (s y).used then (y, x) else (x, y)
  let max := (s x).used
  let min := (s y).used
  addLoopS b r x y (max - min) min 0 0 (s.set r { s r with used := max, neg := false })

/-- Borrow loop and tail of `cry_mpi_sub_abs` (src/mpi/mpi_sub_abs.c:37-44); `none` is the
error return of line 42. -/
def borrowS (b r x : Nat) : Nat → Nat → Nat → Store → Option Store
  | 0, _, c, s => if c ≠ 0 then none else some s
  | n + 1, i, c, s =>
    if c ≠ 0 then
      let d := (s x).data i
      borrowS b r x n (i + 1) (if d = 0 then 1 else 0) (s.wr r i ((d + b - 1) % b))
    else some (copyS r x (n + 1) i s)

/-- First loop of `cry_mpi_sub_abs` (src/mpi/mpi_sub_abs.c:25-31) followed by the rest. -/
def subLoopS (b r x y m : Nat) : Nat → Nat → Nat → Store → Option Store
  | 0, i, c, s => borrowS b r x m i c s
  | n + 1, i, c, s =>
    let t1 := (s x).data i
    let t2 := (s y).data i
    let c' := if t1 ≠ t2 then (if t1 < t2 then 1 else 0) else c
    subLoopS b r x y m n (i + 1) c' (s.wr r i ((t1 + 2 * b - t2 - c) % b))

/-- `cry_mpi_adjust` on an object (src/mpi/mpi_pvt.h:56-59). -/
def adjustUsed (f : Nat → Nat) : Nat → Nat
  | 0 => 0
  | n + 1 => if f n = 0 then adjustUsed f n else n + 1

/-- `cry_mpi_sub_abs` (src/mpi/mpi_sub_abs.c:3-47). -/
def subAbsS (b r x y : Nat) (s : Store) : Option Store :=
  if cmpAbs (s x).mpi (s y).mpi < 0 then none
  else
    let max := (s x).used
    let min := (s y).used
    (subLoopS b r x y (max - min) min 0 0 (s.set r { s r with used := max, neg := false })).map
      fun s' => s'.set r { s' r with used := adjustUsed (s' r).data (s' r).used }

/-- `r->sign = v`. -/
def setNeg (r : Nat) (v : Bool) (s : Store) : Store := s.set r { s r with neg := v }

/-- `cry_mpi_add` (src/mpi/mpi_add.c:3-34) on the store; the sign of the result is read from
the operands before they may be overwritten. -/
def addS (b r x y : Nat) (s : Store) : Option Store :=
  if (s x).neg = (s y).neg then some (setNeg r (s x).neg (addAbsS b r x y s))
  else
    let k := cmpAbs (s x).mpi (s y).mpi
    if k = 1 then (subAbsS b r x y s).map (setNeg r (s x).neg)
    else if k = -1 then (subAbsS b r y x s).map (setNeg r (s y).neg)
    else some (s.set r { s r with neg := false, used := 0 })

/-- `cry_mpi_sub` (src/mpi/mpi_sub.c:6-33) on the store. -/
def subS (b r x y : Nat) (s : Store) : Option Store :=
  if (s x).neg ≠ (s y).neg then some (setNeg r (s x).neg (addAbsS b r x y s))
  else
    let k := cmpAbs (s x).mpi (s y).mpi
    if k = 1 then (subAbsS b r x y s).map (setNeg r (s x).neg)
    else if k = -1 then (subAbsS b r y x s).map (setNeg r (!(s y).neg))
    else some (s.set r { s r with neg := false, used := 0 })

end Verif.Mpi
