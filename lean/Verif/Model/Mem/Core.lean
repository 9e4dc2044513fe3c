import Verif.Model.Mpi.Mul
/-!
# Multi-precision integers in memory

The value-level models in `Model/Mpi` say what number a function computes; memory allocation always
succeeds there and most arrays are lists without a capacity.  Here the same C functions are modelled on
memory: structs with all their members, digit arrays with a capacity and with digits that may not have been
written yet, objects that may coincide, and `malloc`/`realloc` calls any of which may fail.

Accesses outside an array, reads of digits or members that were never written, `realloc` and `free` of
memory that does not come from the allocator are undefined behaviour (`Out.ub`).

Simplifications:
* A digit array belongs to exactly one struct, so it is stored inside it.  The code never copies a struct
  except by `cry_mpi_swap`.
* `size_t` does not overflow (sizes are natural numbers); an object size that cannot be represented is a
  failing allocation.
* A pointer into an array is an index; forming a pointer outside the array without using it is not counted.
* The members `sign`, `used`, `alloc` are written together or not at all as far as "indeterminate" goes:
  the only functions that leave them unwritten are `cry_mpi_init` and `cry_mpi_init_size` when they fail.
-/
namespace Verif.Mem
open Verif.Mpi (Mpi)

/-- What the member `data` of a `cry_mpi` points to. -/
inductive Data where
  /-- never written -/
  | indet
  /-- `NULL` -/
  | null
  /-- an array of digits, from the allocator (`heap`) or static / automatic storage; `none` is a digit that
  was never written -/
  | mem (heap : Bool) (cells : List (Option Nat))
  deriving DecidableEq, Repr

/-- The members `sign`, `used` and `alloc` (include/cry/mpi.h:57-61). -/
structure Hdr where
  neg : Bool
  used : Nat
  alloc : Nat
  deriving DecidableEq, Repr

/-- A `cry_mpi` (include/cry/mpi.h:57-62); `hdr = none` if the members were never written. -/
structure Obj where
  hdr : Option Hdr
  data : Data
  deriving DecidableEq, Repr

/-- An automatic variable before anything is written to it. -/
def Obj.fresh : Obj := ⟨none, .indet⟩

/-- The memory: structs by address, and the allocator: `fails k` tells whether the `k`-th allocation
request fails, `tick` requests were made so far, `live` blocks are allocated and not freed. -/
structure St where
  obj : Nat → Obj
  fails : Nat → Bool
  tick : Nat
  live : Int

/-- Outcome of running a piece of C: it returns, its behaviour is undefined, or it does not return within
the number of loop iterations granted. -/
inductive Out (α : Type) where
  | ok (a : α)
  | ub
  | hang
  deriving DecidableEq, Repr

/-- A computation on memory. -/
def M (α : Type) := St → Out (α × St)

instance : Monad M where
  pure a := fun s => .ok (a, s)
  bind c f := fun s =>
    match c s with
    | .ok (a, s') => f a s'
    | .ub => .ub
    | .hang => .hang

/-- Undefined behaviour. -/
def ub {α : Type} : M α := fun _ => .ub
/-- Loop bound exceeded. -/
def hang {α : Type} : M α := fun _ => .hang

/-- Replace one struct. -/
def St.set (s : St) (v : Nat) (o : Obj) : St := { s with obj := fun p => if p = v then o else s.obj p }

/-- Read a whole struct. -/
def getObj (v : Nat) : M Obj := fun s => .ok (s.obj v, s)
/-- Write a whole struct. -/
def setObj (v : Nat) (o : Obj) : M Unit := fun s => .ok ((), s.set v o)

/-- Read the members `sign`, `used`, `alloc`. -/
def hdr (v : Nat) : M Hdr := do
  match (← getObj v).hdr with
  | some h => pure h
  | none => ub

/-- Write the members `sign`, `used`, `alloc`. -/
def setHdr (v : Nat) (h : Hdr) : M Unit := do
  let o ← getObj v
  setObj v { o with hdr := some h }

/-- `v->used = n`. -/
def setUsed (v n : Nat) : M Unit := do let h ← hdr v; setHdr v { h with used := n }
/-- `v->sign = g`. -/
def setSign (v : Nat) (g : Bool) : M Unit := do let h ← hdr v; setHdr v { h with neg := g }

/-- The value of `v->data[i]`. -/
def rd (v i : Nat) : M Nat := do
  match (← getObj v).data with
  | .mem _ cells =>
    match cells[i]? with
    | some (some d) => pure d
    | _ => ub
  | _ => ub

/-- `v->data[i] = d`. -/
def wr (v i d : Nat) : M Unit := do
  let o ← getObj v
  match o.data with
  | .mem h cells => if i < cells.length then setObj v { o with data := .mem h (cells.set i (some d)) } else ub
  | _ => ub

/-- One request to the allocator: true if it succeeds; `d` is the change in the number of blocks then. -/
def request (d : Int) : M Bool := fun s =>
  if s.fails s.tick then .ok (false, { s with tick := s.tick + 1 })
  else .ok (true, { s with tick := s.tick + 1, live := s.live + d })

/-- Automatic variables `sp, …, sp + k - 1` of a function come into being. -/
def decl (sp k : Nat) : M Unit := fun s =>
  .ok ((), { s with obj := fun p => if sp ≤ p ∧ p < sp + k then Obj.fresh else s.obj p })

/-- `if ((res = c) != 0) return res;` / `goto cleanup`, then `k`. -/
def chk (c : M Int) (k : M Int) : M Int := do
  let st ← c
  if st ≠ 0 then pure st else k

/-! ### src/mpi/mpi_core.c -/

/-- `CRY_MPI_QUANTUM` (src/mpi/mpi_pvt.h:32-39). -/
def quantum : Nat := 8

/-- `cry_mpi_grow` (src/mpi/mpi_core.c:5-24). -/
def grow (a digs : Nat) : M Int := do
  let h ← hdr a
  if digs ≤ h.alloc then pure 0
  else
    let digs := digs + (quantum * 2 - digs % quantum)
    let o ← getObj a
    match o.data with
    | .indet => ub
    | .null =>
      if ← request 1 then
        setObj a ⟨some { h with alloc := digs }, .mem true (List.replicate digs none)⟩
        pure 0
      else pure (-1)
    | .mem false _ => ub
    | .mem true cells =>
      if ← request 0 then
        setObj a ⟨some { h with alloc := digs }, .mem true (cells.take digs ++ List.replicate (digs - cells.length) none)⟩
        pure 0
      else pure (-1)

/-- `cry_mpi_init_size` (src/mpi/mpi_core.c:44-57). -/
def initSize (a size : Nat) : M Int := do
  if size ≠ 0 then
    if ← request 1 then
      setObj a ⟨some ⟨false, 0, size⟩, .mem true (List.replicate size none)⟩
      pure 0
    else
      let o ← getObj a
      setObj a { o with data := .null }
      pure (-1)
  else
    setObj a ⟨some ⟨false, 0, 0⟩, .null⟩
    pure 0

/-- `cry_mpi_init` (src/mpi/mpi_core.c:26-39). -/
def init (a : Nat) : M Int := do
  if ← request 1 then
    setObj a ⟨some ⟨false, 0, quantum⟩, .mem true (List.replicate quantum none)⟩
    pure 0
  else
    let o ← getObj a
    setObj a { o with data := .null }
    pure (-1)

/-- `cry_mpi_clear` (src/mpi/mpi_core.c:121-132). -/
def clear (a : Nat) : M Unit := do
  let o ← getObj a
  match o.data with
  | .indet => ub
  | .null => setObj a ⟨some ⟨false, 0, 0⟩, .null⟩
  | .mem heap _ =>
    let h ← hdr a
    if h.alloc ≠ 0 then
      if heap then
        fun s => .ok ((), { s with live := s.live - 1 })
      else ub
    setObj a ⟨some ⟨false, 0, 0⟩, .null⟩

/-- `cry_mpi_swap` (include/cry/mpi.h:181-185). -/
def swap (a b : Nat) : M Unit := do
  let x ← getObj a
  let y ← getObj b
  setObj a y
  setObj b x

/-- `cry_mpi_zero` (include/cry/mpi.h:204-207). -/
def zero (a : Nat) : M Unit := do
  let h ← hdr a
  setHdr a { h with neg := false, used := 0 }

/-- The copy loop of `cry_mpi_copy` (src/mpi/mpi_core.c:150-151), of `cry_mpi_add_abs`
(src/mpi/mpi_add_abs.c:44-45) and of `cry_mpi_sub_abs` (src/mpi/mpi_sub_abs.c:43-44): `n` digits from `i` on. -/
def copyLoop (d x : Nat) : Nat → Nat → M Unit
  | 0, _ => pure ()
  | n + 1, i => do
    wr d i (← rd x i)
    copyLoop d x n (i + 1)

/-- `cry_mpi_copy` (src/mpi/mpi_core.c:134-155).
Simplification: the loop index is an `unsigned int` in C, here it does not wrap. -/
def copy (d x : Nat) : M Int := do
  if d = x then pure 0
  else
    let hd ← hdr d
    let hx ← hdr x
    chk (if hd.alloc < hx.used then grow d hx.used else pure 0) do
      copyLoop d x hx.used 0
      setUsed d hx.used
      setSign d hx.neg
      pure 0

/-- `cry_mpi_init_copy` (src/mpi/mpi_core.c:157-166). -/
def initCopy (d x : Nat) : M Int := do
  chk (init d) do
    let st ← copy d x
    if st ≠ 0 then
      clear d
      pure st
    else pure 0

/-- `cry_mpi_abs` (src/mpi/mpi_abs.c:3-13). -/
def abs (d x : Nat) : M Int := do
  chk (if d ≠ x then copy d x else pure 0) do
    setSign d false
    pure 0

/-- Digit loop of `cry_mpi_set_int` (src/mpi/mpi_core.c:92-97): `n` digits at most are left, `i` is `a->used`.
For digits as wide as `long` the value is not shifted, but the loop stops after one digit. -/
def setIntLoop (w a : Nat) : Nat → Nat → Nat → M Unit
  | 0, _, _ => pure ()
  | n + 1, i, u =>
    if u ≠ 0 then do
      wr a i (u % 2 ^ w)
      setUsed a (i + 1)
      setIntLoop w a n (i + 1) (u / 2 ^ w)
    else pure ()

/-- `cry_mpi_set_int` (src/mpi/mpi_core.c:73-99) for a `long` of 64 bits.
`-val` overflows for `LONG_MIN`. -/
def setInt (w a : Nat) (v : Int) : M Int := do
  let used := (8 * 8 - 1) / w + 1
  chk (grow a used) do
    if v = -2 ^ 63 then ub
    else do
      setSign a (decide (v < 0))
      setUsed a 0
      setIntLoop w a used 0 v.natAbs
      pure 0

/-- `cry_mpi_init_int` (src/mpi/mpi_core.c:62-71). -/
def initInt (w a : Nat) (v : Int) : M Int := do
  chk (init a) do
    let st ← setInt w a v
    if st < 0 then
      clear a
      pure st
    else pure st

/-- `cry_mpi_clear_list` (src/mpi/mpi_list.c:17-24, src/misc.c:59-68). -/
def clearList : List Nat → M Unit
  | [] => pure ()
  | a :: as => do clear a; clearList as

/-- Loop of `cry_list_init` (src/misc.c:31-57); `done` are the objects initialised so far, in order. -/
def initListLoop (done : List Nat) : List Nat → M Int
  | [] => pure 0
  | a :: as => do
    let st ← init a
    if st = 0 then initListLoop (done ++ [a]) as
    else
      clearList done
      pure st

/-- `cry_mpi_init_list` (src/mpi/mpi_list.c:4-14). -/
def initList (as : List Nat) : M Int := initListLoop [] as

/-- `cry_mpi_adjust` (src/mpi/mpi_pvt.h:56-59); `n` is `a->used`. -/
def adjustLoop (a : Nat) : Nat → M Unit
  | 0 => pure ()
  | n + 1 => do
    if (← rd a n) = 0 then
      setUsed a n
      adjustLoop a n
    else pure ()

/-- `cry_mpi_adjust` (src/mpi/mpi_pvt.h:56-59). -/
def adjust (a : Nat) : M Unit := do adjustLoop a (← hdr a).used

/-- `n` digits from `i` on become zero (`memset` of `cry_mpi_set_used`, src/mpi/mpi_pvt.h:61-64, and the zeroing
loops of src/mpi/mpi_shl.c:28-30 and src/mpi/mpi_shr.c:22-23). -/
def zeroLoop (a : Nat) : Nat → Nat → M Unit
  | 0, _ => pure ()
  | n + 1, i => do
    wr a i 0
    zeroLoop a n (i + 1)

/-- `cry_mpi_set_used` (src/mpi/mpi_pvt.h:61-64). -/
def setUsedZ (a n : Nat) : M Unit := do
  setUsed a n
  zeroLoop a n 0

/-- `cry_mpi_count_bits` (src/mpi/mpi_core.c:226-233). -/
def countBits (w a : Nat) : M Nat := do
  let h ← hdr a
  if h.used ≠ 0 then
    let d ← rd a (h.used - 1)
    pure ((h.used - 1) * w + Mpi.digitBits w d)
  else pure 0

/-! ### Comparison, addition, subtraction -/

/-- Scan of `cry_mpi_cmp_abs` (src/mpi/mpi_cmp_abs.c:16-26), `n` digits are left. -/
def cmpLoop (x y : Nat) : Nat → M Int
  | 0 => pure 0
  | n + 1 => do
    let p ← rd x n
    let q ← rd y n
    if p < q then pure (-1)
    else if p > q then pure 1
    else cmpLoop x y n

/-- `cry_mpi_cmp_abs` (src/mpi/mpi_cmp_abs.c:6-28). -/
def cmpAbs (x y : Nat) : M Int := do
  let hx ← hdr x
  let hy ← hdr y
  if hx.used < hy.used then pure (-1)
  else if hx.used > hy.used then pure 1
  else cmpLoop x y hx.used

/-- `cry_mpi_cmp` (src/mpi/mpi_cmp.c:6-20). -/
def cmp (x y : Nat) : M Int := do
  let hx ← hdr x
  let hy ← hdr y
  if hx.neg = true ∧ hy.neg = false then pure (-1)
  else if hx.neg = false ∧ hy.neg = true then pure 1
  else
    let r ← cmpAbs x y
    pure (if hx.neg then -r else r)

/-- Second loop of `cry_mpi_add_abs` and what follows (src/mpi/mpi_add_abs.c:36-46). -/
def carryLoop (b r x : Nat) : Nat → Nat → Nat → M Unit
  | 0, i, c =>
    if c ≠ 0 then do
      wr r i 1
      setUsed r ((← hdr r).used + 1)
    else pure ()
  | n + 1, i, c =>
    if c ≠ 0 then do
      let d := ((← rd x i) + 1) % b
      wr r i d
      carryLoop b r x n (i + 1) (if d = 0 then 1 else 0)
    else copyLoop r x (n + 1) i

/-- First loop of `cry_mpi_add_abs` (src/mpi/mpi_add_abs.c:28-34) and what follows. -/
def addLoop (b r x y m : Nat) : Nat → Nat → Nat → M Unit
  | 0, i, c => carryLoop b r x m i c
  | n + 1, i, c => do
    let t := ((← rd x i) + c) % b
    let c1 := if t < c then 1 else 0
    let l := (t + (← rd y i)) % b
    let c2 := c1 + (if l < t then 1 else 0)
    wr r i l
    addLoop b r x y m n (i + 1) c2

/-- `cry_mpi_add_abs` after the operands were ordered by length (src/mpi/mpi_add_abs.c:13-47). -/
def addAbsOrd (b r x y : Nat) : M Int := do
  let max := (← hdr x).used
  let min := (← hdr y).used
  let h ← hdr r
  chk (if h.alloc < max + 1 then do
        let st ← grow r (max + 1)
        pure (if st ≠ 0 then -1 else 0)
      else pure 0) do
    setUsed r max
    setSign r false
    addLoop b r x y (max - min) min 0 0
    pure 0

/-- `cry_mpi_add_abs` (src/mpi/mpi_add_abs.c:3-48). -/
def addAbs (b r x y : Nat) : M Int := do
  if (← hdr x).used < (← hdr y).used then addAbsOrd b r y x else addAbsOrd b r x y

/-- Borrow loop of `cry_mpi_sub_abs` and the copy loop (src/mpi/mpi_sub_abs.c:37-44); the result is the last
borrow, tested in line 41. -/
def borrowLoop (b r x : Nat) : Nat → Nat → Nat → M Nat
  | 0, _, c => pure c
  | n + 1, i, c =>
    if c ≠ 0 then do
      let d ← rd x i
      wr r i ((d + b - 1) % b)
      borrowLoop b r x n (i + 1) (if d = 0 then 1 else 0)
    else do
      copyLoop r x (n + 1) i
      pure 0

/-- First loop of `cry_mpi_sub_abs` (src/mpi/mpi_sub_abs.c:25-31) and what follows. -/
def subLoop (b r x y m : Nat) : Nat → Nat → Nat → M Nat
  | 0, i, c => borrowLoop b r x m i c
  | n + 1, i, c => do
    let t1 ← rd x i
    let t2 ← rd y i
    wr r i ((t1 + 2 * b - t2 - c) % b)
    subLoop b r x y m n (i + 1) (if t1 ≠ t2 then (if t1 < t2 then 1 else 0) else c)

/-- `cry_mpi_sub_abs` (src/mpi/mpi_sub_abs.c:3-47). -/
def subAbs (b r x y : Nat) : M Int := do
  if (← cmpAbs x y) < 0 then pure (-1)
  else
    let max := (← hdr x).used
    let min := (← hdr y).used
    let h ← hdr r
    chk (if h.alloc < max then do
          let st ← grow r max
          pure (if st ≠ 0 then -1 else 0)
        else pure 0) do
      setUsed r max
      setSign r false
      let c ← subLoop b r x y (max - min) min 0 0
      if c ≠ 0 then pure (-1)
      else
        adjust r
        pure 0

/-- `if (ret == 0) r->sign = rsign; return ret;` -/
def signed (c : M Int) (r : Nat) (g : Bool) : M Int := do
  let st ← c
  if st = 0 then setSign r g
  pure st

/-- `cry_mpi_add` (src/mpi/mpi_add.c:3-34). -/
def add (b r x y : Nat) : M Int := do
  let hx ← hdr x
  let hy ← hdr y
  if hx.neg = hy.neg then signed (addAbs b r x y) r hx.neg
  else
    let k ← cmpAbs x y
    if k = 1 then signed (subAbs b r x y) r hx.neg
    else if k = -1 then signed (subAbs b r y x) r hy.neg
    else signed (do zero r; pure 0) r false

/-- `cry_mpi_sub` (src/mpi/mpi_sub.c:6-33). -/
def sub (b r x y : Nat) : M Int := do
  let hx ← hdr x
  let hy ← hdr y
  if hx.neg ≠ hy.neg then signed (addAbs b r x y) r hx.neg
  else
    let k ← cmpAbs x y
    if k = 1 then signed (subAbs b r x y) r hx.neg
    else if k = -1 then signed (subAbs b r y x) r (!hy.neg)
    else signed (do zero r; pure 0) r false

/-! ### Shifts -/

/-- First loop of `cry_mpi_shld` (src/mpi/mpi_shl.c:22-25): `k` digits are still to be moved up by `n`, from the top.
The loop condition `x >= n` with `x` counting down from `used + n - 1` makes `used` turns. -/
def shldLoop (a n : Nat) : Nat → M Unit
  | 0 => pure ()
  | k + 1 => do
    wr a (n + k) (← rd a k)
    shldLoop a n k

/-- `cry_mpi_shld` (src/mpi/mpi_shl.c:6-32). -/
def shld (a n : Nat) : M Int := do
  let h ← hdr a
  if n = 0 ∨ h.used = 0 then pure 0
  else
    chk (if h.alloc < h.used + n then grow a (h.used + n) else pure 0) do
      setUsed a (h.used + n)
      shldLoop a n h.used
      zeroLoop a n 0
      pure 0

/-- Bit loop of `cry_mpi_shl` (src/mpi/mpi_shl.c:73-78): `n` digits from `i` on, the result is the carry. -/
def shlLoop (w d c : Nat) : Nat → Nat → Nat → M Nat
  | 0, _, r => pure r
  | n + 1, i, r => do
    let x ← rd c i
    wr c i (((x <<< d) % 2 ^ w) ||| r)
    shlLoop w d c n (i + 1) ((x >>> (w - d)) &&& (1 <<< d - 1))

/-- Shift by `d` bits (src/mpi/mpi_shl.c:63-83). -/
def shlBits (w d c : Nat) : M Unit := do
  let used := (← hdr c).used
  let r ← shlLoop w d c used 0 0
  if r ≠ 0 then
    wr c used r
    setUsed c (used + 1)

/-- `cry_mpi_shl` (src/mpi/mpi_shl.c:37-86). -/
def shl (w c a n : Nat) : M Int := do
  chk (if a ≠ c then copy c a else pure 0) do
    let ha ← hdr a
    if n = 0 ∨ ha.used = 0 then pure 0
    else
      let hc ← hdr c
      chk (if hc.alloc < hc.used + n / w + 1 then grow c (hc.used + n / w + 1) else pure 0) <|
      chk (if n ≥ w then shld c (n / w) else pure 0) do
        if n % w ≠ 0 then shlBits w (n % w) c
        adjust c
        pure 0

/-- First loop of `cry_mpi_shrd` (src/mpi/mpi_shr.c:16-19): `k` digits are still to be moved down, the next to
position `x`. -/
def shrdLoop (a n : Nat) : Nat → Nat → M Unit
  | 0, _ => pure ()
  | k + 1, x => do
    wr a x (← rd a (n + x))
    shrdLoop a n k (x + 1)

/-- `cry_mpi_shrd` (src/mpi/mpi_shr.c:3-28). -/
def shrd (a n : Nat) : M Int := do
  let h ← hdr a
  if n = 0 ∨ h.used = 0 then pure 0
  else if h.used ≤ n then do
    zero a
    pure 0
  else
    shrdLoop a n (h.used - n) 0
    zeroLoop a n (h.used - n)
    setUsed a (h.used - n)
    pure 0

/-- Bit loop of `cry_mpi_shr` (src/mpi/mpi_shr.c:62-70): `n` digits are left, from the top down. -/
def shrLoop (w d c : Nat) : Nat → Nat → M Unit
  | 0, _ => pure ()
  | n + 1, r => do
    let x ← rd c n
    wr c n ((x >>> d) ||| ((r <<< (w - d)) % 2 ^ w))
    shrLoop w d c n (x &&& (1 <<< d - 1))

/-- `cry_mpi_shr` (src/mpi/mpi_shr.c:33-74); the result of `cry_mpi_shrd` is not looked at. -/
def shr (w c a n : Nat) : M Int := do
  chk (if a ≠ c then copy c a else pure 0) do
    let ha ← hdr a
    if n = 0 ∨ ha.used = 0 then pure 0
    else
      if n ≥ w then
        let _ ← shrd c (n / w)
      if n % w ≠ 0 then shrLoop w (n % w) c (← hdr c).used 0
      adjust c
      pure 0

end Verif.Mem
