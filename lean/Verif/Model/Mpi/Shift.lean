import Verif.Model.Mpi.AddSubStore
/-!
# Model of the shifts and size queries (src/mpi/mpi_shl.c, mpi_shr.c, mpi_core.c)

`w` is the number of bits of a digit (`CRY_MPI_DIGIT_BITS`), the base is `2^w`.
`cry_mpi_shl(c, a, n)` and `cry_mpi_shr(c, a, n)` first copy `a` to `c` unless they are the
same object and then work in place on `c`, so the model takes the value of `a` and returns
the value of `c`.
-/
namespace Verif.Mpi

/-- `cry_mpi_shld` (src/mpi/mpi_shl.c:6-32). -/
def shld (x : Mpi) (n : Nat) : Mpi :=
  if n = 0 ∨ x.digs = [] then x
  else ⟨x.neg, List.replicate n 0 ++ x.digs⟩

/-- `f[i] = v`. -/
def upd (f : Nat → Nat) (i v : Nat) : Nat → Nat := fun j => if j = i then v else f j

/-- First loop of `cry_mpi_shld` (src/mpi/mpi_shl.c:22-25) on the digit array, in place:
`k` digits `x = n+k-1, …, n` are still to be moved up from `x - n`. -/
def shldMove (n : Nat) : Nat → (Nat → Nat) → (Nat → Nat)
  | 0, f => f
  | k + 1, f => shldMove n k (upd f (n + k) (f k))

/-- Second loop of `cry_mpi_shld` (src/mpi/mpi_shl.c:28-30): zero `k` digits from `x` on. -/
def zeroFrom : Nat → Nat → (Nat → Nat) → (Nat → Nat)
  | _, 0, f => f
  | x, k + 1, f => zeroFrom (x + 1) k (upd f x 0)

/-- `cry_mpi_shld` (src/mpi/mpi_shl.c:6-32) on an object, in place. -/
def shldObj (o : Obj) (n : Nat) : Obj :=
  if n = 0 ∨ o.used = 0 then o
  else ⟨o.neg, o.used + n, zeroFrom 0 n (shldMove n o.used o.data)⟩

/-- Bit loop of `cry_mpi_shl` (src/mpi/mpi_shl.c:69-82) with carry `r`; the final carry is
appended as a new digit when it is not zero. -/
def shlBits (w d : Nat) : List Nat → Nat → List Nat
  | [], r => if r ≠ 0 then [r] else []
  | x :: xs, r =>
    let rr := (x >>> (w - d)) &&& (1 <<< d - 1)
    (((x <<< d) % 2 ^ w) ||| r) :: shlBits w d xs rr

/-- `cry_mpi_shl` (src/mpi/mpi_shl.c:37-86). -/
def shl (w : Nat) (x : Mpi) (n : Nat) : Mpi :=
  if n = 0 ∨ x.digs = [] then x
  else
    let c := if n ≥ w then shld x (n / w) else x
    let d := n % w
    let c := if d ≠ 0 then ⟨c.neg, shlBits w d c.digs 0⟩ else c
    ⟨c.neg, adjust c.digs⟩

/-- `cry_mpi_shrd` (src/mpi/mpi_shr.c:3-28). -/
def shrd (x : Mpi) (n : Nat) : Mpi :=
  if n = 0 ∨ x.digs = [] then x
  else if x.digs.length ≤ n then ⟨false, []⟩
  else ⟨x.neg, x.digs.drop n⟩

/-- First loop of `cry_mpi_shrd` (src/mpi/mpi_shr.c:16-19) on the digit array, in place:
`k` digits are still to be moved down, the next one to position `x`. -/
def shrdMove (n : Nat) : Nat → Nat → (Nat → Nat) → (Nat → Nat)
  | _, 0, f => f
  | x, k + 1, f => shrdMove n (x + 1) k (upd f x (f (n + x)))

/-- `cry_mpi_shrd` (src/mpi/mpi_shr.c:3-28) on an object, in place. -/
def shrdObj (o : Obj) (n : Nat) : Obj :=
  if n = 0 ∨ o.used = 0 then o
  else if o.used ≤ n then ⟨false, 0, o.data⟩
  else ⟨o.neg, o.used - n, zeroFrom (o.used - n) n (shrdMove n 0 (o.used - n) o.data)⟩

/-- Bit loop of `cry_mpi_shr` (src/mpi/mpi_shr.c:57-70): from the top digit down, returns the
new digits and the carry that leaves the lowest digit processed so far. -/
def shrBits (w d : Nat) : List Nat → List Nat × Nat
  | [] => ([], 0)
  | x :: xs =>
    let (ys, r) := shrBits w d xs
    (((x >>> d) ||| ((r <<< (w - d)) % 2 ^ w)) :: ys, x &&& (1 <<< d - 1))

/-- `cry_mpi_shr` (src/mpi/mpi_shr.c:33-74). -/
def shr (w : Nat) (x : Mpi) (n : Nat) : Mpi :=
  if n = 0 ∨ x.digs = [] then x
  else
    let c := if n ≥ w then shrd x (n / w) else x
    let d := n % w
    let c := if d ≠ 0 then ⟨c.neg, (shrBits w d c.digs).1⟩ else c
    ⟨c.neg, adjust c.digs⟩

/-- The table `bits` of `digit_bits` (src/mpi/mpi_core.c:173-190). -/
def bitsTable : List Nat :=
  [0, 1, 2, 2, 3, 3, 3, 3, 4, 4, 4, 4, 4, 4, 4, 4,
   5, 5, 5, 5, 5, 5, 5, 5, 5, 5, 5, 5, 5, 5, 5, 5,
   6, 6, 6, 6, 6, 6, 6, 6, 6, 6, 6, 6, 6, 6, 6, 6,
   6, 6, 6, 6, 6, 6, 6, 6, 6, 6, 6, 6, 6, 6, 6, 6,
   7, 7, 7, 7, 7, 7, 7, 7, 7, 7, 7, 7, 7, 7, 7, 7,
   7, 7, 7, 7, 7, 7, 7, 7, 7, 7, 7, 7, 7, 7, 7, 7,
   7, 7, 7, 7, 7, 7, 7, 7, 7, 7, 7, 7, 7, 7, 7, 7,
   7, 7, 7, 7, 7, 7, 7, 7, 7, 7, 7, 7, 7, 7, 7, 7,
   8, 8, 8, 8, 8, 8, 8, 8, 8, 8, 8, 8, 8, 8, 8, 8,
   8, 8, 8, 8, 8, 8, 8, 8, 8, 8, 8, 8, 8, 8, 8, 8,
   8, 8, 8, 8, 8, 8, 8, 8, 8, 8, 8, 8, 8, 8, 8, 8,
   8, 8, 8, 8, 8, 8, 8, 8, 8, 8, 8, 8, 8, 8, 8, 8,
   8, 8, 8, 8, 8, 8, 8, 8, 8, 8, 8, 8, 8, 8, 8, 8,
   8, 8, 8, 8, 8, 8, 8, 8, 8, 8, 8, 8, 8, 8, 8, 8,
   8, 8, 8, 8, 8, 8, 8, 8, 8, 8, 8, 8, 8, 8, 8, 8,
   8, 8, 8, 8, 8, 8, 8, 8, 8, 8, 8, 8, 8, 8, 8, 8]

/-- `bits[i]`; an index of 256 or more would be out of bounds in C and is proved not to
happen (`digitBits_spec`). -/
def bitsAt (i : Nat) : Nat := bitsTable.getD i 0

/-- `digit_bits` (src/mpi/mpi_core.c:171-220); the preprocessor conditions on the digit size
are tests on `w`. -/
def digitBits (w d : Nat) : Nat :=
  if w = 64 ∧ d &&& 0xFFFFFFFF00000000 ≠ 0 then
    if d &&& 0xFFFF000000000000 ≠ 0 then
      if d &&& 0xFF00000000000000 ≠ 0 then bitsAt (d >>> 56) + 56
      else bitsAt (d >>> 48) + 48
    else
      if d &&& 0x0000FF0000000000 ≠ 0 then bitsAt (d >>> 40) + 40
      else bitsAt (d >>> 32) + 32
  else if w ≥ 32 ∧ d &&& 0xFFFF0000 ≠ 0 then
    if d &&& 0xFF000000 ≠ 0 then bitsAt (d >>> 24) + 24
    else bitsAt (d >>> 16) + 16
  else if w ≥ 16 ∧ d &&& 0xFF00 ≠ 0 then bitsAt (d >>> 8) + 8
  else bitsAt d

/-- `cry_mpi_count_bits` (src/mpi/mpi_core.c:226-233). -/
def countBits (w : Nat) (x : Mpi) : Nat :=
  match x.digs.getLast? with
  | none => 0
  | some top => (x.digs.length - 1) * w + digitBits w top

/-- `cry_mpi_count_bytes` (include/cry/mpi.h:178-179). -/
def countBytes (w : Nat) (x : Mpi) : Nat := (countBits w x + 7) / 8

/-- `cry_mpi_is_zero` (include/cry/mpi.h:187-188). -/
def isZero (x : Mpi) : Bool := x.digs.length == 0

/-- `cry_mpi_is_odd` (include/cry/mpi.h:190-191); the digit is read only when there is one. -/
def isOdd (x : Mpi) : Bool :=
  match x.digs with
  | [] => false
  | d :: _ => d &&& 1 != 0

/-- `cry_mpi_is_even` (include/cry/mpi.h:193-194). -/
def isEven (x : Mpi) : Bool := !isOdd x

end Verif.Mpi
