import Verif.Model.Mpi.Prime
/-!
# Model of prime number generation (src/mpi/mpi_prime.c:229-268)
-/
namespace Verif.Mpi

/-- `cry_mpi_set_bit` (src/mpi/mpi_pvt.h:66-68): the digit is modified in place; a digit beyond `used` does not belong to
the value. -/
def setBit (w : Nat) (x : Mpi) (bit : Nat) : Mpi :=
  { x with digs := x.digs.set (bit / w) (dig x.digs (bit / w) ||| 1 <<< (bit % w)) }

/-- One candidate of `cry_mpi_prime` (src/mpi/mpi_prime.c:241-254).  The digits written by `cry_mpi_set_bit` have been
written by `cry_mpi_rand` before, or have a smaller index, so that an access outside the object is found there. -/
def primeCand (w : Nat) (old : Bool) (alloc bits : Nat) (bs : List Byte) : RandOut :=
  match rand w old alloc bits bs with
  | .ok x => .ok (setBit w (setBit w (setBit w x 0) (bits - 1)) (bits - 2))
  | o => o

/-- The bytes delivered by the generator during one turn: those of the candidate, and those of each Miller-Rabin
iteration. -/
structure PrimeDraw where
  bytes : List Byte
  mr : Nat → List Byte

/-- Result of `cry_mpi_prime`: undefined behaviour, no end (see `POut`), or the status, the number left in the object and
the number stored in `*iter`. -/
inductive GenOut where
  | ub
  | hang
  | ok (res : Int) (p : Mpi) (iter : Nat)
deriving DecidableEq

/-- The loop of `cry_mpi_prime` and the test after it (src/mpi/mpi_prime.c:238-267), `n` turns left after `i`; `alloc`
and `p` are the digits allocated for the object and its value. -/
def primeLoop (w bits : Nat) (draw : Nat → PrimeDraw) : Nat → Nat → Nat → Mpi → GenOut
  | 0, i, _, p => .ok (-1) p i
  | n + 1, i, alloc, p =>
    match primeCand w p.neg alloc bits (draw i).bytes with
    | .ub => .ub
    | .err => .ok (-1) p (i + 1)
    | .ok c =>
      match isPrime w (draw i).mr c with
      | .ub => .ub
      | .hang => .hang
      | .err => .ok (-1) c (i + 1)
      | .res true => .ok (if n = 0 then -1 else 0) c (i + 1)
      | .res false => primeLoop w bits draw n (i + 1) (grow alloc c.digs.length) c

/-- `cry_mpi_prime` (src/mpi/mpi_prime.c:229-268) on the object `old` with `alloc` digits; `itermax` is `*iter`, or 5000
when `iter` is NULL. -/
def prime (w : Nat) (old : Mpi) (alloc bits itermax : Nat) (draw : Nat → PrimeDraw) : GenOut :=
  if bits &&& 7 ≠ 0 ∨ bits = 0 then .ok (-1) old itermax
  else primeLoop w bits draw itermax 0 alloc old

end Verif.Mpi
