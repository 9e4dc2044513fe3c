/-!
# What a multi-precision integer denotes

A number is a sign flag and a little-endian list of digits in base `b`.  This file is the
specification side: it does not use any model function.
-/
namespace Verif.Mpi

/-- Value of a little-endian digit list in base `b`. -/
def val (b : Nat) : List Nat → Nat
  | [] => 0
  | d :: ds => d + b * val b ds

/-- Model of the struct `cry_mpi` (include/cry/mpi.h:57-62): `neg` is the `sign` member,
`digs` is `data[0 .. used-1]`.  Simplification: `alloc` and the digits beyond `used` are not
part of the value (functions that depend on them are modelled on arrays separately). -/
structure Mpi where
  neg : Bool
  digs : List Nat
  deriving DecidableEq, Repr

/-- The integer a `cry_mpi` stands for. -/
def Mpi.toInt (b : Nat) (x : Mpi) : Int :=
  if x.neg then -(val b x.digs : Int) else (val b x.digs : Int)

/-- Every digit is a digit. -/
def Digits (b : Nat) (ds : List Nat) : Prop := ∀ d ∈ ds, d < b

/-- The top digit, if there is one, is not zero. -/
def TopNZ (ds : List Nat) : Prop := ds.getLast? ≠ some 0

/-- Normalised: proper digits, no leading zero digit.  A "negative zero" is allowed. -/
structure Norm (b : Nat) (x : Mpi) : Prop where
  digits : Digits b x.digs
  top : TopNZ x.digs

/-- Well-formed: normalised and zero is not negative.  This is the state every number is in
after `cry_mpi_init`, and it makes the representation of an integer unique. -/
structure WF (b : Nat) (x : Mpi) : Prop extends Norm b x where
  zero_nonneg : x.digs = [] → x.neg = false

end Verif.Mpi
