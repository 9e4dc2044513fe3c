import Verif.Model.Mpi.NumTheory
import Verif.Model.Mpi.Bin
/-!
# Model of the primality test (src/mpi/mpi_prime.c)
-/
namespace Verif.Mpi

/-- `small_primes` (src/mpi/mpi_prime.c:34-56). -/
def smallPrimes : List Nat := [
      3,    5,    7,   11,   13,   17,   19,   23,
     29,   31,   37,   41,   43,   47,   53,   59,
     61,   67,   71,   73,   79,   83,   89,   97,
    101,  103,  107,  109,  113,  127,  131,  137,
    139,  149,  151,  157,  163,  167,  173,  179,
    181,  191,  193,  197,  199,  211,  223,  227,
    229,  233,  239,  241,  251,  257,  263,  269,
    271,  277,  281,  283,  293,  307,  311,  313,
    317,  331,  337,  347,  349,  353,  359,  367,
    373,  379,  383,  389,  397,  401,  409,  419,
    421,  431,  433,  439,  443,  449,  457,  461,
    463,  467,  479,  487,  491,  499,  503,  509,
    521,  523,  541,  547,  557,  563,  569,  571,
    577,  587,  593,  599,  601,  607,  613,  617,
    619,  631,  641,  643,  647,  653,  659,  661,
    673,  677,  683,  691,  701,  709,  719,  727,
    733,  739,  743,  751,  757,  761,  769,  773,
    787,  797,  809,  811,  821,  823,  827,  829,
    839,  853,  857,  859,  863,  877,  881,  883,
    887,  907,  911,  919,  929,  937,  941,  947,
    953,  967,  971,  977,  983,  991,  997, 1009]

/-- Loop of `is_obviously_not_prime` (src/mpi/mpi_prime.c:75-87); `none` is an error.  The result object
of the reduction is the modulus object. -/
def trialLoop (w : Nat) (p : Mpi) : List Nat → Option Nat
  | [] => some 0
  | s :: ss =>
    match setInt w (s : Int) with
    | none => none
    | some m =>
      if cmp m p = 0 then some 2
      else
        match mod w .rIsB p m with
        | none => none
        | some r => if isZero r then some 1 else trialLoop w p ss

/-- Result of the primality functions; `hang` is a loop that does not end within the bound given (see
`calcLoop_zero`). -/
inductive POut where
  | err
  | ub
  | hang
  | res (b : Bool)
deriving DecidableEq

/-- The loop of `calc_b_and_m` (src/mpi/mpi_prime.c:114-119); the first argument bounds the number of
turns. -/
def calcLoop (w : Nat) : Nat → Mpi → Nat → Option (Nat × Mpi)
  | 0, _, _ => none
  | fuel + 1, m, ret =>
    if isOdd m then some (ret, m) else calcLoop w fuel (shr w m 1) (ret + 1)

/-- The test `z.used == 1 && z.data[0] == 1` (src/mpi/mpi_prime.c:156,162). -/
def isOne (z : Mpi) : Bool := z.digs.length == 1 && dig z.digs 0 == 1

/-- The loop of `passes_miller_rabin` and the final test (src/mpi/mpi_prime.c:161-187), `b - i` turns
left. -/
def mrLoop (w : Nat) (p : Mpi) : Nat → Mpi → POut
  | 0, z =>
    match add (2 ^ w) z ⟨false, [1]⟩ with
    | none => .err
    | some z => .res (cmp z p == 0)
  | i + 1, z =>
    if isOne z then .res false
    else
      match add (2 ^ w) z ⟨false, [1]⟩ with
      | none => .err
      | some tmp =>
        if cmp tmp p = 0 then .res true
        else
          match mul w false z z with
          | none => .err
          | some z =>
            match mod w .none z p with
            | none => .err
            | some z => mrLoop w p i z

/-- `passes_miller_rabin` (src/mpi/mpi_prime.c:125-190); `bs` are the bytes drawn from the generator.
The bound for `calc_b_and_m` is the bit length of `p` plus one. -/
def passesMR (w : Nat) (p : Mpi) (bs : List Byte) : POut :=
  match sub (2 ^ w) p ⟨false, [1]⟩ with
  | none => .err
  | some m =>
    match calcLoop w (countBits w p + 1) m 0 with
    | none => .hang
    | some (b, m) =>
      match randRange w false 8 p bs with
      | .err => .err
      | .ub => .ub
      | .ok a =>
        match modExp w a m (some p) with
        | none => .err
        | some z => if isOne z then .res true else mrLoop w p b z

/-- The repetition in `cry_mpi_is_prime` (src/mpi/mpi_prime.c:202-205), `n` turns left. -/
def mrRepeat (w : Nat) (p : Mpi) (draw : Nat → List Byte) : Nat → Nat → POut
  | _, 0 => .res true
  | i, n + 1 =>
    match passesMR w p (draw i) with
    | .res true => mrRepeat w p draw (i + 1) n
    | o => o

/-- `cry_mpi_is_prime` (src/mpi/mpi_prime.c:194-220): `draw i` are the bytes the generator delivers to the
`i`-th Miller-Rabin iteration. -/
def isPrime (w : Nat) (draw : Nat → List Byte) (p : Mpi) : POut :=
  match trialLoop w p smallPrimes with
  | some 0 => mrRepeat w p draw 0 5
  | some 2 => .res true
  | some 1 => .res false
  | _ => .err

end Verif.Mpi
