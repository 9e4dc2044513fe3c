import Verif.Model.Mem.Pk
import Verif.Model.Mpi.PrimeGen
/-!
# The primality test and the generation of primes in memory (src/mpi/mpi_prime.c)

The bytes of the generator are parameters, as in `Model/Mem/Pk`.
-/
namespace Verif.Mem

/-- `cry_mpi_is_odd` (include/cry/mpi.h:190-191). -/
def isOdd (a : Nat) : M Bool := do
  let h ← hdr a
  if h.used = 0 then pure false
  else do
    let d ← rd a 0
    pure (d &&& 1 != 0)

/-- The test `z.used == 1 && z.data[0] == 1` (src/mpi/mpi_prime.c:156,162). -/
def absOne (z : Nat) : M Bool := do
  let h ← hdr z
  if h.used = 1 then do
    let d ← rd z 0
    pure (d == 1)
  else pure false

/-- The loop of `is_obviously_not_prime` (src/mpi/mpi_prime.c:75-87) on the local `m`; functions called have their locals from
`sp` on. -/
def trialLoop (w sp m p : Nat) : List Nat → M Int
  | [] => pure 0
  | q :: qs => chk (setInt w m (q : Int)) do
    let c ← cmp m p
    if c = 0 then pure 2
    else do
      let st ← mod w sp m p m
      if st < 0 then pure st
      else do
        let h ← hdr m
        if h.used = 0 then pure 1 else trialLoop w sp m p qs

/-- `is_obviously_not_prime` (src/mpi/mpi_prime.c:66-90), `m` at `sp`. -/
def trial (w sp p : Nat) : M Int := do
  decl sp 1
  chk (init sp) do
    let st ← trialLoop w (sp + 1) sp p Mpi.smallPrimes
    clear sp
    pure st

/-- The loop of `calc_b_and_m` (src/mpi/mpi_prime.c:114-120); the first argument bounds the number of turns.  Simplification: `ret`
is not bounded by `INT_MAX` (2^31 divisions by two need a number of as many bits). -/
def halveLoop (w m : Nat) : Nat → Nat → M Int
  | 0, _ => hang
  | fuel + 1, ret => do
    if ← isOdd m then pure (ret : Int)
    else do
      let st ← shr w m m 1
      if st < 0 then pure (-1) else halveLoop w m fuel (ret + 1)

/-- `calc_b_and_m` (src/mpi/mpi_prime.c:97-121), the constant `one` at `sp`. -/
def calcBM (w sp fuel m p : Nat) : M Int := do
  decl sp 1
  setObj sp ⟨some ⟨false, 1, 1⟩, .mem false [some 1]⟩
  chk (copy m p) <|
    chk (sub (2 ^ w) m m sp) (halveLoop w m fuel 0)

/-- The loop of `passes_miller_rabin` and the test after it (src/mpi/mpi_prime.c:161-187), `b - i` turns left; `one`, `z` and `tmp`
are given by their addresses. -/
def mrLoop (w sp p one z t : Nat) : Nat → M Int
  | 0 => chk (add (2 ^ w) z z one) do
    let c ← cmp z p
    pure (if c = 0 then 1 else 0)
  | i + 1 => do
    if ← absOne z then pure 0
    else
      chk (copy t z) <|
      chk (add (2 ^ w) t t one) do
        let c ← cmp t p
        if c = 0 then pure 1
        else
          chk (mul w sp z z z) <|
          chk (mod w sp z z p) (mrLoop w sp p one z t i)

/-- `passes_miller_rabin` (src/mpi/mpi_prime.c:125-190); `one` at `sp`, `a`, `m`, `z`, `tmp` from `sp + 1` on.  The constant is
written before the other locals are initialised, in the code afterwards. -/
def passesMR (w sp fuel p : Nat) (bs : List Byte) : M Int := do
  decl sp 5
  setObj sp ⟨some ⟨false, 1, 1⟩, .mem false [some 1]⟩
  chk (initList [sp + 1, sp + 2, sp + 3, sp + 4]) do
    let st ← (do
      let b ← calcBM w (sp + 5) fuel (sp + 2) p
      if b < 0 then pure (-1)
      else
        chk (randRange w (sp + 5) (sp + 1) p bs) <|
        chk (modExp w (sp + 5) (sp + 3) (sp + 1) (sp + 2) (some p)) do
          if ← absOne (sp + 3) then pure 1
          else mrLoop w (sp + 5) p sp (sp + 3) (sp + 4) b.toNat)
    clearList [sp + 1, sp + 2, sp + 3, sp + 4]
    pure st

/-- The repetition in `cry_mpi_is_prime` (src/mpi/mpi_prime.c:202-205): the bytes of the turns that are left, and `res`. -/
def mrRepeat (w sp fuel p : Nat) : List (List Byte) → Int → M Int
  | [], res => pure res
  | bs :: bss, _ => do
    let res ← passesMR w sp fuel p bs
    if res ≤ 0 then pure res else mrRepeat w sp fuel p bss res

/-- `cry_mpi_is_prime` (src/mpi/mpi_prime.c:194-220); `draw i` are the bytes delivered to the `i`-th of the five turns. -/
def isPrime (w sp fuel p : Nat) (draw : Nat → List Byte) : M Int := do
  let res ← trial w sp p
  if res = 0 then mrRepeat w sp fuel p [draw 0, draw 1, draw 2, draw 3, draw 4] res
  else if res = 2 then pure 1
  else if res = 1 then pure 0
  else pure (-1)

/-- `cry_mpi_set_bit` (src/mpi/mpi_pvt.h:66-68). -/
def setBit (w a bit : Nat) : M Unit := do
  let d ← rd a (bit / w)
  wr a (bit / w) (d ||| 1 <<< (bit % w))

/-- The loop of `cry_mpi_prime` (src/mpi/mpi_prime.c:239-262), `n` turns left after `i`, `res` from the turn before; the results are
`res` and `i`. -/
def primeLoop (w sp fuel p bits : Nat) (draw : Nat → Mpi.PrimeDraw) : Nat → Nat → Int → M (Int × Nat)
  | 0, i, res => pure (res, i)
  | n + 1, i, _ => do
    let st ← rand w p bits (draw i).bytes
    if st < 0 then pure (st, i + 1)
    else do
      setBit w p 0
      setBit w p (bits - 1)
      setBit w p (bits - 2)
      let st ← isPrime w sp fuel p (draw i).mr
      if st < 0 then pure (st, i + 1)
      else if st = 1 then pure (0, i + 1)
      else primeLoop w sp fuel p bits draw n (i + 1) st

/-- `cry_mpi_prime` (src/mpi/mpi_prime.c:229-268); `itermax` is `*iter`, or 5000 when `iter` is `NULL`.  The second result is what
is stored in `*iter`. -/
def prime (w sp fuel p bits itermax : Nat) (draw : Nat → Mpi.PrimeDraw) : M (Int × Nat) :=
  if bits &&& 7 ≠ 0 ∨ bits = 0 then pure (-1, itermax)
  else do
    let r ← primeLoop w sp fuel p bits draw itermax 0 (-1)
    pure (if r.2 = itermax then -1 else r.1, r.2)

end Verif.Mem
