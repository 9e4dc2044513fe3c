import Verif.Model.Mem.Div
import Verif.Model.Mpi.NumTheory
/-!
# Exponentiation, gcd, lcm and inverse in memory
(src/mpi/mpi_mod_exp.c, mpi_exp.c, mpi_gcd.c, mpi_lcm.c, mpi_inv.c)

Functions with local objects take the address `sp` of the first of them.
-/
namespace Verif.Mem
open Verif.Mpi (Mpi)

/-- `cry_mpi_is_bit_set` (src/mpi/mpi_pvt.h:70-72). -/
def isBitSet (w a bit : Nat) : M Bool := do
  let d ← rd a (bit / w)
  pure ((d &&& (1 <<< (bit % w))) != 0)

/-- `(m != NULL && (res = cry_mpi_mod(&exp, &exp, m)) != 0)` (src/mpi/mpi_mod_exp.c:21,25). -/
def modOpt (w sp x : Nat) : Option Nat → M Int
  | none => pure 0
  | some m => mod w sp x x m

/-- Loop of `cry_mpi_mod_exp` (src/mpi/mpi_mod_exp.c:19-28), `bits` bits are left; `x` is the local `exp`, called functions
have their locals from `sp` on. -/
def expLoop (w sp x b e : Nat) (m : Option Nat) : Nat → M Int
  | 0 => pure 0
  | bits + 1 =>
    chk (sqr w sp x x) <| chk (modOpt w sp x m) do
      let t ← isBitSet w e bits
      chk (if t then chk (mul w sp x x b) (modOpt w sp x m) else pure 0) (expLoop w sp x b e m bits)

/-- `m != NULL && cry_mpi_is_neg(m)` (src/mpi/mpi_mod_exp.c:13). -/
def negOpt : Option Nat → M Bool
  | none => pure false
  | some m => do pure (← hdr m).neg

/-- `cry_mpi_mod_exp` (src/mpi/mpi_mod_exp.c:6-33).  Local `exp` at `sp`.  The status of `cry_mpi_init_int` is kept in
`res`, not tested, and overwritten by the first turn of the loop. -/
def modExp (w sp r b e : Nat) (m : Option Nat) : M Int := do
  decl sp 1
  let he ← hdr e
  let nm ← negOpt m
  if he.neg = true ∨ nm = true then pure (-1)
  else
    let res ← initInt w sp 1
    let bits ← countBits w e
    let st ← expLoop w (sp + 1) sp b e m bits
    if st ≠ 0 then do
      clear sp
      pure st
    else do
      swap r sp
      clear sp
      pure (if bits = 0 then res else 0)

/-- `cry_mpi_exp` (src/mpi/mpi_exp.c:3-6). -/
def exp (w sp r b e : Nat) : M Int := modExp w sp r b e none

/-- First loop of `cry_mpi_lsb` (src/mpi/mpi_gcd.c:11-12): the index of the first digit that is not 0; `n` digits are
left. -/
def lsbSkip (x : Nat) : Nat → Nat → M Nat
  | 0, i => pure i
  | n + 1, i => do
    if (← rd x i) = 0 then lsbSkip x n (i + 1) else pure i

/-- `cry_mpi_lsb` (src/mpi/mpi_gcd.c:7-18); the digit read in the second loop does not change. -/
def lsb (w x : Nat) : M Nat := do
  let h ← hdr x
  let i ← lsbSkip x h.used 0
  let d ← rd x i
  pure (i * w + Mpi.lsbDig d w 0)

/-- `if ((res = c) != 0) break;`, then `k`. -/
def brk (c : M Int) (k : M Unit) : M Unit := do
  let st ← c
  if st ≠ 0 then pure () else k

/-- Loop of `cry_mpi_gcd` (src/mpi/mpi_gcd.c:46-62).  The status with which it is left is overwritten by the code after
it. -/
def gcdLoop (w x y : Nat) : Nat → M Unit
  | 0 => hang
  | fuel + 1 => do
    if (← hdr x).used = 0 then pure ()
    else
      let k ← lsb w x
      brk (shr w x x k) do
        let k ← lsb w y
        brk (shr w y y k) do
          if (← cmpAbs x y) ≥ 0 then
            brk (subAbs (2 ^ w) x x y) <| brk (shr w x x 1) (gcdLoop w x y fuel)
          else
            brk (subAbs (2 ^ w) y y x) <| brk (shr w y y 1) (gcdLoop w x y fuel)

/-- `cry_mpi_gcd` (src/mpi/mpi_gcd.c:24-65).  Locals `tx, ty` from `sp` on.  The number of turns is bounded by the
sum of two numbers larger than the operands (`hang` beyond). -/
def gcd (w sp r x y : Nat) : M Int := do
  decl sp 2
  chk (initList [sp, sp + 1]) do
    let st ← chk (copy sp x) <| chk (copy (sp + 1) y) do
      let lx ← lsb w sp
      let ly ← lsb w (sp + 1)
      let lz := if ly < lx then ly else lx
      chk (shr w sp sp lz) <| chk (shr w (sp + 1) (sp + 1) lz) do
        let hx ← hdr sp
        let hy ← hdr (sp + 1)
        gcdLoop w sp (sp + 1) (2 ^ (w * hx.used) + 2 ^ (w * hy.used))
        let res ← shl w (sp + 1) (sp + 1) lz
        swap r (sp + 1)
        pure res
    clearList [sp, sp + 1]
    pure st

/-- `cry_mpi_lcm` (src/mpi/mpi_lcm.c:6-20).  Locals `gcm, prod` from `sp` on. -/
def lcm (w sp r x y : Nat) : M Int := do
  decl sp 2
  chk (initList [sp, sp + 1]) do
    let st ← chk (gcd w (sp + 2) sp x y) <| chk (mul w (sp + 2) (sp + 1) x y) <|
      div w (sp + 2) (some r) none (sp + 1) sp
    clearList [sp, sp + 1]
    pure st

/-- A call whose status is not looked at. -/
def ign (c : M Int) (k : M Int) : M Int := do
  let _ ← c
  k

/-- Loop of `cry_mpi_inv` (src/mpi/mpi_inv.c:24-36). -/
def invLoop (w sp r0 r1 s0 s1 q : Nat) (k : M Int) : Nat → M Int
  | 0 => hang
  | fuel + 1 => do
    if (← hdr r1).used = 0 then k
    else
      ign (div w sp (some q) (some r0) r0 r1) do
        swap r0 r1
        ign (mul w sp q q s1) <| ign (sub (2 ^ w) s0 s0 q) do
          swap s0 s1
          zero q
          invLoop w sp r0 r1 s0 s1 q k fuel

/-- `r0.used == 1 && r0.sign == 0 && r0.data[0] == 1` (src/mpi/mpi_inv.c:39). -/
def isOne (a : Nat) : M Bool := do
  let h ← hdr a
  if h.used = 1 ∧ h.neg = false then do
    pure ((← rd a 0) == 1)
  else pure false

/-- `cry_mpi_inv` (src/mpi/mpi_inv.c:11-49, `CRY_MPI_INV_EUCLID`).  Locals `r0, r1, s0, s1, q` from `sp` on.  At most
`turns` turns are granted (`hang` beyond), depending on the number of digits of the modulus. -/
def invTurns (turns : Nat → Nat) (w sp r a m : Nat) : M Int := do
  decl sp 5
  chk (initList [sp, sp + 1, sp + 2, sp + 3, sp + 4]) do
    let st ← ign (copy sp a) <| ign (copy (sp + 1) m) <| ign (setInt w (sp + 2) 1) <| ign (setInt w (sp + 3) 0) do
      let h ← hdr (sp + 1)
      invLoop w (sp + 5) sp (sp + 1) (sp + 2) (sp + 3) (sp + 4) (do
        if ← isOne sp then do
          swap r (sp + 2)
          if (← hdr r).neg then ign (mod w (sp + 5) r r m) (pure 0)
          else pure 0
        else do
          zero (sp + 2)
          pure (-1)) (turns h.used)
    clearList [sp, sp + 1, sp + 2, sp + 3, sp + 4]
    pure st

/-- `cry_mpi_inv` with a number of turns larger than the modulus. -/
def inv (w sp r a m : Nat) : M Int := invTurns (fun used => 2 ^ (w * used) + 2) w sp r a m

end Verif.Mem
