import Verif.Model.Mem.Rsa
import Verif.Model.Mem.Prime
/-!
Model of RSA and DSA key generation (src/crypt/rsa.c:300-353, src/crypt/dsa.c:137-195) over the memory of `Verif.Model.Mem.Core`.  Simplification: the bytes the
generator delivers are given to the functions.
-/
namespace Verif.Mem
open Verif.Mpi

/-- The bytes one turn takes from the generator: for the tries of the two primes, and for a random public exponent. -/
structure RsaDraw where
  p : Nat → PrimeDraw
  q : Nat → PrimeDraw
  e : List Byte

/-- The body of the loop of `cry_rsa_keygen` (src/crypt/rsa.c:324-348), locals `one, p1, q1, g, phi` from `sp` on.  The result is the
status and whether the condition of the loop is looked at: not after `break`, but also after `continue`. -/
def rsaTurn (w sp fuel n e p q bits : Nat) (ev : Int) (dr : RsaDraw) : M (Int × Bool) := do
  let r ← prime w (sp + 5) fuel p (bits >>> 1) 10000 dr.p
  if r.1 ≠ 0 then pure (r.1, false)
  else do
    let r ← prime w (sp + 5) fuel q (bits >>> 1) 10000 dr.q
    if r.1 ≠ 0 then pure (r.1, false)
    else do
      let c ← cmp q p
      if c = 0 then pure (0, true)
      else do
        let st ← mul w (sp + 5) n p q
        if st ≠ 0 then pure (st, false)
        else do
          let b ← countBits w n
          if b ≠ bits then pure (0, true)
          else do
            let st ← chk (sub (2 ^ w) (sp + 1) p sp) <| chk (sub (2 ^ w) (sp + 2) q sp) <|
              chk (mul w (sp + 5) (sp + 4) (sp + 1) (sp + 2)) <|
              chk (if ev = 0 then rand w e bits dr.e else pure 0) <|
              chk (gcd w (sp + 5) (sp + 3) e (sp + 4)) (pure 0)
            pure (st, decide (st = 0))

/-- The loop of `cry_rsa_keygen` (src/crypt/rsa.c:322-349): turn `j`, with `m` turns left.  At the condition `res` is 0. -/
def rsaKeyLoop (w sp fuel n e p q bits : Nat) (ev : Int) (draw : Nat → RsaDraw) : Nat → Nat → M Int
  | 0, _ => pure 0
  | m + 1, j => do
    let r ← rsaTurn w sp fuel n e p q bits ev (draw j)
    if r.2 then do
      let c ← cmp (sp + 3) sp
      if c ≠ 0 then rsaKeyLoop w sp fuel n e p q bits ev draw m (j + 1) else pure 0
    else pure r.1

/-- `cry_rsa_keygen` (src/crypt/rsa.c:302-353), with the addresses of the members of the context.  The locals are declared in the order
`one, p1, q1, g, phi`. -/
def rsaKeygen (w sp fuel n e p q bits : Nat) (ev : Int) (draw : Nat → RsaDraw) : M Int := do
  decl sp 5
  setObj sp ⟨some ⟨false, 1, 1⟩, .mem false [some 1]⟩
  chk (if ev ≠ 0 then setInt w e ev else pure 0) <|
    chk (initList [sp + 1, sp + 2, sp + 3, sp + 4]) do
      let st ← rsaKeyLoop w sp fuel n e p q bits ev draw 10000 0
      clearList [sp + 1, sp + 2, sp + 3, sp + 4]
      pure st

/-! ### DSA -/

/-- The bytes one turn of the outer loop takes from the generator: for the tries of `q` and `p` with their tests, for the tries of `g`, and
for the private key. -/
structure DsaDraw where
  q : Nat → PrimeDraw
  p : Nat → PrimeDraw
  g : Nat → List Byte
  x : List Byte

/-- The next number to be tested as `p` (src/crypt/dsa.c:163-167), locals `p1, q, r, one` from `sp` on. -/
def dsaCand (w sp p q bits : Nat) (bs : List Byte) : M Int :=
  chk (rand w p bits bs) <|
  chk (add (2 ^ w) (sp + 2) q q) <|
  chk (mod w (sp + 4) (sp + 2) p (sp + 2)) <|
  chk (sub (2 ^ w) p p (sp + 2)) <|
  chk (add (2 ^ w) p p (sp + 3)) (pure 0)

/-- The search for `p` (src/crypt/dsa.c:162-170), turn `j`, with `n` turns left: 0 for `break`, 1 at the end of the loop, -1 when `CHK`
leads to the label.  Any status of `cry_mpi_is_prime` other than 0 ends the search. -/
def dsaPLoop (w sp fuel p q bits : Nat) (draw : Nat → PrimeDraw) : Nat → Nat → M Int
  | 0, _ => pure 1
  | n + 1, j => do
    let st ← dsaCand w sp p q bits (draw j).bytes
    if st ≠ 0 then pure (-1)
    else do
      let t ← isPrime w (sp + 4) fuel p (draw j).mr
      if t ≠ 0 then pure 0 else dsaPLoop w sp fuel p q bits draw n (j + 1)

/-- The search for `g` (src/crypt/dsa.c:177-184), with the results of `dsaPLoop`. -/
def dsaGLoop (w sp p g : Nat) (draw : Nat → List Byte) : Nat → Nat → M Int
  | 0, _ => pure 1
  | n + 1, j => do
    let st ← chk (randRange w (sp + 4) (sp + 2) sp (draw j)) <|
      chk (add (2 ^ w) (sp + 2) (sp + 2) (sp + 3)) <|
      chk (modExp w (sp + 4) g (sp + 2) (sp + 1) (some p)) (pure 0)
    if st ≠ 0 then pure (-1)
    else do
      let c ← cmpAbs g (sp + 3)
      if c > 0 then pure 0 else dsaGLoop w sp p g draw n (j + 1)

/-- One turn of the outer loop (src/crypt/dsa.c:160-191): `res`, and whether there is another turn.  The results of the last two calls are
dropped. -/
def dsaTurn (w sp fuel p q g pvt pub bits : Nat) (dr : DsaDraw) : M (Int × Bool) := do
  let r ← prime w (sp + 4) fuel q 160 5000 dr.q
  if r.1 ≠ 0 then pure (-1, false)
  else do
    let f ← dsaPLoop w sp fuel p q bits dr.p 4096 0
    if f < 0 then pure (-1, false)
    else if f = 1 then pure (-1, true)
    else do
      let st ← chk (sub (2 ^ w) sp p (sp + 3)) <|
        chk (div w (sp + 4) (some (sp + 1)) none sp q) <|
        chk (sub (2 ^ w) sp p (sp + 3)) (pure 0)
      if st ≠ 0 then pure (-1, false)
      else do
        let f ← dsaGLoop w sp p g dr.g 4096 0
        if f < 0 then pure (-1, false)
        else if f = 1 then pure (-1, true)
        else do
          let _ ← randRange w (sp + 4) pvt (sp + 1) dr.x
          let _ ← modExp w (sp + 4) pub g pvt (some p)
          pure (0, false)

/-- The outer loop (src/crypt/dsa.c:158-192), turn `i`, with `n` turns left. -/
def dsaKeyLoop (w sp fuel p q g pvt pub bits : Nat) (draw : Nat → DsaDraw) : Nat → Nat → M Int
  | 0, _ => pure (-1)
  | n + 1, i => do
    let r ← dsaTurn w sp fuel p q g pvt pub bits (draw i)
    if r.2 then dsaKeyLoop w sp fuel p q g pvt pub bits draw n (i + 1) else pure r.1

/-- `cry_dsa_keygen` (src/crypt/dsa.c:149-195), with the addresses of the members of the context; `512 + l*64` is computed on 32 bits.
The status of the initialisation is dropped. -/
def dsaKeygen (w sp fuel p q g pvt pub l : Nat) (draw : Nat → DsaDraw) : M Int := do
  decl sp 4
  let _ ← initList [sp, sp + 1, sp + 2, sp + 3]
  let st ← setInt w (sp + 3) 1
  let st ← if st ≠ 0 then pure (-1) else dsaKeyLoop w sp fuel p q g pvt pub ((512 + l * 64) % 2 ^ 32) draw 1024 0
  clearList [sp, sp + 1, sp + 2, sp + 3]
  pure st

end Verif.Mem
