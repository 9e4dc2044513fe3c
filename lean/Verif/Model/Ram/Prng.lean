import Verif.Model.Ram.Block
import Verif.Model.Ram.Hash
import Verif.Model.Prng.Aes
/-!
# The AES based generator on buffers in memory (src/prng/prng_aes.c)

The members `ctr` and `lo` of the static context, the local array `key` of `cry_prng_aes_init`, 16 bytes each, the seed and the
buffers of the caller lie in the flat memory; the AES context and `ix` do not.
-/
namespace Verif.RamPrng
open Verif.Ram
open Verif.RamHash (fill)

/-- Where the arrays lie. -/
structure Arrays where
  ctr : Nat
  lo : Nat
  key : Nat

/-- The rest of `struct prng_bc_ctx` (src/prng/prng_aes.c:8-13). -/
structure Rest where
  aes : Aes.Ctx
  ix : Nat

/-- `cry_prng_aes_init` (src/prng/prng_aes.c:18-40); `seed = none` is a null pointer, which keeps its value when `sz` is added. -/
def init (A : Arrays) (R : Ram) (seed : Option Nat) (n : Nat) : Option (Ram × Rest) :=
  let sz := min n 16
  (fill R A.key 0 16).bind fun R =>
  (match seed with | some p => memcpy R A.key p sz | none => some R).bind fun R =>
  (if R.Owned A.key 16 then Aes.keySet (R.bytes A.key 16) else none).bind fun aes =>
  let seed := seed.map (· + sz)
  let sz := min (n - sz) 16
  (fill R A.ctr 0 16).bind fun R =>
  (match seed with | some p => memcpy R A.ctr p sz | none => some R).map fun R => (R, ⟨aes, 0⟩)

/-- `CTR_INC` (src/prng/prng_aes.c:42-46) from index `i - 1` down. -/
def ctrInc (ctr : Nat) : Nat → Ram → Option Ram
  | 0, R => some R
  | i + 1, R =>
    (load R (ctr + i)).bind fun x => (store R (ctr + i) (x + 1)).bind fun R =>
      if x + 1 = 0 then ctrInc ctr i R else some R

/-- The first loop (src/prng/prng_aes.c:54-57), `siz` bytes left: memory, `ix`, `buf` and `siz`.  The array `lo` has 16 bytes. -/
def residual (lo : Nat) : Nat → Ram → Nat → Nat → Option (Ram × Nat × Nat × Nat)
  | 0, R, ix, buf => some (R, ix, buf, 0)
  | siz + 1, R, ix, buf =>
    if ix ≠ 0 then
      (if ix < 16 then load R (lo + ix) else none).bind fun x => (store R buf x).bind fun R =>
        residual lo siz R ((ix + 1) % 16) (buf + 1)
    else some (R, ix, buf, siz + 1)

/-- The main loop (src/prng/prng_aes.c:60-65), which is run `n = siz / 16` times. -/
def blocks (ctr : Nat) : Nat → Ram → Aes.Ctx → Nat → Option (Ram × Aes.Ctx)
  | 0, R, c, _ => some (R, c)
  | n + 1, R, c, buf =>
    (aesEncrypt c R buf ctr 16).bind fun r => (ctrInc ctr 16 r.1).bind fun R => blocks ctr n R r.2 (buf + 16)

/-- `while (siz--) buf[siz] = lo[siz]` (src/prng/prng_aes.c:72-73): the bytes are written from the last to the first. -/
def copyDown (lo buf : Nat) : Nat → Ram → Option Ram
  | 0, R => some R
  | n + 1, R => (load R (lo + n)).bind fun x => (store R (buf + n) x).bind fun R => copyDown lo buf n R

/-- `cry_prng_aes_rand` (src/prng/prng_aes.c:48-76) once the generator is initialised. -/
def rand (A : Arrays) (R : Ram) (g : Rest) (buf siz : Nat) : Option (Ram × Rest) :=
  (residual A.lo siz R g.ix buf).bind fun (R, ix, buf, siz) =>
  (blocks A.ctr (siz / 16) R g.aes buf).bind fun (R, c) =>
  let buf := buf + 16 * (siz / 16)
  let siz := siz % 16
  if siz ≠ 0 then
    (aesEncrypt c R A.lo A.ctr 16).bind fun (R, c) =>
    (ctrInc A.ctr 16 R).bind fun R =>
    (copyDown A.lo buf siz R).map fun R => (R, ⟨c, siz⟩)
  else some (R, ⟨c, ix⟩)

/-- Calls of `cry_prng_aes_rand` one after the other. -/
def rands (A : Arrays) : Ram → Rest → List (Nat × Nat) → Option (Ram × Rest)
  | R, g, [] => some (R, g)
  | R, g, q :: qs => (rand A R g q.1 q.2).bind fun r => rands A r.1 r.2 qs

/-- Seeding, then requests. -/
def run (A : Arrays) (R : Ram) (seed : Option Nat) (n : Nat) (reqs : List (Nat × Nat)) : Option Ram :=
  (init A R seed n).bind fun r => (rands A r.1 r.2 reqs).map fun r => r.1

end Verif.RamPrng
