import Verif.Model.Ram.Core
import Verif.Model.Crypt.Crc
import Verif.Model.Prng.Lfsr113
/-!
# CRC and LFSR113 on buffers in memory (src/crc/crc16.c, src/crc/crc32.c, src/prng/prng_lfsr113.c)

The buffers of the caller lie in the flat memory; the contexts, the tables and the static `z` do not.
-/
namespace Verif.RamCrc
open Verif.Ram Verif.Crc
open Verif.Lfsr (St)

/-- `cry_crc16_update`, `cry_crc32_update` (src/crc/crc16.c:11-16, src/crc/crc32.c:11-16), `size` bytes left. -/
def update {n : Nat} : Nat → Ram → Ctx n → Nat → Option (Ctx n)
  | 0, _, c, _ => some c
  | size + 1, R, c, buf =>
    (load R buf).bind fun b => (c.tab[((b.setWidth n ^^^ c.crc) &&& 0xFF#n).toNat]?).bind fun t =>
      update size R { c with crc := t ^^^ (c.crc >>> 8) } (buf + 1)

/-- Updates one after the other. -/
def updates {n : Nat} (R : Ram) : Ctx n → List (Nat × Nat) → Option (Ctx n)
  | c, [] => some c
  | c, q :: qs => (update q.2 R c q.1).bind fun c => updates R c qs

/-- `cry_crc16_digest` with `cry_crc16_final` (src/crc/crc16.c:18-34); the latter leaves the result in the context. -/
def digest16 (R : Ram) (c : Ctx 16) (out : Nat) : Option (Ram × Ctx 16) :=
  let crc := final16 c
  (store R out ((crc >>> 8).setWidth 8)).bind fun R => (store R (out + 1) ((crc &&& 0xFF#16).setWidth 8)).map fun R =>
    (R, { c with crc := crc })

/-- `cry_crc32_digest` with `cry_crc32_final` (src/crc/crc32.c:18-39). -/
def digest32 (R : Ram) (c : Ctx 32) (out : Nat) : Option (Ram × Ctx 32) :=
  let crc := final32 c
  (store R out ((crc >>> 24).setWidth 8)).bind fun R => (store R (out + 1) ((crc >>> 16).setWidth 8)).bind fun R =>
  (store R (out + 2) ((crc >>> 8).setWidth 8)).bind fun R => (store R (out + 3) ((crc &&& 0xFF#32).setWidth 8)).map fun R =>
    (R, { c with crc := crc })

/-- `p[i % sizeof(z)] ^= seed[i]` (src/prng/prng_lfsr113.c:41-42) from `i` on, `k` turns left; `p` are the bytes of `z`. -/
def seedXor (R : Ram) (seed : Nat) : Nat → Nat → List Byte → Option (List Byte)
  | 0, _, p => some p
  | k + 1, i, p => (load R (seed + i)).bind fun x => seedXor R seed k (i + 1) (p.modify (i % 16) (· ^^^ x))

/-- `cry_prng_lfsr113_init` (src/prng/prng_lfsr113.c:35-53) from the state before.  `memset` past the end of `z` is undefined. -/
def lfsrInit (R : Ram) (s : St) (seed n : Nat) : Option St :=
  if n > 16 then none
  else
    (seedXor R seed n 0 (List.replicate n 0 ++ (Lfsr.bytes s).drop n)).map fun p =>
      ⟨if Lfsr.word p 0 < 1#32 then Lfsr.defaultSeed else Lfsr.word p 0,
       if Lfsr.word p 1 < 7#32 then Lfsr.defaultSeed else Lfsr.word p 1,
       if Lfsr.word p 2 < 15#32 then Lfsr.defaultSeed else Lfsr.word p 2,
       if Lfsr.word p 3 < 127#32 then Lfsr.defaultSeed else Lfsr.word p 3⟩

/-- The loop over words of `cry_prng_lfsr113_rand` (src/prng/prng_lfsr113.c:63-69), `k` turns left. -/
def lfsrWords : Nat → Ram → St → Nat → Option (Ram × St × Nat)
  | 0, R, s, buf => some (R, s, buf)
  | k + 1, R, s, buf =>
    let s := Lfsr.next s
    let r := Lfsr.value s
    (store R buf ((r >>> 24).setWidth 8)).bind fun R => (store R (buf + 1) ((r >>> 16).setWidth 8)).bind fun R =>
    (store R (buf + 2) ((r >>> 8).setWidth 8)).bind fun R => (store R (buf + 3) (r.setWidth 8)).bind fun R =>
      lfsrWords k R s (buf + 4)

/-- The loop over the remaining bytes (src/prng/prng_lfsr113.c:73-76). -/
def lfsrTail : Nat → Ram → BitVec 32 → Nat → Option Ram
  | 0, R, _, _ => some R
  | i + 1, R, r, buf => (store R buf ((r >>> 24).setWidth 8)).bind fun R => lfsrTail i R (r <<< 8) (buf + 1)

/-- `cry_prng_lfsr113_rand` (src/prng/prng_lfsr113.c:55-79) once the generator is initialised. -/
def lfsrRand (R : Ram) (s : St) (buf siz : Nat) : Option (Ram × St) :=
  (lfsrWords (siz / 4) R s buf).bind fun (R, s, buf) =>
    let i := siz &&& 3
    if i ≠ 0 then
      let s := Lfsr.next s
      (lfsrTail i R (Lfsr.value s) buf).map fun R => (R, s)
    else some (R, s)

/-- Requests one after the other. -/
def lfsrRands : Ram → St → List (Nat × Nat) → Option (Ram × St)
  | R, s, [] => some (R, s)
  | R, s, q :: qs => (lfsrRand R s q.1 q.2).bind fun r => lfsrRands r.1 r.2 qs

end Verif.RamCrc
