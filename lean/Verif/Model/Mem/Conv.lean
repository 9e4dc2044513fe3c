import Verif.Model.Mem.NumTheory
import Verif.Model.Mpi.Str
/-!
# Square root and conversions in memory
(src/mpi/mpi_sqrt.c, mpi_bin.c, mpi_str.c, mpi_print.c)

Buffers of the caller are lists of bytes with a fixed length, where `none` is a byte that was never written; they are
passed along and returned.  Accesses outside a buffer and reads of bytes never written are undefined.  Buffers that
are only read (strings without their terminating 0, binary data) are lists of bytes.
-/
namespace Verif.Mem
open Verif.Mpi (ascToRaw rawToAsc)
open Verif (Byte)

/-- One turn of the Newton iteration, `div`, `add`, `shr` (src/mpi/mpi_sqrt.c:74-79, 83-88). -/
def sqrtStep (w sp t1 t2 a : Nat) (k : M Int) : M Int :=
  chk (div w sp (some t2) none a t1) <| chk (add (2 ^ w) t1 t1 t2) <| chk (shr w t1 t1 1) k

/-- The do-while loop (src/mpi/mpi_sqrt.c:81-89) and the final swap (:91); the last argument bounds the number of turns. -/
def sqrtLoop (w sp t1 t2 a r : Nat) : Nat → M Int
  | 0 => hang
  | fuel + 1 => sqrtStep w sp t1 t2 a do
      if (← cmpAbs t1 t2) > 0 then sqrtLoop w sp t1 t2 a r fuel
      else do
        swap r t1
        pure 0

/-- `cry_mpi_sqrt` (src/mpi/mpi_sqrt.c:51-95).  Locals `t1, t2` at `sp`, `sp + 1`. -/
def sqrt (w sp r a : Nat) : M Int := do
  decl sp 2
  let h ← hdr a
  if h.neg then pure (-1)
  else if h.used = 0 then do
    zero r
    pure 0
  else
    chk (initList [sp, sp + 1]) do
      let st ← chk (copy sp a) do
        let h1 ← hdr sp
        chk (shrd sp (h1.used / 2)) <| sqrtStep w (sp + 2) sp (sp + 1) a do
          let h1 ← hdr sp
          sqrtLoop w (sp + 2) sp (sp + 1) a r (2 ^ (w * h1.used) + 1)
      clearList [sp, sp + 1]
      pure st

/-- A buffer of bytes; `none` is a byte that was never written. -/
abbrev Buf := List (Option Byte)

/-- `b[i] = v`. -/
def put (b : Buf) (i : Nat) (v : Byte) : M Buf := if i < b.length then pure (b.set i (some v)) else ub

/-- The value of `b[i]`. -/
def get (b : Buf) (i : Nat) : M Byte :=
  match b[i]? with
  | some (some v) => pure v
  | _ => ub

/-- Loop of `cry_mpi_load_bin` (src/mpi/mpi_bin.c:30-41). -/
def loadLoop (w x : Nat) : List Byte → Nat → Nat → Nat → M Unit
  | [], _, _, _ => pure ()
  | p :: ps, d, m, i => do
    let d := if w > 8 then (d <<< 8) % 2 ^ w else d
    let d := d ||| p.toNat
    if m = 0 then do
      wr x (i - 1) d
      loadLoop w x ps 0 (w / 8 - 1) (i - 1)
    else loadLoop w x ps d (m - 1) i

/-- `cry_mpi_load_bin` (src/mpi/mpi_bin.c:6-43). -/
def loadBin (w x : Nat) (bs : List Byte) : M Int :=
  match bs.dropWhile (· == 0#8) with
  | [] => do
    zero x
    pure 0
  | p :: ps => do
    let i := ps.length / (w / 8) + 1
    let m := ps.length % (w / 8)
    let h ← hdr x
    chk (if h.alloc < i then grow x i else pure 0) do
      setUsed x i
      loadLoop w x (p :: ps) 0 m i
      pure 0

/-- `cry_mpi_init_bin` (src/mpi/mpi_bin.c:73-84). -/
def initBin (w x : Nat) (bs : List Byte) : M Int := do
  chk (initSize x (if bs.length ≠ 0 then (bs.length - 1) / (w / 8) + 1 else 0)) do
    let st ← loadBin w x bs
    if st ≠ 0 then do
      clear x
      pure st
    else pure 0

/-- `cry_mpi_count_bytes` (include/cry/mpi.h:178-179). -/
def countBytes (w a : Nat) : M Nat := do
  let n ← countBits w a
  pure ((n + 7) / 8)

/-- `memset` to 0 of `n` bytes from `p` on (src/mpi/mpi_bin.c:63). -/
def zeroBytes : Nat → Nat → Buf → M Buf
  | 0, _, s => pure s
  | n + 1, p, s => do zeroBytes n (p + 1) (← put s p 0)

/-- The writing loop of `cry_mpi_store_bin` (src/mpi/mpi_bin.c:66-69), `i` bytes are left, the next one goes to `p`. -/
def storeLoop (w x : Nat) : Nat → Nat → Buf → M Buf
  | 0, _, s => pure s
  | i + 1, p, s => do
    let d ← rd x (i / (w / 8))
    let s ← put s p (BitVec.ofNat 8 ((d >>> (8 * (i % (w / 8)))) &&& 0xff))
    storeLoop w x i (p + 1) s

/-- `cry_mpi_store_bin` (src/mpi/mpi_bin.c:48-71) into the buffer from offset `p` on. -/
def storeBin (w x : Nat) (s : Buf) (p bufsiz : Nat) (pad : Bool) : M (Int × Buf) := do
  let i ← countBytes w x
  if bufsiz < i then pure (-1, s)
  else
    let bufsiz := if pad then bufsiz else i
    let s ← zeroBytes (bufsiz - i) p s
    let s ← storeLoop w x i (p + (bufsiz - i)) s
    pure (0, s)

/-- The expansion loop of `store_str_hex` (src/mpi/mpi_str.c:62-70); the string starts at offset `p`. -/
def hexExpand (p : Nat) : Nat → Nat → Buf → M Buf
  | 0, _, s => pure s
  | i + 1, j, s => do
    let c ← get s (p + i)
    let s ← put s (p + (j - 1)) (rawToAsc (c &&& 0x0f#8).toNat)
    if j - 1 = 0 then pure s
    else do
      let c ← get s (p + i)
      let s ← put s (p + (j - 2)) (rawToAsc ((c >>> 4) &&& 0x0f#8).toNat)
      hexExpand p i (j - 2) s

/-- `store_str_hex` (src/mpi/mpi_str.c:47-72). -/
def storeStrHex (w a : Nat) (p : Nat) (s : Buf) : M (Int × Buf) := do
  let i ← countBytes w a
  let (st, s) ← storeBin w a s p i false
  if st < 0 then pure (st, s)
  else do
    let c ← get s p
    let j := if (c &&& 0xf0#8) = 0 then 2 * i - 1 else 2 * i
    let s ← put s (p + j) 0
    let s ← hexExpand p i j s
    pure (0, s)

/-- The xor-swap reversal (src/mpi/mpi_str.c:175-183).  The first argument bounds the number of turns. -/
def revLoop : Nat → Nat → Nat → Buf → M Buf
  | 0, _, _, _ => hang
  | fuel + 1, j, i, s =>
    if j < i then do
      let s ← put s j ((← get s j) ^^^ (← get s i))
      let s ← put s i ((← get s i) ^^^ (← get s j))
      let s ← put s j ((← get s j) ^^^ (← get s i))
      revLoop fuel (j + 1) (i - 1) s
    else pure s

/-- Sign, terminating 0 and reversal (src/mpi/mpi_str.c:171-183); `i` characters have been written. -/
def strEnd (a i : Nat) (s : Buf) : M (Int × Buf) := do
  let h ← hdr a
  let (i, s) ← if h.neg then do pure (i + 1, ← put s i 45) else pure (i, s)
  let s ← put s i 0
  let s ← revLoop (i + 1) 0 (i - 1) s
  pure (0, s)

/-- The division loop of `cry_mpi_store_str` (src/mpi/mpi_str.c:164-169) and what follows it.  `i` characters have been
written.  The first numeric argument bounds the number of turns. -/
def strLoop (w sp a tmp rad rem : Nat) : Nat → Nat → Buf → M (Int × Buf)
  | 0, _, _ => hang
  | fuel + 1, i, s => do
    if (← hdr tmp).used = 0 then strEnd a i s
    else do
      let st ← divAbs w sp (some tmp) (some rem) tmp rad
      if st ≠ 0 then pure (st, s)
      else do
        let h ← hdr rem
        let d ← if h.used ≠ 0 then rd rem 0 else pure 0
        let s ← put s i (rawToAsc d)
        strLoop w sp a tmp rad rem fuel (i + 1) s

/-- The conversion by division with its locals initialised (src/mpi/mpi_str.c:160-183). -/
def strBody (w sp a radix used : Nat) (s : Buf) : M (Int × Buf) := do
  let st ← copy sp a
  if st ≠ 0 then pure (st, s)
  else do
    let _ ← setInt w (sp + 1) radix
    strLoop w (sp + 3) a sp (sp + 1) (sp + 2) (w * used + 1) 0 s

/-- `cry_mpi_store_str` (src/mpi/mpi_str.c:136-187).  Locals `tmp, rad, rem` at `sp`, `sp + 1`, `sp + 2`.
Simplification: the indices are `unsigned int` in C, here they do not wrap. -/
def storeStr (w sp a radix : Nat) (s : Buf) : M (Int × Buf) := do
  decl sp 3
  if radix < 2 ∨ radix > 16 then pure (-1, s)
  else do
    let h ← hdr a
    if h.used = 0 then do
      let s ← put s 0 48
      let s ← put s 1 0
      pure (0, s)
    else if radix = 16 then
      if h.neg then do storeStrHex w a 1 (← put s 0 45)
      else storeStrHex w a 0 s
    else do
      let st ← initList [sp, sp + 1, sp + 2]
      if st ≠ 0 then pure (st, s)
      else do
        let r ← strBody w sp a radix h.used s
        clearList [sp, sp + 1, sp + 2]
        pure r

/-- What `cry_mpi_print` writes. -/
inductive Printed where
  /-- a line to `stdout` -/
  | line (t : List Byte)
  /-- a message to `stderr` -/
  | error
  deriving DecidableEq

/-- `printf("%s")`: the bytes up to the first 0, from index `i` on (`n` bytes are left in the buffer). -/
def cstr (s : Buf) : Nat → Nat → M (List Byte)
  | 0, _ => ub
  | n + 1, i => do
    let c ← get s i
    if c = 0 then pure []
    else do pure (c :: (← cstr s n (i + 1)))

/-- `cry_mpi_print` (src/mpi/mpi_print.c:5-23). -/
def print (w sp a radix : Nat) : M Printed := do
  let n ← countBytes w a
  let len := 2 * n + 2
  if ← request 1 then do
    let (st, s) ← storeStr w sp a radix (List.replicate len none)
    let out ← if st = 0 then do pure (Printed.line (← cstr s len 0)) else pure Printed.error
    fun s => .ok ((), { s with live := s.live - 1 })
    pure out
  else pure .error

/-- The loop of `load_str_hex` (src/mpi/mpi_str.c:31-37): `i` bytes have been written to `bin`; the number of bytes in the end. -/
def hexPairs (i : Nat) (bin : Buf) : List Byte → M (Nat × Buf)
  | c :: c' :: cs => do
    let bin ← put bin i (BitVec.ofNat 8 (ascToRaw c <<< 4))
    let bin ← put bin i ((← get bin i) ||| BitVec.ofNat 8 (ascToRaw c'))
    hexPairs (i + 1) bin cs
  | _ => pure (i, bin)

/-- The first `n` bytes of a buffer are read. -/
def getAll (s : Buf) : Nat → Nat → M (List Byte)
  | 0, _ => pure []
  | n + 1, i => do
    let c ← get s i
    pure (c :: (← getAll s n (i + 1)))

/-- The bytes `load_str_hex` writes to its buffer (src/mpi/mpi_str.c:18-37). -/
def hexBytes (s : List Byte) : M (Nat × Buf) :=
  if s.length % 2 ≠ 0 then
    match s with
    | [] => ub
    | first :: rest => do hexPairs 1 (← put (List.replicate (s.length / 2 + 1) none) 0 (BitVec.ofNat 8 (ascToRaw first))) rest
  else hexPairs 0 (List.replicate (s.length / 2) none) s

/-- `load_str_hex` (src/mpi/mpi_str.c:10-42).  The request for 0 bytes made for an empty string may fail like any other. -/
def loadStrHex (w a : Nat) (s : List Byte) : M Int := do
  if ← request 1 then do
    let (i, bin) ← hexBytes s
    let st ← loadBin w a (← getAll bin i 0)
    fun s => .ok ((), { s with live := s.live - 1 })
    pure st
  else pure (-1)

/-- The conversion loop of `cry_mpi_load_str` (src/mpi/mpi_str.c:114-124): the part of the string not consumed. -/
def digitsLoop (w sp a radix tmp base : Nat) : List Byte → M (List Byte)
  | [] => pure []
  | c :: cs =>
    if radix ≤ ascToRaw c then pure (c :: cs)
    else do
      wr tmp 0 (ascToRaw c)
      if (← mul w sp a a base) < 0 then pure (c :: cs)
      else if (← add (2 ^ w) a a tmp) < 0 then pure (c :: cs)
      else digitsLoop w sp a radix tmp base cs

/-- `a->sign = cry_mpi_is_zero(a) ? 0 : sign;` (src/mpi/mpi_str.c:99, 129). -/
def fixSign (a : Nat) (sign : Bool) : M Unit := do
  let h ← hdr a
  setSign a (if h.used = 0 then false else sign)

/-- `if (*s != '\0')` (src/mpi/mpi_str.c:125-128): what to do if not all of the string was consumed. -/
def strStop (a : Nat) (rest : List Byte) : M Int := do
  if rest ≠ [] then do
    clear a
    pure (-1)
  else pure 0

/-- The part of `cry_mpi_load_str` after the optional sign (src/mpi/mpi_str.c:97-132).  Locals `tmp`, `base` at
`sp`, `sp + 1`. -/
def loadStrBody (w sp a radix : Nat) (sign : Bool) (s : List Byte) : M Int := do
  if radix = 16 then do
    let st ← loadStrHex w a s
    fixSign a sign
    pure st
  else
    if (← initInt w (sp + 1) radix) < 0 then pure (-1)
    else if (← initInt w sp 1) < 0 then do
      clear (sp + 1)
      pure (-1)
    else do
      let rest ← digitsLoop w (sp + 2) a radix sp (sp + 1) (s.dropWhile (· == 48#8))
      let st ← strStop a rest
      fixSign a sign
      clear (sp + 1)
      clear sp
      pure st

/-- `cry_mpi_load_str` (src/mpi/mpi_str.c:75-133). -/
def loadStr (w sp a radix : Nat) (s : List Byte) : M Int := do
  decl sp 2
  if radix > 36 then pure (-1)
  else do
    zero a
    match s with
    | [] => loadStrBody w sp a radix false []
    | c :: cs =>
      if c = 45#8 then loadStrBody w sp a radix true cs
      else if c = 43#8 then loadStrBody w sp a radix false cs
      else loadStrBody w sp a radix false (c :: cs)

/-- `cry_mpi_init_str` (src/mpi/mpi_str.c:192-203). -/
def initStr (w sp a radix : Nat) (s : List Byte) : M Int := do
  chk (init a) do
    let st ← loadStr w sp a radix s
    if st ≠ 0 then do
      clear a
      pure st
    else pure 0

end Verif.Mem
