import Verif.Model.Mpi.Div
import Verif.Model.MemXor
/-!
# Model of binary import/export, native integers and random numbers
(src/mpi/mpi_bin.c, mpi_core.c, mpi_rand.c)
-/
namespace Verif.Mpi

/-- Loop of `cry_mpi_load_bin` (src/mpi/mpi_bin.c:30-41) with `dBytes = w / 8` bytes per digit.  Digits
are stored from index `i - 1` downwards, so each completed digit is put in front of `acc`. -/
def loadLoop (w : Nat) : List Byte → Nat → Nat → List Nat → List Nat
  | [], _, _, acc => acc
  | p :: ps, d, m, acc =>
    let d := if w > 8 then (d <<< 8) % 2 ^ w else d
    let d := d ||| p.toNat
    if m = 0 then loadLoop w ps 0 (w / 8 - 1) (d :: acc) else loadLoop w ps d (m - 1) acc

/-- `cry_mpi_load_bin` (src/mpi/mpi_bin.c:7-43) into an object whose sign flag is `old`: the sign is
reset only when the value is zero.  The loop stores exactly `used` digits
(`loadLoop_length`). -/
def loadBin (w : Nat) (old : Bool) (bs : List Byte) : Mpi :=
  match bs.dropWhile (· == 0#8) with
  | [] => ⟨false, []⟩
  | p :: ps => ⟨old, loadLoop w (p :: ps) 0 (ps.length % (w / 8)) []⟩

/-- The writing loop of `cry_mpi_store_bin` (src/mpi/mpi_bin.c:66-69), `i` bytes left. -/
def storeLoop (w : Nat) (x : Mpi) : Nat → List Byte
  | 0 => []
  | i + 1 =>
    BitVec.ofNat 8 ((dig x.digs (i / (w / 8)) >>> (8 * (i % (w / 8)))) &&& 0xff) :: storeLoop w x i

/-- `cry_mpi_store_bin` (src/mpi/mpi_bin.c:48-71): the bytes written from the start of the buffer, or
`none` for the error return. -/
def storeBin (w : Nat) (x : Mpi) (bufsiz : Nat) (pad : Bool) : Option (List Byte) :=
  let i := countBytes w x
  if bufsiz < i then none
  else
    let bufsiz := if pad then bufsiz else i
    some (List.replicate (bufsiz - i) 0#8 ++ storeLoop w x i)

/-- Digits stored by `cry_mpi_set_int` (src/mpi/mpi_core.c:87-93); `n` digits may still be stored. -/
def setIntLoop (w : Nat) : Nat → Nat → List Nat
  | 0, _ => []
  | n + 1, u => if u = 0 then [] else (u % 2 ^ w) :: setIntLoop w n (if w = 64 then u else u >>> w)

/-- `cry_mpi_set_int` (src/mpi/mpi_core.c:71-95) for a 64-bit `long`; `none` is the signed
overflow of `-val` for the least value (undefined). -/
def setInt (w : Nat) (v : Int) : Option Mpi :=
  if v = -2 ^ 63 then none
  else if v < 0 then some ⟨true, setIntLoop w (64 / w) (-v).toNat⟩
  else some ⟨false, setIntLoop w (64 / w) v.toNat⟩

/-- Result of `cry_mpi_get_int`. -/
inductive GetInt where
  | err
  | ub
  | ok (v : Int)
deriving DecidableEq

/-- `cry_mpi_get_int` (src/mpi/mpi_core.c:97-117) with 64-bit digits: no shift is compiled, so
`rval` is the or of all digits (at most one, by the check) converted to `long` modulo 2^64.
Negating the least `long` is undefined. -/
def getInt (x : Mpi) : GetInt :=
  if countBits 64 x > 64 - (if x.neg then 0 else 1) then .err
  else
    let u : Nat := x.digs.foldr (fun d r => r ||| d) 0
    let rval : Int := if u < 2 ^ 63 then u else (u : Int) - 2 ^ 64
    if x.neg then (if rval = -2 ^ 63 then .ub else .ok (-rval)) else .ok rval

/-- Result of the random number functions. -/
inductive RandOut where
  | err
  | ub
  | ok (x : Mpi)
deriving DecidableEq

/-- `cry_mpi_grow` (src/mpi/mpi_core.c:5-24): the new number of allocated digits. -/
def grow (alloc digs : Nat) : Nat := if digs ≤ alloc then alloc else digs + (16 - digs % 8)

/-- `cry_mpi_rand` (src/mpi/mpi_rand.c:8-35): `old`/`alloc` are the sign flag and allocated digits of the
destination, `bs` the bytes delivered by the generator (`(bits + 7) / 8` of them).  The top digit is
modified in place: beyond `used` this does not change the value, beyond the allocated digits it
is undefined. -/
def rand (w : Nat) (old : Bool) (alloc bits : Nat) (bs : List Byte) : RandOut :=
  if bits = 0 then .ok ⟨false, []⟩
  else
    let x := loadBin w old bs
    let alloc := grow alloc x.digs.length
    let digs := (bits - 1) / w + 1
    let msb := bits - w * (digs - 1)
    if alloc < digs then .ub
    else if x.digs.length < digs then .ok x
    else
      let d := dig x.digs (digs - 1)
      let d := if msb < w then d &&& (1 <<< msb - 1) else d
      let d := d ||| 1 <<< (msb - 1)
      .ok { x with digs := x.digs.set (digs - 1) d }

/-- `cry_mpi_rand_range` (src/mpi/mpi_rand.c:37-47). -/
def randRange (w : Nat) (old : Bool) (alloc : Nat) (max : Mpi) (bs : List Byte) : RandOut :=
  match rand w old alloc (countBits w max) bs with
  | .ok a =>
    if cmpAbs a max ≥ 0 then
      match mod w .none a max with
      | none => .err
      | some r => .ok r
    else .ok a
  | o => o

end Verif.Mpi
