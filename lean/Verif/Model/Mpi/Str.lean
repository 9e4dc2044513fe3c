import Verif.Model.Mpi.Bin
/-!
# Model of string import/export (src/mpi/mpi_str.c)

A C string is the list of its bytes without the terminating 0.
-/
namespace Verif.Mpi

/-- `ASC_TO_RAW_CHAR` (src/mpi/mpi_str.c:5-8).  The argument is a `char`, or in `cry_mpi_load_str` a
`char` converted to an unsigned digit; bytes above 127 match no range either way. -/
def ascToRaw (c : Byte) : Nat :=
  let n := c.toNat
  if 48 ≤ n ∧ n ≤ 57 then n - 48
  else if 97 ≤ n ∧ n ≤ 122 then (n - 97) + 10
  else if 65 ≤ n ∧ n ≤ 90 then (n - 65) + 10
  else 0

/-- The loop of `load_str_hex` (src/mpi/mpi_str.c:31-37); values are truncated to bytes. -/
def hexPairs : List Byte → List Byte
  | c :: c' :: cs => (BitVec.ofNat 8 (ascToRaw c <<< 4) ||| BitVec.ofNat 8 (ascToRaw c')) :: hexPairs cs
  | _ => []

/-- `load_str_hex` (src/mpi/mpi_str.c:10-42), allocation succeeds.  `old` is the sign of the object. -/
def loadStrHex (w : Nat) (old : Bool) (s : List Byte) : Mpi :=
  if s.length &&& 1 ≠ 0 then
    match s with
    | [] => loadBin w old []
    | first :: rest => loadBin w old (BitVec.ofNat 8 (ascToRaw first) :: hexPairs rest)
  else loadBin w old (hexPairs s)

/-- The conversion loop of `cry_mpi_load_str` (src/mpi/mpi_str.c:114-124): the number and the part of
the string not consumed.  `tmp` always has `used = 1`. -/
def strLoop (w radix : Nat) : Mpi → List Byte → Mpi × List Byte
  | a, [] => (a, [])
  | a, c :: cs =>
    let d := ascToRaw c
    if radix ≤ d then (a, c :: cs)
    else
      match mul w false a ⟨false, [radix]⟩ with
      | none => (a, c :: cs)
      | some a1 =>
        match add (2 ^ w) a1 ⟨false, [d]⟩ with
        | none => (a1, c :: cs)
        | some a2 => strLoop w radix a2 cs

/-- The part after the optional sign (src/mpi/mpi_str.c:97-132). -/
def loadStrBody (w radix : Nat) (sign : Bool) (s : List Byte) : Option Mpi :=
  let fix (a : Mpi) : Mpi := ⟨if a.digs.length = 0 then false else sign, a.digs⟩
  if radix = 16 then some (fix (loadStrHex w false s))
  else
    let (a, rest) := strLoop w radix ⟨false, []⟩ (s.dropWhile (· == 48#8))
    if rest ≠ [] then none else some (fix a)

/-- `cry_mpi_load_str` (src/mpi/mpi_str.c:75-133); `none` is the return value −1.  Radices 0 and 1 are
accepted by the code too. -/
def loadStr (w radix : Nat) (s : List Byte) : Option Mpi :=
  if radix > 36 then none
  else
    match s with
    | [] => loadStrBody w radix false []
    | c :: cs =>
      if c = 45#8 then loadStrBody w radix true cs
      else if c = 43#8 then loadStrBody w radix false cs
      else loadStrBody w radix false (c :: cs)

/-- `RAW_TO_ASC_CHAR` (src/mpi/mpi_str.c:44-45), stored into a `char`. -/
def rawToAsc (c : Nat) : Byte := BitVec.ofNat 8 (if c < 10 then 48 + c else 97 + (c - 10))

/-- Store a byte. -/
def updB (s : Nat → Byte) (i : Nat) (v : Byte) : Nat → Byte := fun k => if k = i then v else s k

/-- The expansion loop of `store_str_hex` (src/mpi/mpi_str.c:62-70), in place in the buffer `s`. -/
def hexExpand : Nat → Nat → (Nat → Byte) → (Nat → Byte)
  | 0, _, s => s
  | i + 1, j, s =>
    let s := updB s (j - 1) (rawToAsc (s i &&& 0x0f#8).toNat)
    if j - 1 = 0 then s
    else hexExpand i (j - 2) (updB s (j - 2) (rawToAsc ((s i >>> 4) &&& 0x0f#8).toNat))

/-- `store_str_hex` (src/mpi/mpi_str.c:47-72) for a number that is not zero (as in its only call): the
string left in the buffer. -/
def storeStrHex (w : Nat) (a : Mpi) : Option (List Byte) :=
  match storeBin w a (countBytes w a) false with
  | none => none
  | some bs =>
    let s : Nat → Byte := fun k => bs.getD k 0
    let j := countBytes w a <<< 1
    let j := if (s 0 &&& 0xf0#8) = 0 then j - 1 else j
    some ((List.range j).map (hexExpand (countBytes w a) j s))

/-- The division loop of `cry_mpi_store_str` (src/mpi/mpi_str.c:164-169): characters appended, least
significant first.  The first argument bounds the number of turns (`none` when used up). -/
def digLoop (w : Nat) (rad : Mpi) : Nat → Mpi → Option (List Byte)
  | 0, _ => none
  | fuel + 1, tmp =>
    if tmp.digs.length = 0 then some []
    else
      match divAbs w tmp rad with
      | none => none
      | some (q, rem) =>
        let d := if rem.digs.length ≠ 0 then dig rem.digs 0 else 0
        (digLoop w rad fuel q).map (rawToAsc d :: ·)

/-- The xor-swap reversal (src/mpi/mpi_str.c:175-183), in place; the first argument bounds the
number of turns and is at least `i - j`. -/
def revLoop : Nat → Nat → Nat → (Nat → Byte) → (Nat → Byte)
  | 0, _, _, s => s
  | fuel + 1, j, i, s =>
    if j < i then
      let s := updB s j (s j ^^^ s i)
      let s := updB s i (s i ^^^ s j)
      let s := updB s j (s j ^^^ s i)
      revLoop fuel (j + 1) (i - 1) s
    else s

/-- `cry_mpi_store_str` (src/mpi/mpi_str.c:136-187); `none` is an error.  The buffer is assumed large
enough (the function has no size argument). -/
def storeStr (w : Nat) (a : Mpi) (radix : Nat) : Option (List Byte) :=
  if radix < 2 ∨ radix > 16 then none
  else if a.digs.length = 0 then some [48#8]
  else if radix = 16 then
    (storeStrHex w a).map fun s => if a.neg then 45#8 :: s else s
  else
    match digLoop w ⟨false, [radix]⟩ (w * a.digs.length + 1) a with
    | none => none
    | some cs =>
      let cs := if a.neg then cs ++ [45#8] else cs
      let s := revLoop cs.length 0 (cs.length - 1) fun k => cs.getD k 0
      some ((List.range cs.length).map s)

end Verif.Mpi
