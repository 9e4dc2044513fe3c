import Verif.Model.Bytes
/-! Model of the LFSR113 generator (src/prng/prng_lfsr113.c). -/
namespace Verif.Lfsr

/-- The static `z[4]` (src/prng/prng_lfsr113.c:20). -/
structure St where
  z0 : BitVec 32
  z1 : BitVec 32
  z2 : BitVec 32
  z3 : BitVec 32
deriving DecidableEq

/-- The four updates of `RAND_GET` (src/prng/prng_lfsr113.c:24-31).  The masks have type `unsigned long`; the results
are cut to 32 bits by the assignment, so that 32-bit operations give the same. -/
def next (s : St) : St :=
  ⟨((s.z0 &&& 4294967294#32) <<< 18) ^^^ (((s.z0 <<< 6) ^^^ s.z0) >>> 13),
   ((s.z1 &&& 4294967288#32) <<< 2) ^^^ (((s.z1 <<< 2) ^^^ s.z1) >>> 27),
   ((s.z2 &&& 4294967280#32) <<< 7) ^^^ (((s.z2 <<< 13) ^^^ s.z2) >>> 21),
   ((s.z3 &&& 4294967168#32) <<< 13) ^^^ (((s.z3 <<< 3) ^^^ s.z3) >>> 12)⟩

/-- The value of `RAND_GET` (src/prng/prng_lfsr113.c:32), from the updated registers. -/
def value (s : St) : BitVec 32 := s.z0 ^^^ s.z1 ^^^ s.z2 ^^^ s.z3

/-- The bytes of `z` in memory; the machine is little endian. -/
def bytes (s : St) : List Byte := write32le s.z0 ++ write32le s.z1 ++ write32le s.z2 ++ write32le s.z3

/-- Word `i` of the memory of `z`. -/
def word (l : List Byte) (i : Nat) : BitVec 32 :=
  read32le (l.getD (4 * i) 0) (l.getD (4 * i + 1) 0) (l.getD (4 * i + 2) 0) (l.getD (4 * i + 3) 0)

/-- `DEFAULT_SEED` (src/prng/prng_lfsr113.c:18). -/
def defaultSeed : BitVec 32 := 987654321#32

/-- `cry_prng_lfsr113_init` (src/prng/prng_lfsr113.c:35-53) from the state before.  `none`: the `memset` writes past the
end of `z`. -/
def init (s : St) (seed : List Byte) : Option St :=
  if seed.length > 16 then none
  else
    let p := List.replicate seed.length (0 : Byte) ++ (bytes s).drop seed.length
    let p := List.zipWith (· ^^^ ·) (p.take seed.length) seed ++ p.drop seed.length
    some
      ⟨if word p 0 < 1#32 then defaultSeed else word p 0,
       if word p 1 < 7#32 then defaultSeed else word p 1,
       if word p 2 < 15#32 then defaultSeed else word p 2,
       if word p 3 < 127#32 then defaultSeed else word p 3⟩

/-- The words given by the loop of `cry_prng_lfsr113_rand` (src/prng/prng_lfsr113.c:63-69). -/
def words (s : St) : Nat → List Byte × St
  | 0 => ([], s)
  | n + 1 =>
    let s := next s
    let r := words s n
    (write32be (value s) ++ r.1, r.2)

/-- `z` and `init` as the program starts (src/prng/prng_lfsr113.c:20-21). -/
def zero : St := ⟨0, 0, 0, 0⟩

/-- `cry_prng_lfsr113_rand` (src/prng/prng_lfsr113.c:55-79).  The state is `none` as long as `init` is 0: then `z` has
its start value, since only the two functions write it, and the generator is initialised without seed. -/
def rand (st : Option St) (siz : Nat) : Option (List Byte × St) := do
  let s ← match st with
    | some s => some s
    | none => init zero []
  let r := words s (siz / 4)
  let i := siz &&& 3
  if i ≠ 0 then
    let s := next r.2
    some (r.1 ++ (write32be (value s)).take i, s)
  else some r

/-- `cry_prng_lfsr113_init` in a program (src/prng/prng_lfsr113.c:35-53): before the first call `z` is zero. -/
def initSt (st : Option St) (seed : List Byte) : Option St := init (st.getD zero) seed

end Verif.Lfsr
