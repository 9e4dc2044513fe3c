/-
Model of src/crypt/memxor.c.

Memory is a total map from addresses (natural numbers) to bytes.  Pointer
comparison is comparison of addresses (all three buffers belong to one flat
address space, as the C code assumes).  Address wrap-around is not modelled.
-/
namespace Verif

/-- A byte (`unsigned char`). -/
abbrev Byte := BitVec 8

namespace MemXor

/-- Flat memory. -/
abbrev Mem := Nat → Byte

/-- Store one byte. -/
def store (m : Mem) (a : Nat) (v : Byte) : Mem := fun x => if x = a then v else m x

/-- One iteration `dst[i] = src1[i] ^ src2[i]` (memxor.c:68, memxor.c:73). -/
def step2 (dst s1 s2 : Nat) (m : Mem) (i : Nat) : Mem :=
  store m (dst + i) (m (s1 + i) ^^^ m (s2 + i))

/-- Forward loop of case 1 (memxor.c:67-68). -/
def fwd2 (m : Mem) (dst s1 s2 n : Nat) : Mem :=
  (List.range n).foldl (step2 dst s1 s2) m

/-- Backward loop of case 2 (memxor.c:71-74). -/
def bwd2 (m : Mem) (dst s1 s2 : Nat) : Nat → Mem
  | 0 => m
  | n + 1 => bwd2 (step2 dst s1 s2 m n) dst s1 s2 n

/-- Body of the first loop of case 3 (memxor.c:79-81); the state is `(m, j)`. -/
def step3a (dst s1 s2 n : Nat) (st : Mem × Nat) (i : Nat) : Mem × Nat :=
  let m := store st.1 (dst + st.2) (st.1 (s1 + i) ^^^ st.1 (s2 + i))
  let j := st.2 + 1
  (m, if j = n then 0 else j)

/-- Body of the second loop of case 3 (memxor.c:86-90); the state is `(m, j)`. -/
def step3b (dst n : Nat) (st : Mem × Nat) (i : Nat) : Mem × Nat :=
  let t := st.1 (dst + st.2)
  let m := store st.1 (dst + st.2) (st.1 (dst + i))
  let m := store m (dst + i) t
  (m, if st.2 < n - 1 then st.2 + 1 else st.2)

/-- Case 3 (memxor.c:77-91).  Reached only with `dst < src1 + n`, so the
subtraction in `j` does not underflow; reached only with `n ≥ 1`. -/
def case3 (m : Mem) (dst s1 s2 n : Nat) : Mem :=
  let j := s1 + n - dst
  let st := (List.range n).foldl (step3a dst s1 s2 n) (m, j)
  let st := (List.range (n - 1)).foldl (step3b dst n) (st.1, j)
  st.1

/-- `memcpy(dst, src, n)` between disjoint buffers (memxor.c:97). -/
def memcpy (m : Mem) (dst src n : Nat) : Mem :=
  fun x => if dst ≤ x ∧ x < dst + n then m (src + (x - dst)) else m x

/-- `cry_memxor2` (memxor.c:52-101).  `allocs` are the results of the successive
`malloc(n)` calls: `none` (or an exhausted list) is an allocation failure,
`some a` a block of `n` bytes at address `a`. -/
def memxor2 (allocs : List (Option Nat)) (m : Mem) (dst src1 src2 n : Nat) : Mem :=
  let s1 := if src2 < src1 then src2 else src1
  let s2 := if src2 < src1 then src1 else src2
  if dst ≤ s1 ∨ (s1 + n ≤ dst ∧ dst ≤ s2) then
    fwd2 m dst s1 s2 n
  else if s2 ≤ dst ∨ (s1 ≤ dst ∧ dst + n ≤ s2) then
    bwd2 m dst s1 s2 n
  else if s1 + n < s2 then
    case3 m dst s1 s2 n
  else
    match allocs with
    | [] => m
    | none :: _ => m
    | some tmp :: rest => memcpy (memxor2 rest m tmp s1 s2 n) dst tmp n

/-- `*dst ^= *src` at offset `i` (memxor.c:110, memxor.c:113). -/
def step1 (dst s : Nat) (m : Mem) (i : Nat) : Mem :=
  store m (dst + i) (m (dst + i) ^^^ m (s + i))

/-- Backward loop of `cry_memxor` (memxor.c:112-113). -/
def bwd1 (m : Mem) (dst s : Nat) : Nat → Mem
  | 0 => m
  | n + 1 => bwd1 (step1 dst s m n) dst s n

/-- `cry_memxor` (memxor.c:103-115). -/
def memxor (m : Mem) (dst src n : Nat) : Mem :=
  if dst ≤ src then (List.range n).foldl (step1 dst src) m
  else bwd1 m dst src n

end MemXor
end Verif
