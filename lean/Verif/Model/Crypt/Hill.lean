import Verif.Model.MemXor
import Verif.Model.LongInv
/-! Model of the Hill cipher (src/crypt/hill.c).  A matrix of dimension `n` is the list of its `n * n` bytes by rows. -/
namespace Verif.Hill
open Verif.LongInv

/-- `x %= 256; if (x < 0) x += 256` on a `long` (e.g. src/crypt/hill.c:37-39). -/
def norm (x : Int) : Int :=
  let x := Int.tmod x 256
  if x < 0 then x + 256 else x

/-- `mtx_minor` (src/crypt/hill.c:7-25): all rows but `i` and all columns but `j`. -/
def minor (m : List Byte) (i j n : Nat) : List Byte :=
  ((List.range n).filter (· ≠ i)).flatMap fun r => ((List.range n).filter (· ≠ j)).map fun c => m.getD (r * n + c) 0

/-- `mtx_det` (src/crypt/hill.c:27-53).  The recursion is on `n`. -/
def det (m : List Byte) : Nat → Byte
  | 0 => 1
  | 1 => m.getD 0 0
  | 2 => BitVec.ofInt 8 (norm ((m.getD 0 0).toNat * (m.getD 3 0).toNat - (m.getD 1 0).toNat * (m.getD 2 0).toNat))
  | n + 3 =>
    BitVec.ofInt 8 ((List.range (n + 3)).foldl (fun d i =>
      norm (d + (m.getD i 0).toNat * (if i &&& 1 ≠ 0 then -1 else 1) * (det (minor m 0 i (n + 3)) (n + 2)).toNat)) 0)

/-- `mtx_transpose` (src/crypt/hill.c:57-65). -/
def transpose (m : List Byte) (n : Nat) : List Byte :=
  (List.range n).flatMap fun i => (List.range n).map fun j => m.getD (j * n + i) 0

/-- `mtx_invert` (src/crypt/hill.c:67-89). -/
def invert (m : List Byte) (n : Nat) (idet : Byte) : List Byte :=
  let t := transpose m n
  (List.range n).flatMap fun i => (List.range n).map fun j =>
    let c : Int := (det (minor t i j n) (n - 1)).toNat
    let c := if (i + j) &&& 1 ≠ 0 then -c else c
    BitVec.ofInt 8 (norm (c * idet.toNat))

/-- `mtx_vec_mul` (src/crypt/hill.c:91-106). -/
def vecMul (m v : List Byte) (n : Nat) : List Byte :=
  (List.range n).map fun i =>
    BitVec.ofInt 8 (norm ((List.range n).foldl (fun r j => r + (m.getD (i * n + j) 0).toNat * (v.getD j 0).toNat) 0))

/-- The loop of `keylen_trim` (src/crypt/hill.c:114-115).  `fuel` is the key length, which is always enough. -/
def trimLoop (keylen : Nat) : Nat → Nat → Nat
  | 0, n => n
  | fuel + 1, n => if n * n < keylen then trimLoop keylen fuel (n + 1) else n

/-- `keylen_trim` (src/crypt/hill.c:108-121): the dimension, whose square becomes the key length (`keylen` is not
changed when it is a square). -/
def keylenTrim (keylen : Nat) : Nat :=
  let keylen := if keylen > 100 then 100 else keylen
  let n := trimLoop keylen keylen 1
  if n * n > keylen then n - 1 else n

/-- `struct cry_hill_ctx` (include/cry/hill.h). -/
structure Ctx where
  key : List Byte
  ikey : List Byte
  n : Nat
deriving DecidableEq

/-- What can go wrong. -/
inductive Fault where
  | oob   -- a write past the output, or a read past a key argument
  | hang  -- a loop that does not end
deriving DecidableEq

/-- The loop of `hill_operate` (src/crypt/hill.c:130-139).  The last block, when shorter than the dimension, is filled
with zeros and `mtx_vec_mul` writes a whole block to the output, past its end. -/
def operateLoop (n : Nat) (key : List Byte) : Nat → List Byte → Except Fault (List Byte)
  | _, [] => .ok []
  | 0, _ => .error .hang
  | fuel + 1, src =>
    let k := min n src.length
    if k < n then .error .oob
    else do
      let rest ← operateLoop n key fuel (src.drop k)
      return vecMul key (src.take k) n ++ rest

/-- `cry_hill_encrypt` (src/crypt/hill.c:142-146). -/
def encrypt (c : Ctx) (src : List Byte) : Except Fault (List Byte) := operateLoop c.n c.key src.length src

/-- `cry_hill_decrypt` (src/crypt/hill.c:149-153). -/
def decrypt (c : Ctx) (src : List Byte) : Except Fault (List Byte) := operateLoop c.n c.ikey src.length src

/-- The body of the loop of `keygen` once the matrix is chosen (src/crypt/hill.c:171-181): result, key and inverse;
`none` where the loop goes on. -/
def tryKey (n : Nat) (key : List Byte) : Option (Int × List Byte × List Byte) :=
  let d := det key n
  if d &&& 1#8 ≠ 0#8 then
    match longInv (d.setWidth 64) 256 with
    | some i => some (0, key, invert key n (i.setWidth 8))
    | none => none
  else none

/-- The loop of `keygen` (src/crypt/hill.c:165-182) with `trials` left.  `rnd t` are the bytes drawn when `t` further
trials are left. -/
def keygenLoop (n : Nat) (rnd : Nat → Nat → Byte) : Nat → List Byte → Int × List Byte × List Byte
  | 0, key => (tryKey n key).getD (-1, key, [])
  | t + 1, _ =>
    let key := (List.range (n * n)).map (rnd t)
    match tryKey n key with
    | some r => r
    | none => if t = 0 then (-1, key, []) else keygenLoop n rnd t key

/-- `cry_hill_init` (src/crypt/hill.c:187-209): result and context.  `none` for `key` or `ikey` is a null pointer. -/
def init (rnd : Nat → Nat → Byte) (key ikey : Option (List Byte)) (keylen : Nat) : Except Fault (Int × Ctx) :=
  let n := keylenTrim keylen
  let short := fun (k : Option (List Byte)) => match k with
    | some k => decide (k.length < n * n)
    | none => false
  if short key || short ikey then .error .oob
  else
    match key, ikey with
    | some k, some ik => .ok (0, ⟨k.take (n * n), ik.take (n * n), n⟩)
    | none, some _ => .ok (-1, ⟨[], [], n⟩)
    | some k, none =>
      let r := keygenLoop n rnd 0 (k.take (n * n))
      .ok (r.1, ⟨r.2.1, r.2.2, n⟩)
    | none, none =>
      let r := keygenLoop n rnd 100 []
      .ok (r.1, ⟨r.2.1, r.2.2, n⟩)

end Verif.Hill
