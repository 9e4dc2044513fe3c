import Verif.Model.Bytes
/-! Model of Trivium (src/crypt/trivium.c). -/
namespace Verif.Trivium

/-- The local words `s11 .. s34` (src/crypt/trivium.c:90-92, 141-143). -/
structure W where
  s11 : BitVec 32
  s12 : BitVec 32
  s13 : BitVec 32
  s21 : BitVec 32
  s22 : BitVec 32
  s23 : BitVec 32
  s31 : BitVec 32
  s32 : BitVec 32
  s33 : BitVec 32
  s34 : BitVec 32
deriving DecidableEq

/-- `struct cry_trivium_ctx` (include/cry/trivium.h): the arrays have 10 and 40 bytes. -/
structure Ctx where
  key : List Byte
  s : List Byte
deriving DecidableEq

/-- One word of `LOAD`. -/
def word (s : List Byte) (i : Nat) : BitVec 32 :=
  read32le (s.getD i 0) (s.getD (i + 1) 0) (s.getD (i + 2) 0) (s.getD (i + 3) 0)

/-- `LOAD` (src/crypt/trivium.c:9-20). -/
def load (s : List Byte) : W :=
  ⟨word s 0, word s 4, word s 8, word s 12, word s 16, word s 20, word s 24, word s 28, word s 32, word s 36⟩

/-- `STORE` (src/crypt/trivium.c:22-33). -/
def store (w : W) : List Byte :=
  write32le w.s11 ++ write32le w.s12 ++ write32le w.s13 ++ write32le w.s21 ++ write32le w.s22 ++ write32le w.s23 ++
  write32le w.s31 ++ write32le w.s32 ++ write32le w.s33 ++ write32le w.s34

/-- `S64` (src/crypt/trivium.c:36) on words 2 and 3 of a register. -/
def s64 (s3 s2 : BitVec 32) (b : Nat) : BitVec 32 := (s3 <<< (96 - b)) ||| (s2 >>> (b - 64))

/-- `S96` (src/crypt/trivium.c:37) on words 3 and 4 of a register. -/
def s96 (s4 s3 : BitVec 32) (b : Nat) : BitVec 32 := (s4 <<< (128 - b)) ||| (s3 >>> (b - 96))

/-- `UPDATE` up to `Z` (src/crypt/trivium.c:40-42): `t1`, `t2`, `t3`. -/
def taps (w : W) : BitVec 32 × BitVec 32 × BitVec 32 :=
  (s64 w.s13 w.s12 66 ^^^ s64 w.s13 w.s12 93,
   s64 w.s23 w.s22 69 ^^^ s64 w.s23 w.s22 84,
   s64 w.s33 w.s32 66 ^^^ s96 w.s34 w.s33 111)

/-- The argument of `Z` (src/crypt/trivium.c:43). -/
def out (w : W) : BitVec 32 := (taps w).1 ^^^ (taps w).2.1 ^^^ (taps w).2.2

/-- The rest of `UPDATE` and `ROTATE` (src/crypt/trivium.c:44-60). -/
def update (w : W) : W :=
  let t := taps w
  let t1 := t.1 ^^^ (s64 w.s13 w.s12 91 &&& s64 w.s13 w.s12 92) ^^^ s64 w.s23 w.s22 78
  let t2 := t.2.1 ^^^ (s64 w.s23 w.s22 82 &&& s64 w.s23 w.s22 83) ^^^ s64 w.s33 w.s32 87
  let t3 := t.2.2 ^^^ (s96 w.s34 w.s33 109 &&& s96 w.s34 w.s33 110) ^^^ s64 w.s13 w.s12 69
  ⟨t3, w.s11, w.s12, t1, w.s21, w.s22, t2, w.s31, w.s32, w.s33⟩

/-- `cry_trivium_key_set` (src/crypt/trivium.c:73-85). -/
def keySet (c : Ctx) (key : List Byte) : Ctx :=
  let size := if key.length > 10 then 10 else key.length
  { c with key := key.take size ++ List.replicate (10 - size) 0 }

/-- `n` rounds of the loop of `cry_trivium_iv_set` (src/crypt/trivium.c:127-130). -/
def updates (w : W) : Nat → W
  | 0 => w
  | n + 1 => update (updates w n)

/-- `cry_trivium_iv_set` (src/crypt/trivium.c:87-132).  The bytes 38 and 39 of the state keep their values. -/
def ivSet (c : Ctx) (iv : List Byte) : Ctx :=
  let size := if iv.length > 10 then 10 else iv.length
  let s := c.key.take 10 ++ [0, 0] ++ (iv.take size ++ List.replicate (12 - size) 0) ++ List.replicate 13 0 ++ [0x70#8] ++
    c.s.drop 38
  { c with s := store (updates (load s) 36) }

/-- The last bytes (src/crypt/trivium.c:166): `dst[i] = src[i] ^ (uint8_t)z; z >>= 8`. -/
def tail (z : BitVec 32) : List Byte → List Byte
  | [] => []
  | x :: l => (x ^^^ z.setWidth 8) :: tail (z >>> 8) l

/-- The loop of `cry_trivium_crypt` over the words and the part after it (src/crypt/trivium.c:156-167). -/
def loop (w : W) : List Byte → List Byte × W
  | a :: b :: c :: d :: l =>
    let r := loop (update w) l
    (write32le (read32le a b c d ^^^ out w) ++ r.1, r.2)
  | [] => ([], w)
  | l => (tail (out w) l, update w)

/-- `cry_trivium_crypt` (src/crypt/trivium.c:135-170). -/
def crypt (c : Ctx) (src : List Byte) : List Byte × Ctx :=
  let r := loop (load c.s) src
  (r.1, { c with s := store r.2 })

end Verif.Trivium
