import Verif.Model.Bytes
import Verif.Model.Hash.Tables
import Verif.Spec.HashTypes
/-!
# Model of MD5 (src/hash/md5.c)
-/
namespace Verif.Hash.Md5
open Verif.HashS (Regs4)

/-- `F` (src/hash/md5.c:6). -/
def F (x y z : BitVec 32) : BitVec 32 := (x &&& y) ||| (~~~ x &&& z)
/-- `G` (src/hash/md5.c:7). -/
def G (x y z : BitVec 32) : BitVec 32 := (x &&& z) ||| (y &&& ~~~ z)
/-- `H` (src/hash/md5.c:8). -/
def H (x y z : BitVec 32) : BitVec 32 := x ^^^ y ^^^ z
/-- `I` (src/hash/md5.c:9). -/
def I (x y z : BitVec 32) : BitVec 32 := y ^^^ (x ||| ~~~ z)

/-- `ROL` (src/hash/md5.c:12). -/
def rol (x : BitVec 32) (n : Nat) : BitVec 32 := (x <<< n) ||| (x >>> (32 - n))

/-- `FF`, `GG`, `HH`, `II` (src/hash/md5.c:19-41): the new `a`. -/
def line (f : BitVec 32 → BitVec 32 → BitVec 32 → BitVec 32) (inp : List (BitVec 32)) (i : Nat)
    (a b c d : BitVec 32) : BitVec 32 :=
  let q := md5Lines.getD i (0, 0, 0)
  let a := a + (f b c d + inp.getD q.1 0 + q.2.2)
  let a := rol a q.2.1
  a + b

/-- Four consecutive lines, after which the variables have their old places. -/
def four (f : BitVec 32 → BitVec 32 → BitVec 32 → BitVec 32) (inp : List (BitVec 32)) (i : Nat) : Regs4 → Regs4
  | ⟨a, b, c, d⟩ =>
    let a := line f inp i a b c d
    let d := line f inp (i + 1) d a b c
    let c := line f inp (i + 2) c d a b
    let b := line f inp (i + 3) b c d a
    ⟨a, b, c, d⟩

/-- The sixteen lines of a round. -/
def sixteen (f : BitVec 32 → BitVec 32 → BitVec 32 → BitVec 32) (inp : List (BitVec 32)) (i : Nat) (r : Regs4) : Regs4 :=
  four f inp (i + 12) (four f inp (i + 8) (four f inp (i + 4) (four f inp i r)))

/-- `cry_md5_process` (src/hash/md5.c:43-142). -/
def process (st : Regs4) (inp : List (BitVec 32)) : Regs4 :=
  let r := sixteen I inp 48 (sixteen H inp 32 (sixteen G inp 16 (sixteen F inp 0 st)))
  ⟨st.a + r.a, st.b + r.b, st.c + r.c, st.d + r.d⟩

/-- `struct cry_md5_ctx` (include/cry/md5.h:18-22). -/
structure Ctx where
  data : List Byte
  len0 : BitVec 32
  len1 : BitVec 32
  state : Regs4

/-- `cry_md5_init` (src/hash/md5.c:145-153). -/
def init : Ctx := ⟨List.replicate 64 0, 0, 0, ⟨0x67452301, 0xefcdab89, 0x98badcfe, 0x10325476⟩⟩

/-- Word `i` of the buffer (src/hash/md5.c:185-188, 217-220). -/
def word (data : List Byte) (i : Nat) : BitVec 32 :=
  read32le (data.getD (4 * i) 0) (data.getD (4 * i + 1) 0) (data.getD (4 * i + 2) 0) (data.getD (4 * i + 3) 0)

/-- The loop of `cry_md5_update` (src/hash/md5.c:178-193). -/
def feed : Nat → List Byte → Regs4 → List Byte → List Byte × Regs4
  | _, data, st, [] => (data, st)
  | mdi, data, st, b :: bs =>
    let data := data.set mdi b
    if mdi + 1 = 0x40 then feed 0 data (process st ((List.range 16).map (word data))) bs
    else feed (mdi + 1) data st bs

/-- `cry_md5_update` (src/hash/md5.c:162-194). -/
def update (c : Ctx) (d : List Byte) : Ctx :=
  let mdi := ((c.len0 >>> 3) &&& 0x3F#32).toNat
  let size := BitVec.ofNat 32 d.length
  let len1 := if c.len0 + (size <<< 3) < c.len0 then c.len1 + 1 else c.len1
  let len0 := c.len0 + (size <<< 3)
  let len1 := len1 + (size >>> 29)
  let p := feed mdi c.data c.state d
  ⟨p.1, len0, len1, p.2⟩

/-- `cry_md5_digest` (src/hash/md5.c:197-232). -/
def digest (c : Ctx) : List Byte :=
  let mdi := ((c.len0 >>> 3) &&& 0x3F#32).toNat
  let padlen := if mdi < 56 then 56 - mdi else 120 - mdi
  let c' := update c ((0x80#8 :: List.replicate 63 0).take padlen)
  let r := process c'.state ((List.range 14).map (word c'.data) ++ [c.len0, c.len1])
  write32le r.a ++ write32le r.b ++ write32le r.c ++ write32le r.d

/-- `cry_md5` (src/hash/md5.c:235-243). -/
def md5 (data : List Byte) : List Byte := digest (update init data)

end Verif.Hash.Md5
