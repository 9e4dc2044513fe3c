import Verif.Model.Ram.Core
import Verif.Model.Crypt.Arc4
import Verif.Model.Crypt.Affine
import Verif.Model.Crypt.Trivium
import Verif.Model.Crypt.Hill
/-!
# Stream ciphers and the classical ciphers on buffers in memory

The contexts are values and not part of the memory.
-/
namespace Verif.Ram

/-- The loop of `cry_arc4_crypt` (src/crypt/arc4.c:51-59), `n` bytes left. -/
def arc4Crypt : Nat → Ram → Arc4.Ctx → Nat → Nat → Option (Ram × Arc4.Ctx)
  | 0, R, c, _, _ => some (R, c)
  | n + 1, R, c, dst, src =>
    let x := c.x + 1
    let a := Arc4.at8 c.s x
    let y := c.y + a
    let b := Arc4.at8 c.s y
    let s := (c.s.set x.toNat b).set y.toNat a
    (load R src).bind fun v => (store R dst (v ^^^ Arc4.at8 s (a + b))).bind fun R => arc4Crypt n R ⟨s, x, y⟩ (dst + 1) (src + 1)

/-- The loop of `cry_affine_encrypt` (src/crypt/affine.c:11-16), `n` bytes left. -/
def affineEnc (c : Affine.Ctx) : Nat → Nat → Ram → Nat → Nat → Option Ram
  | 0, _, R, _, _ => some R
  | n + 1, k, R, out, inp =>
    match c.keya[k]?, c.keyb[k]? with
    | some a, some b => (load R inp).bind fun v => (store R out (v * a + b)).bind fun R =>
      affineEnc c n (if k + 1 = c.keylen then 0 else k + 1) R (out + 1) (inp + 1)
    | _, _ => none

/-- The loop of `cry_affine_decrypt` (src/crypt/affine.c:25-30), `n` bytes left. -/
def affineDec (c : Affine.Ctx) : Nat → Nat → Ram → Nat → Nat → Option Ram
  | 0, _, R, _, _ => some R
  | n + 1, k, R, out, inp =>
    match c.inva[k]?, c.keyb[k]? with
    | some a, some b => (load R inp).bind fun v => (store R out ((v - b) * a)).bind fun R =>
      affineDec c n (if k + 1 = c.keylen then 0 else k + 1) R (out + 1) (inp + 1)
    | _, _ => none

/-- `CRY_READ32_LE(z, a)`. -/
def read32 (R : Ram) (a : Nat) : Option (BitVec 32) :=
  if R.Owned a 4 then some (read32le (R.mem a) (R.mem (a + 1)) (R.mem (a + 2)) (R.mem (a + 3))) else none

/-- `CRY_WRITE32_LE(z, a)`. -/
def write32 (R : Ram) (a : Nat) (z : BitVec 32) : Option Ram := if R.Owned a 4 then some (R.put a (write32le z)) else none

/-- The last bytes of `cry_trivium_crypt` (src/crypt/trivium.c:166-167), `n` bytes left. -/
def triviumTail : Nat → Ram → BitVec 32 → Nat → Nat → Option Ram
  | 0, R, _, _, _ => some R
  | n + 1, R, z, dst, src =>
    (load R src).bind fun v => (store R dst (v ^^^ z.setWidth 8)).bind fun R => triviumTail n R (z >>> 8) (dst + 1) (src + 1)

/-- The loop of `cry_trivium_crypt` over `q` words (src/crypt/trivium.c:156-159) and the `r` bytes behind them. -/
def triviumLoop : Nat → Nat → Ram → Trivium.W → Nat → Nat → Option (Ram × Trivium.W)
  | 0, r, R, w, dst, src =>
    if 0 < r then (triviumTail r R (Trivium.out w) dst src).map fun R => (R, Trivium.update w) else some (R, w)
  | q + 1, r, R, w, dst, src =>
    (read32 R src).bind fun z => (write32 R dst (z ^^^ Trivium.out w)).bind fun R => triviumLoop q r R (Trivium.update w) (dst + 4) (src + 4)

/-- `cry_trivium_crypt` (src/crypt/trivium.c:135-170). -/
def triviumCrypt (c : Trivium.Ctx) (R : Ram) (dst src size : Nat) : Option (Ram × Trivium.Ctx) :=
  (triviumLoop (size / 4) (size % 4) R (Trivium.load c.s) dst src).map fun r => (r.1, { c with s := Trivium.store r.2 })

/-- The loop of `hill_operate` (src/crypt/hill.c:130-139): the block is copied to a local array, filled with zeros, and
`mtx_vec_mul` writes `n` bytes.  `none` also stands for no end (dimension 0); the first number bounds the turns. -/
def hillOperate (n : Nat) (key : List Byte) : Nat → Ram → Nat → Nat → Nat → Option Ram
  | _, R, _, _, 0 => some R
  | 0, _, _, _, _ + 1 => none
  | k + 1, R, out, inp, len + 1 =>
    let m := min n (len + 1)
    if R.Owned inp m ∧ R.Owned out n then
      hillOperate n key k (R.put out (Hill.vecMul key (R.bytes inp m ++ List.replicate (n - m) 0) n)) (out + m) (inp + m) (len + 1 - m)
    else none

/-- `cry_hill_encrypt` (src/crypt/hill.c:142-146). -/
def hillEncrypt (c : Hill.Ctx) (R : Ram) (out inp len : Nat) : Option Ram := hillOperate c.n c.key len R out inp len

/-- `cry_hill_decrypt` (src/crypt/hill.c:149-153). -/
def hillDecrypt (c : Hill.Ctx) (R : Ram) (out inp len : Nat) : Option Ram := hillOperate c.n c.ikey len R out inp len

end Verif.Ram
