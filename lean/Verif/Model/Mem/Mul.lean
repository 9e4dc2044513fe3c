import Verif.Model.Mem.Core
/-!
# Multiplication and squaring in memory (src/mpi/mpi_mul*.c, src/mpi/mpi_sqr*.c)

Functions with local objects take the address `sp` of the first of them; everything the caller can see is
below `sp`.
-/
namespace Verif.Mem
open Verif.Mpi (Mpi)

/-- Inner loop of the Comba routines (src/mpi/mpi_mul_comba.c:52-56, src/mpi/mpi_sqr_comba.c:54-58):
`n` products are left, `tx` and `ty` are the positions of `tmpx` and `tmpy`. -/
def combaCol (w x y : Nat) : Nat → Nat → Nat → Nat × Nat × Nat → M (Nat × Nat × Nat)
  | 0, _, _, c => pure c
  | n + 1, tx, ty, c => do
    let i ← rd x tx
    let j ← rd y ty
    combaCol w x y n (tx + 1) (ty - 1) (Mpi.muladd w c i j)

/-- Outer loop of `cry_mpi_mul_comba` (src/mpi/mpi_mul_comba.c:32-60): `n` columns are left, from `ix` on. -/
def combaLoop (w dst x y lx ly : Nat) : Nat → Nat → Nat → Nat → M Unit
  | 0, _, _, _ => pure ()
  | n + 1, ix, c1, c2 => do
    let ty := min ix (ly - 1)
    let tx := ix - ty
    let iy := min (lx - tx) (ty + 1)
    let c ← combaCol w x y iy tx ty (c1, c2, 0)
    wr dst ix c.1
    combaLoop w dst x y lx ly n (ix + 1) c.2.1 c.2.2

/-- `cry_mpi_mul_comba` (src/mpi/mpi_mul_comba.c:4-66).  Locals: `tmp` at `sp`. -/
def mulComba (w sp r x y : Nat) : M Int := do
  decl sp 1
  let hx ← hdr x
  let hy ← hdr y
  if hx.used = 0 ∨ hy.used = 0 then
    zero r
    pure 0
  else
    let pa := hx.used + hy.used
    let dst := if r = x ∨ r = y then sp else r
    chk (if r = x ∨ r = y then initSize sp pa else grow r pa) do
      setUsedZ dst pa
      combaLoop w dst x y hx.used hy.used pa 0 0 0
      if r ≠ dst then
        swap r dst
        clear dst
      adjust r
      pure 0

/-- `n` digits of `x` from position `k` on are copied to the front of `d` (`memcpy`). -/
def memcpyLoop (d x k : Nat) : Nat → Nat → M Unit
  | 0, _ => pure ()
  | n + 1, i => do
    wr d i (← rd x (k + i))
    memcpyLoop d x k n (i + 1)

/-- `CRY_CHK(res = cry_mpi_init_size(a, n), …)`, a block, and the matching `cry_mpi_clear(a)`. -/
def within (a n : Nat) (body : M Int) : M Int :=
  chk (initSize a n) do
    let st ← body
    clear a
    pure st

/-- `cry_mpi_mul_karatsuba` (src/mpi/mpi_mul_karatsuba.c:5-72).  `mul` is `cry_mpi_mul_abs` with the locals it may
use.  Locals: `x0, x1, y0, y1, z0, z1, z2` from `sp` on. -/
def mulKaratsuba (w : Nat) (mul : Nat → Nat → Nat → Nat → M Int) (sp r a b : Nat) : M Int := do
  decl sp 7
  let ha ← hdr a
  let hb ← hdr b
  if ha.used = 0 ∨ hb.used = 0 then
    zero r
    pure 0
  else
    let hB := min ha.used hb.used / 2
    let B := hB * 2
    let x0 := sp
    let x1 := sp + 1
    let y0 := sp + 2
    let y1 := sp + 3
    let z0 := sp + 4
    let z1 := sp + 5
    let z2 := sp + 6
    let sq := sp + 7
    within x0 hB <| within x1 (ha.used - hB) <| within y0 hB <| within y1 (hb.used - hB) <| within z0 B <|
      within z1 B <| within z2 B do
        setUsed x0 hB
        setUsed y0 hB
        setUsed x1 (ha.used - hB)
        setUsed y1 (hb.used - hB)
        memcpyLoop x0 a 0 hB 0
        memcpyLoop y0 b 0 hB 0
        memcpyLoop x1 a hB (ha.used - hB) 0
        memcpyLoop y1 b hB (hb.used - hB) 0
        adjust x0
        adjust y0
        chk (mul sq z0 x0 y0) <|
        chk (mul sq z2 x1 y1) <|
        chk (add (2 ^ w) z1 x1 x0) <|
        chk (add (2 ^ w) x0 y1 y0) <|
        chk (mul sq z1 z1 x0) <|
        chk (add (2 ^ w) x0 z0 z2) <|
        chk (sub (2 ^ w) z1 z1 x0) <|
        chk (shld z1 hB) <|
        chk (shld z2 B) <|
        chk (add (2 ^ w) z1 z0 z1) <|
        chk (add (2 ^ w) r z1 z2) <|
        pure 0

/-- `mod_2e` (src/mpi/mpi_mul_toom3.c:4-33) for `e = k · w`; the callers pass nothing else, so the partial digit
(line 28) is masked with 0. -/
def modDigits (r a k : Nat) : M Int := do
  if k = 0 then
    zero r
    pure 0
  else
    chk (copy r a) do
      if k ≥ (← hdr a).used then pure 0
      else
        let u := (← hdr r).used
        zeroLoop r (u - k) k
        let _ ← rd r k
        wr r k 0
        adjust r
        pure 0

/-- Loop of `div3` (src/mpi/mpi_mul_toom3.c:57-76), from the top digit down; `n` digits are left, `v` is the
remainder so far. -/
def div3Loop (w q a : Nat) : Nat → Nat → M Unit
  | 0, _ => pure ()
  | n + 1, r => do
    let v := ((r <<< w) % 2 ^ (2 * w)) ||| (← rd a n)
    if v ≥ 3 then
      let t := (v * (2 ^ w / 3) % 2 ^ (2 * w)) / 2 ^ w
      let p := Mpi.div3Fix t (v - (t + t + t))
      wr q n (p.1 % 2 ^ w)
      div3Loop w q a n p.2
    else
      wr q n 0
      div3Loop w q a n v

/-- `div3` (src/mpi/mpi_mul_toom3.c:39-82).  Locals: `q` at `sp`. -/
def div3 (w sp a : Nat) : M Int := do
  decl sp 1
  let h ← hdr a
  chk (initSize sp h.used) do
    setUsed sp h.used
    setSign sp h.neg
    div3Loop w sp a h.used 0
    adjust sp
    swap sp a
    clear sp
    pure 0

/-- `cry_mpi_mul` (src/mpi/mpi_mul.c:3-12) on top of `cry_mpi_mul_abs`. -/
def mulWith (mulAbs : Nat → Nat → Nat → Nat → M Int) (sp r x y : Nat) : M Int := do
  let hx ← hdr x
  let hy ← hdr y
  let g := xor hx.neg hy.neg
  let st ← mulAbs sp r x y
  if st = 0 then
    if (← hdr r).used ≠ 0 then setSign r g
  pure st

/-- `cry_mpi_mul_toom3` (src/mpi/mpi_mul_toom3.c:90-220).  `mul` is `cry_mpi_mul`.
Locals: `w0 … w4, a0, a1, a2, b0, b1, b2, t1, t2` from `sp` on. -/
def mulToom3 (w : Nat) (mul : Nat → Nat → Nat → Nat → M Int) (sp r a b : Nat) : M Int := do
  decl sp 13
  let ha ← hdr a
  let hb ← hdr b
  if ha.used = 0 ∨ hb.used = 0 then
    zero r
    pure 0
  else
    let w0 := sp
    let w1 := sp + 1
    let w2 := sp + 2
    let w3 := sp + 3
    let w4 := sp + 4
    let a0 := sp + 5
    let a1 := sp + 6
    let a2 := sp + 7
    let b0 := sp + 8
    let b1 := sp + 9
    let b2 := sp + 10
    let t1 := sp + 11
    let t2 := sp + 12
    let sq := sp + 13
    chk (initList [w0, w1, w2, w3, w4, a0, a1, a2, b0, b1, b2, t1, t2]) do
      let B := min ha.used hb.used / 3
      let st ←
        chk (modDigits a0 a B) <|
        chk (copy a1 a) <|
        chk (shrd a1 B) <|
        chk (modDigits a1 a1 B) <|
        chk (copy a2 a) <|
        chk (shrd a2 (B * 2)) <|
        chk (modDigits b0 b B) <|
        chk (copy b1 b) <|
        chk (shrd b1 B) <|
        chk (modDigits b1 b1 B) <|
        chk (copy b2 b) <|
        chk (shrd b2 (B * 2)) <|
        chk (add (2 ^ w) t1 a0 a2) <|
        chk (add (2 ^ w) t2 b0 b2) <|
        chk (add (2 ^ w) w1 t1 a1) <|
        chk (add (2 ^ w) w2 t2 b1) <|
        chk (mul sq w1 w1 w2) <|
        chk (sub (2 ^ w) t1 t1 a1) <|
        chk (sub (2 ^ w) t2 t2 b1) <|
        chk (mul sq w2 t1 t2) <|
        chk (add (2 ^ w) t1 t1 a2) <|
        chk (shl w t1 t1 1) <|
        chk (sub (2 ^ w) t1 t1 a0) <|
        chk (add (2 ^ w) t2 t2 b2) <|
        chk (shl w t2 t2 1) <|
        chk (sub (2 ^ w) t2 t2 b0) <|
        chk (mul sq w3 t1 t2) <|
        chk (mul sq w0 a0 b0) <|
        chk (mul sq w4 a2 b2) <|
        chk (sub (2 ^ w) w3 w3 w1) <|
        chk (div3 w sq w3) <|
        chk (sub (2 ^ w) w1 w1 w2) <|
        chk (shr w w1 w1 1) <|
        chk (sub (2 ^ w) w2 w2 w0) <|
        chk (sub (2 ^ w) w3 w2 w3) <|
        chk (shr w w3 w3 1) <|
        chk (shl w t1 w4 1) <|
        chk (add (2 ^ w) w3 w3 t1) <|
        chk (add (2 ^ w) w2 w2 w1) <|
        chk (sub (2 ^ w) w2 w2 w4) <|
        chk (sub (2 ^ w) w1 w1 w3) <|
        chk (shld w1 (1 * B)) <|
        chk (shld w2 (2 * B)) <|
        chk (shld w3 (3 * B)) <|
        chk (shld w4 (4 * B)) <|
        chk (add (2 ^ w) r w0 w1) <|
        chk (add (2 ^ w) t1 w2 w3) <|
        chk (add (2 ^ w) t1 w4 t1) <|
        chk (add (2 ^ w) r t1 r) <|
        pure 0
      clearList [w0, w1, w2, w3, w4, a0, a1, a2, b0, b1, b2, t1, t2]
      pure st

/-- `cry_mpi_mul_abs` (src/mpi/mpi_mul_abs.c:8-25) in the default configuration; the first argument bounds the
depth of the recursion. -/
def mulAbs (w : Nat) : Nat → Nat → Nat → Nat → Nat → M Int
  | 0, _, _, _, _ => hang
  | fuel + 1, sp, r, x, y => do
    let hx ← hdr x
    let hy ← hdr y
    if min hx.used hy.used > 300 then mulToom3 w (mulWith (mulAbs w fuel)) sp r x y
    else if min hx.used hy.used > 64 then mulKaratsuba w (mulAbs w fuel) sp r x y
    else mulComba w sp r x y

/-- `cry_mpi_mul` (src/mpi/mpi_mul.c:3-12). -/
def mul (w sp r x y : Nat) : M Int := do
  let hx ← hdr x
  let hy ← hdr y
  mulWith (mulAbs w (min hx.used hy.used + 1)) sp r x y

/-- `cry_mpi_mul_dig` (src/mpi/mpi_mul.c:15-24).  Locals: `tmp` at `sp`, whose digit array is the parameter `b`. -/
def mulDig (w sp r x d : Nat) : M Int := do
  setObj sp ⟨some ⟨false, 1, 1⟩, .mem false [some d]⟩
  mul w (sp + 1) r x sp

/-! ### Squaring -/

/-- Outer loop of `cry_mpi_sqr_comba` (src/mpi/mpi_sqr_comba.c:28-82): `n` columns are left, from `ix` on.
`ty - tx + 1` is computed in `size_t` and is 0 in the last column; here it is `ty + 1 - tx`. -/
def sqrLoop (w dst x lx : Nat) : Nat → Nat → Nat → Nat → M Unit
  | 0, _, _, _ => pure ()
  | n + 1, ix, c1, c2 => do
    let ty := min ix (lx - 1)
    let tx := ix - ty
    let iy := min (lx - tx) (ty + 1)
    let iy := min iy ((ty + 1 - tx) / 2)
    let c : Nat × Nat × Nat := (c1, c2, 0)
    let c ← if iy ≠ 0 then do
        let t ← combaCol w x x iy tx ty (0, 0, 0)
        let t2 := ((t.2.2 <<< 1) % 2 ^ w) ||| (t.2.1 >>> (w - 1))
        let t1 := ((t.2.1 <<< 1) % 2 ^ w) ||| (t.1 >>> (w - 1))
        let t0 := (t.1 <<< 1) % 2 ^ w
        let cc := c.1 + t0
        let c0 := cc % 2 ^ w
        let cc := c.2.1 + t1 + cc / 2 ^ w
        let c1 := cc % 2 ^ w
        let cc := c.2.2 + t2 + cc / 2 ^ w
        pure (c0, c1, cc % 2 ^ w)
      else pure c
    let c ← if ix &&& 1 = 0 then do
        let d ← rd x (ix >>> 1)
        pure (Mpi.muladd w c d d)
      else pure c
    wr dst ix c.1
    sqrLoop w dst x lx n (ix + 1) c.2.1 c.2.2

/-- `cry_mpi_sqr_comba` (src/mpi/mpi_sqr_comba.c:4-91).  Locals: `tmp` at `sp`. -/
def sqrComba (w sp r x : Nat) : M Int := do
  decl sp 1
  let hx ← hdr x
  if hx.used = 0 then
    zero r
    pure 0
  else
    let pa := hx.used + hx.used
    let dst := if r = x then sp else r
    chk (if r = x then initSize sp pa else grow r pa) do
      setUsedZ dst pa
      sqrLoop w dst x hx.used pa 0 0 0
      if r ≠ dst then
        swap r dst
        clear dst
      adjust r
      pure 0

/-- `cry_mpi_sqr_karatsuba` (src/mpi/mpi_sqr_karatsuba.c:3-59).  `sqr` is `cry_mpi_sqr` with the locals it may use.
Locals: `x0, x1, z0, z1, z2` from `sp` on. -/
def sqrKaratsuba (w : Nat) (sqr : Nat → Nat → Nat → M Int) (sp r a : Nat) : M Int := do
  decl sp 5
  let ha ← hdr a
  if ha.used = 0 then
    zero r
    pure 0
  else
    let hB := ha.used / 2
    let B := hB * 2
    let x0 := sp
    let x1 := sp + 1
    let z0 := sp + 2
    let z1 := sp + 3
    let z2 := sp + 4
    let sq := sp + 5
    within x0 hB <| within x1 (ha.used - hB) <| within z0 B <| within z1 B <| within z2 B do
        setUsed x0 hB
        setUsed x1 (ha.used - hB)
        memcpyLoop x0 a 0 hB 0
        memcpyLoop x1 a hB (ha.used - hB) 0
        adjust x0
        chk (sqr sq z0 x0) <|
        chk (sqr sq z2 x1) <|
        chk (add (2 ^ w) z1 x1 x0) <|
        chk (sqr sq z1 z1) <|
        chk (add (2 ^ w) x0 z0 z2) <|
        chk (sub (2 ^ w) z1 z1 x0) <|
        chk (shld z1 hB) <|
        chk (shld z2 B) <|
        chk (add (2 ^ w) z1 z0 z1) <|
        chk (add (2 ^ w) r z1 z2) <|
        pure 0

/-- `cry_mpi_sqr` (src/mpi/mpi_sqr.c:7-19) in the default configuration; the first number bounds the depth of the
recursion. -/
def sqrFuel (w : Nat) : Nat → Nat → Nat → Nat → M Int
  | 0, _, _, _ => hang
  | fuel + 1, sp, r, x => do
    let hx ← hdr x
    if hx.used > 64 then sqrKaratsuba w (sqrFuel w fuel) sp r x
    else sqrComba w sp r x

/-- `cry_mpi_sqr` (src/mpi/mpi_sqr.c:7-19). -/
def sqr (w sp r x : Nat) : M Int := do
  let hx ← hdr x
  sqrFuel w (hx.used + 1) sp r x

end Verif.Mem
