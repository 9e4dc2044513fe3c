import Verif.Model.Mpi.Shift
/-!
# Model of multiplication and squaring (src/mpi/mpi_mul*.c, src/mpi/mpi_sqr*.c)

`w` is the digit width, the base is `2^w`, a double word is `2^(2w)`.
`old` is the sign member of the destination object at the time the digits are written: the
Comba routines write straight into the caller's object and do not touch its sign, unless
the destination is an operand, when a fresh temporary (sign 0) is swapped in.
-/
namespace Verif.Mpi

/-- `MULADD` (src/mpi/mpi_pvt.h:112-119): add `i*j` to the three digit accumulator. -/
def muladd (w : Nat) (c : Nat × Nat × Nat) (i j : Nat) : Nat × Nat × Nat :=
  let t := (c.1 + i * j) % 2 ^ (2 * w)
  let c0 := t % 2 ^ w
  let t := (c.2.1 + t / 2 ^ w) % 2 ^ (2 * w)
  let c1 := t % 2 ^ w
  (c0, c1, (c.2.2 + t / 2 ^ w) % 2 ^ w)

/-- Digit `i` of a number; reads are within bounds (`comba_reads`). -/
def dig (xs : List Nat) (i : Nat) : Nat := xs.getD i 0

/-- Inner loop of the Comba routines (src/mpi/mpi_mul_comba.c:50-54):
`iy` products `x[tx+iz] * y[ty-iz]`. -/
def combaCol (w : Nat) (xs ys : List Nat) (tx ty iy : Nat) (c : Nat × Nat × Nat) :
    Nat × Nat × Nat :=
  (List.range iy).foldl (fun c iz => muladd w c (dig xs (tx + iz)) (dig ys (ty - iz))) c

/-- One turn of the outer loop of `cry_mpi_mul_comba` (src/mpi/mpi_mul_comba.c:29-58).  The
state is `(c1, c2)` and the digits stored so far. -/
def combaStep (w : Nat) (xs ys : List Nat) (s : (Nat × Nat) × List Nat) (ix : Nat) :
    (Nat × Nat) × List Nat :=
  let ty := min ix (ys.length - 1)
  let tx := ix - ty
  let iy := min (xs.length - tx) (ty + 1)
  let c := combaCol w xs ys tx ty iy (s.1.1, s.1.2, 0)
  ((c.2.1, c.2.2), s.2 ++ [c.1])

/-- The digits computed by `cry_mpi_mul_comba` before `cry_mpi_adjust`. -/
def combaDigs (w : Nat) (xs ys : List Nat) : List Nat :=
  ((List.range (xs.length + ys.length)).foldl (combaStep w xs ys) ((0, 0), [])).2

/-- `cry_mpi_mul_comba` (src/mpi/mpi_mul_comba.c:4-66). -/
def mulComba (w : Nat) (old : Bool) (x y : Mpi) : Mpi :=
  if x.digs = [] ∨ y.digs = [] then ⟨false, []⟩
  else ⟨old, adjust (combaDigs w x.digs y.digs)⟩

/-- Inner loop of `cry_mpi_mul_baseline` (src/mpi/mpi_mul_baseline.c:39-51): add `x * ys` to the
window `ts` of the result with carry `u`; the digit after the last product becomes the carry. -/
def baseRow (w x : Nat) : List Nat → List Nat → Nat → List Nat
  | y :: ys, t :: ts, u =>
    let dw := (t + x * y + u) % 2 ^ (2 * w)
    dw % 2 ^ w :: baseRow w x ys ts (dw / 2 ^ w)
  | [], _ :: ts, u => u :: ts
  | _, [], _ => []

/-- Outer loop of `cry_mpi_mul_baseline` (src/mpi/mpi_mul_baseline.c:27-52); the window moves up
by one digit for each digit of the first operand. -/
def baseRows (w : Nat) (ys : List Nat) : List Nat → List Nat → List Nat
  | [], ts => ts
  | x :: xs, ts =>
    match baseRow w x ys ts 0 with
    | [] => []
    | t :: ts' => t :: baseRows w ys xs ts'

/-- `cry_mpi_mul_baseline` (src/mpi/mpi_mul_baseline.c:5-57); the result object is a fresh
temporary with sign 0. -/
def mulBaseline (w : Nat) (x y : Mpi) : Mpi :=
  if x.digs = [] ∨ y.digs = [] then ⟨false, []⟩
  else ⟨false, adjust (baseRows w y.digs x.digs
    (List.replicate (x.digs.length + y.digs.length) 0))⟩

/-- `cry_mpi_mul_karatsuba` (src/mpi/mpi_mul_karatsuba.c:5-72), with the recursive
`cry_mpi_mul_abs` as a parameter (all temporaries are fresh, so their sign is 0). -/
def mulKaratsuba (w : Nat) (mulAbs : Mpi → Mpi → Option Mpi) (x y : Mpi) : Option Mpi :=
  if x.digs = [] ∨ y.digs = [] then some ⟨false, []⟩
  else do
    let hB := min x.digs.length y.digs.length / 2
    let B := 2 * hB
    let x0 : Mpi := ⟨false, adjust (x.digs.take hB)⟩
    let y0 : Mpi := ⟨false, adjust (y.digs.take hB)⟩
    let x1 : Mpi := ⟨false, x.digs.drop hB⟩
    let y1 : Mpi := ⟨false, y.digs.drop hB⟩
    let z0 ← mulAbs x0 y0
    let z2 ← mulAbs x1 y1
    let z1 ← add (2 ^ w) x1 x0
    let x0 ← add (2 ^ w) y1 y0
    let z1 ← mulAbs z1 x0
    let x0 ← add (2 ^ w) z0 z2
    let z1 ← sub (2 ^ w) z1 x0
    let z1 := shld z1 hB
    let z2 := shld z2 B
    let z1 ← add (2 ^ w) z0 z1
    add (2 ^ w) z1 z2

/-- `mod_2e` of the Toom-3 routine for a whole number of digits, `e = k · w`
(src/mpi/mpi_mul_toom3.c:4-33); `k` is always such a multiple in the callers. -/
def modDigits (x : Mpi) (k : Nat) : Mpi :=
  if k = 0 then ⟨false, []⟩
  else if k ≥ x.digs.length then x
  else ⟨x.neg, adjust (x.digs.take k)⟩

/-- The fix-up loop of `div3` (src/mpi/mpi_mul_toom3.c:68-71). -/
def div3Fix (t r : Nat) : Nat × Nat :=
  if h : r ≥ 3 then div3Fix (t + 1) (r - 3) else (t, r)
termination_by r

/-- The loop of `div3` (src/mpi/mpi_mul_toom3.c:57-76), from the top digit down. -/
def div3Loop (w : Nat) : List Nat → List Nat × Nat
  | [] => ([], 0)
  | d :: ds =>
    let (qs, r) := div3Loop w ds
    let v := ((r <<< w) % 2 ^ (2 * w)) ||| d
    if v ≥ 3 then
      let t := (v * (2 ^ w / 3) % 2 ^ (2 * w)) / 2 ^ w
      let (t, v) := div3Fix t (v - (t + t + t))
      (t % 2 ^ w :: qs, v)
    else (0 :: qs, v)

/-- `div3` (src/mpi/mpi_mul_toom3.c:39-82). -/
def div3 (w : Nat) (x : Mpi) : Mpi := ⟨x.neg, adjust (div3Loop w x.digs).1⟩

/-- `cry_mpi_mul` (src/mpi/mpi_mul.c:3-12) on top of a magnitude multiplication. -/
def mulWith (mulAbs : Mpi → Mpi → Option Mpi) (x y : Mpi) : Option Mpi :=
  (mulAbs x y).map fun r => if r.digs ≠ [] then { r with neg := xor x.neg y.neg } else r

/-- `cry_mpi_mul_toom3` (src/mpi/mpi_mul_toom3.c:90-220), with the recursive `cry_mpi_mul` as
a parameter. -/
def mulToom3 (w : Nat) (mul : Mpi → Mpi → Option Mpi) (x y : Mpi) : Option Mpi :=
  if x.digs = [] ∨ y.digs = [] then some ⟨false, []⟩
  else do
    let b := 2 ^ w
    let B := min x.digs.length y.digs.length / 3
    let a0 := modDigits x B
    let a1 := modDigits (shrd x B) B
    let a2 := shrd x (B * 2)
    let b0 := modDigits y B
    let b1 := modDigits (shrd y B) B
    let b2 := shrd y (B * 2)
    let t1 ← add b a0 a2
    let t2 ← add b b0 b2
    let w1 ← add b t1 a1
    let w2 ← add b t2 b1
    let w1 ← mul w1 w2
    let t1 ← sub b t1 a1
    let t2 ← sub b t2 b1
    let w2 ← mul t1 t2
    let t1 ← add b t1 a2
    let t1 := shl w t1 1
    let t1 ← sub b t1 a0
    let t2 ← add b t2 b2
    let t2 := shl w t2 1
    let t2 ← sub b t2 b0
    let w3 ← mul t1 t2
    let w0 ← mul a0 b0
    let w4 ← mul a2 b2
    let w3 ← sub b w3 w1
    let w3 := div3 w w3
    let w1 ← sub b w1 w2
    let w1 := shr w w1 1
    let w2 ← sub b w2 w0
    let w3 ← sub b w2 w3
    let w3 := shr w w3 1
    let t1 := shl w w4 1
    let w3 ← add b w3 t1
    let w2 ← add b w2 w1
    let w2 ← sub b w2 w4
    let w1 ← sub b w1 w3
    let w1 := shld w1 (1 * B)
    let w2 := shld w2 (2 * B)
    let w3 := shld w3 (3 * B)
    let w4 := shld w4 (4 * B)
    let r ← add b w0 w1
    let t1 ← add b w2 w3
    let t1 ← add b w4 t1
    add b t1 r

/-- `cry_mpi_mul_abs` (src/mpi/mpi_mul_abs.c:8-25) in the default configuration.  The first
argument bounds the recursion depth; `none` when it is used up (never for the depth used by
`mul`, see `mulAbs_spec`). -/
def mulAbs (w : Nat) : Nat → Bool → Mpi → Mpi → Option Mpi
  | 0, _, _, _ => none
  | fuel + 1, old, x, y =>
    if min x.digs.length y.digs.length > 300 then
      mulToom3 w (mulWith (mulAbs w fuel false)) x y
    else if min x.digs.length y.digs.length > 64 then
      mulKaratsuba w (mulAbs w fuel false) x y
    else some (mulComba w old x y)

/-- `cry_mpi_mul` (src/mpi/mpi_mul.c:3-12).  `old` is the sign of the destination object
before the call if it is not one of the operands, and `false` if it is.  The recursion depth
given suffices. -/
def mul (w : Nat) (old : Bool) (x y : Mpi) : Option Mpi :=
  mulWith (mulAbs w (min x.digs.length y.digs.length + 1) old) x y

/-- `cry_mpi_mul_dig` (src/mpi/mpi_mul.c:15-24): the second operand is one digit, not
normalised when the digit is 0. -/
def mulDig (w : Nat) (old : Bool) (x : Mpi) (d : Nat) : Option Mpi := mul w old x ⟨false, [d]⟩

/-! ## Squaring -/

/-- One turn of the outer loop of `cry_mpi_sqr_comba` (src/mpi/mpi_sqr_comba.c:30-82).
`ty - tx + 1` is computed in `size_t` and is 0 in the last column (`tx = ty + 1`); here it is
`ty + 1 - tx`. -/
def sqrStep (w : Nat) (xs : List Nat) (s : (Nat × Nat) × List Nat) (ix : Nat) :
    (Nat × Nat) × List Nat :=
  let ty := min ix (xs.length - 1)
  let tx := ix - ty
  let iy := min (xs.length - tx) (ty + 1)
  let iy := min iy ((ty + 1 - tx) / 2)
  let c : Nat × Nat × Nat := (s.1.1, s.1.2, 0)
  let c := if iy ≠ 0 then
      let t := combaCol w xs xs tx ty iy (0, 0, 0)
      let t2 := ((t.2.2 <<< 1) % 2 ^ w) ||| (t.2.1 >>> (w - 1))
      let t1 := ((t.2.1 <<< 1) % 2 ^ w) ||| (t.1 >>> (w - 1))
      let t0 := (t.1 <<< 1) % 2 ^ w
      let cc := c.1 + t0
      let c0 := cc % 2 ^ w
      let cc := c.2.1 + t1 + cc / 2 ^ w
      let c1 := cc % 2 ^ w
      let cc := c.2.2 + t2 + cc / 2 ^ w
      (c0, c1, cc % 2 ^ w)
    else c
  let c := if ix &&& 1 = 0 then muladd w c (dig xs (ix >>> 1)) (dig xs (ix >>> 1)) else c
  ((c.2.1, c.2.2), s.2 ++ [c.1])

/-- The digits computed by `cry_mpi_sqr_comba` before `cry_mpi_adjust`. -/
def sqrCombaDigs (w : Nat) (xs : List Nat) : List Nat :=
  ((List.range (xs.length + xs.length)).foldl (sqrStep w xs) ((0, 0), [])).2

/-- `cry_mpi_sqr_comba` (src/mpi/mpi_sqr_comba.c:4-91). -/
def sqrComba (w : Nat) (old : Bool) (x : Mpi) : Mpi :=
  if x.digs = [] then ⟨false, []⟩
  else ⟨old, adjust (sqrCombaDigs w x.digs)⟩

/-- `cry_mpi_sqr_karatsuba` (src/mpi/mpi_sqr_karatsuba.c:3-59), with the recursive
`cry_mpi_sqr` as a parameter. -/
def sqrKaratsuba (w : Nat) (sqr : Mpi → Option Mpi) (x : Mpi) : Option Mpi :=
  if x.digs = [] then some ⟨false, []⟩
  else do
    let hB := x.digs.length / 2
    let B := 2 * hB
    let x0 : Mpi := ⟨false, adjust (x.digs.take hB)⟩
    let x1 : Mpi := ⟨false, x.digs.drop hB⟩
    let z0 ← sqr x0
    let z2 ← sqr x1
    let z1 ← add (2 ^ w) x1 x0
    let z1 ← sqr z1
    let x0 ← add (2 ^ w) z0 z2
    let z1 ← sub (2 ^ w) z1 x0
    let z1 := shld z1 hB
    let z2 := shld z2 B
    let z1 ← add (2 ^ w) z0 z1
    add (2 ^ w) z1 z2

/-- `cry_mpi_sqr` (src/mpi/mpi_sqr.c:7-19) in the default configuration with bounded
recursion depth. -/
def sqrFuel (w : Nat) : Nat → Bool → Mpi → Option Mpi
  | 0, _, _ => none
  | fuel + 1, old, x =>
    if x.digs.length > 64 then sqrKaratsuba w (sqrFuel w fuel false) x
    else some (sqrComba w old x)

/-- `cry_mpi_sqr` (src/mpi/mpi_sqr.c:7-19). -/
def sqr (w : Nat) (old : Bool) (x : Mpi) : Option Mpi := sqrFuel w (x.digs.length + 1) old x

/-- Carry loop of `cry_mpi_sqr_baseline` (src/mpi/mpi_sqr_baseline.c:53-57); `none` if it would
run past the end of the buffer. -/
def sqrCarry (w : Nat) : List Nat → Nat → Option (List Nat)
  | ts, 0 => some ts
  | [], _ + 1 => none
  | t :: ts, c + 1 =>
    let dd := (t + (c + 1)) % 2 ^ (2 * w)
    (sqrCarry w ts (dd / 2 ^ w)).map (dd % 2 ^ w :: ·)

/-- Inner loop of `cry_mpi_sqr_baseline` (src/mpi/mpi_sqr_baseline.c:36-57): add `2 · x · ys`
to the window, then propagate the carry. -/
def sqrRow (w x : Nat) : List Nat → List Nat → Nat → Option (List Nat)
  | [], ts, c => sqrCarry w ts c
  | _ :: _, [], _ => none
  | y :: ys, t :: ts, c =>
    let dd := x * y
    let ch := (dd &&& (1 <<< (2 * w - 1))) >>> (w - 1)
    let dd := (dd <<< 1) % 2 ^ (2 * w)
    let dd := (dd + (t + c)) % 2 ^ (2 * w)
    let ch := if ch = 0 ∧ dd < t + c then 1 <<< w else ch
    (sqrRow w x ys ts (ch ||| (dd / 2 ^ w))).map (dd % 2 ^ w :: ·)

/-- Outer loop of `cry_mpi_sqr_baseline` (src/mpi/mpi_sqr_baseline.c:23-58); the window moves
up by two digits per digit of the operand. -/
def sqrRows (w : Nat) : List Nat → List Nat → Option (List Nat)
  | [], ts => some ts
  | _ :: _, [] => none
  | x :: xs, t :: ts =>
    let dd := (t + x * x) % 2 ^ (2 * w)
    match sqrRow w x xs ts (dd / 2 ^ w) with
    | none => none
    | some [] => none
    | some (t1 :: ts') => (sqrRows w xs ts').map fun r => dd % 2 ^ w :: t1 :: r

/-- `cry_mpi_sqr_baseline` (src/mpi/mpi_sqr_baseline.c:3-64). -/
def sqrBaseline (w : Nat) (x : Mpi) : Option Mpi :=
  if x.digs = [] then some ⟨false, []⟩
  else (sqrRows w x.digs (List.replicate (2 * x.digs.length + 1) 0)).map
    fun ds => ⟨false, adjust ds⟩

end Verif.Mpi
