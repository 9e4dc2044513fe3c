/-! Model of `cry_long_inv` (src/misc.c). -/
namespace Verif.LongInv

/-- The loop of `cry_long_inv` (src/misc.c:14-22).  `unsigned long` and `long` are the same 64 bits: the product
`q*s1` and the subtraction are done in `unsigned long`, and the result is read back as a `long` (two's complement).
`none`: `fuel` iterations were not enough. -/
def loop (fuel : Nat) (r0 r1 s0 s1 : BitVec 64) : Option (BitVec 64 × BitVec 64) :=
  if r1 = 0 then some (r0, s0)
  else match fuel with
    | 0 => none
    | fuel + 1 => loop fuel r1 (r0 % r1) s1 (s0 - (r0 / r1) * s1)

/-- `cry_long_inv` (src/misc.c:5-28).  The number of iterations granted is `mod + 1`. -/
def longInv (val mod : BitVec 64) : Option (BitVec 64) :=
  (loop (mod.toNat + 1) val mod 1 0).map fun (r0, s0) =>
    if r0 ≠ 1 then 0
    else if s0.slt 0 then s0 + mod
    else s0

end Verif.LongInv
