import Verif.Model.Ecp.Ecp
/-! Model of `cry_ecp_mul` when neither `CRY_ECP_MUL_SLIDING_WIN` nor `CRY_ECP_MUL_WIN` is defined.  Allocation
succeeds. -/
namespace Verif.Ecp
open Verif.Mpi

/-- Loop of `cry_ecp_mul` (src/ecp/ecp_mul.c:218-222), `n` bits left. -/
def mulBinLoop (w : Nat) (p1 : Pt) (k : Mpi) (g : Grp) : Nat → Pt → Option Pt
  | 0, r => some r
  | n + 1, r => do
    let r ← dbl w r g
    if isBitSet w k n then do
      let r ← add w r p1 g
      mulBinLoop w p1 k g n r
    else mulBinLoop w p1 k g n r

/-- `cry_ecp_mul` (src/ecp/ecp_mul.c:203-227), double and add; `none` is an error return.  The result is swapped in at the
end, so it may be the operand. -/
def mulBin (w : Nat) (p1 : Pt) (k : Mpi) (g : Grp) : Option Pt :=
  if isZeroPt p1 then some p1
  else do
    let r ← setZero w
    mulBinLoop w p1 k g (countBits w k) r

end Verif.Ecp
