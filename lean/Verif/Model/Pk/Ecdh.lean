import Verif.Model.Ecp.Ecp
/-! Model of elliptic-curve Diffie-Hellman (src/crypt/ecdh.c). -/
namespace Verif.Ecdh
open Verif.Mpi Verif.Ecp

/-- `cry_ecdh_ctx` (include/cry/ecdh.h). -/
structure Ctx where
  ec : Grp
  d : Mpi
  q : Pt
  z : Pt

/-- `cry_ecdh_agree` (src/crypt/ecdh.c:20-23): the public point into `q`. -/
def agree (w : Nat) (c : Ctx) : Out Ctx :=
  (mulPt w c.ec.g c.d c.ec).bind fun q => .ok { c with q := q }

/-- `cry_ecdh_final` (src/crypt/ecdh.c:25-28), after the caller has stored the point of the peer in `q`. -/
def final (w : Nat) (c : Ctx) : Out Ctx :=
  (mulPt w c.q c.d c.ec).bind fun z => .ok { c with z := z }

end Verif.Ecdh
