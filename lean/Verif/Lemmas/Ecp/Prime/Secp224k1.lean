import Verif.Lemmas.Ecp.Torsion
import Verif.Spec.Curves
import Mathlib.Tactic.NormNum.Prime
/-! The order and the modulus of secp224k1 are prime: a chain of smaller and smaller primes, each proved from the next by the
test of Lemmas/Ecp/Ecpp.lean, and the base point itself for the modulus. Also: the curve has no point of order two. -/
namespace Verif.Ecp.Secp224k1

theorem q7 : Nat.Prime 2617 := by norm_num

theorem q6 : Nat.Prime 0x148459 :=
  ecpp_prime (a := 0x0)
    (x := 0x4d32d)
    (y := 0x7abd8)
    (i := 11) q7 (by decide +kernel)

theorem q5 : Nat.Prime 0x152b55e7f3 :=
  ecpp_prime (a := 0x10562f3225)
    (x := 0x1148583a23)
    (y := 0x4cbe14783)
    (i := 20) q6 (by decide +kernel)

theorem q4 : Nat.Prime 0x72e066f5669fd069 :=
  ecpp_prime (a := 0x2e5ebbe6f8e7c9b6)
    (x := 0x19a25c9382f214ac)
    (y := 0x26e57a4d06df9625)
    (i := 36) q5 (by decide +kernel)

theorem q3 : Nat.Prime 0xa66f7709fde4be09529aee98859 :=
  ecpp_prime (a := 0x59ad3ce7997af093f5d1e4776f)
    (x := 0x41bb90f2ad512771014ebc29770)
    (y := 0x607c98213c9438a9c786494172f)
    (i := 62) q4 (by decide +kernel)

theorem q2 : Nat.Prime 0x22a6260befce15f338af1c8267bc554f5a09 :=
  ecpp_prime (a := 0x2009d2fdace9e5092150b796d6e84381d67e)
    (x := 0x96690441276d9c1068c41db7dd1c12618a7)
    (y := 0x1cf7db26d36fe573c6433098b0115dd10636)
    (i := 107) q3 (by decide +kernel)

theorem q1 : Nat.Prime 0x2dbdf2d4274022a849ef06bbcd9d86d859e9507289b6a27 :=
  ecpp_prime (a := 0xa2a0727f50f76991cac918c64440dde56bf5dd73513f18)
    (x := 0x15efb34ff5426289996746cbda45d0d146390b8c4349c84)
    (y := 0xe97c9cf61a1fbcf2bd6c54c0e28e18454f70b8435d8999)
    (i := 141) q2 (by decide +kernel)

theorem q0 : Nat.Prime 0x10000000000000000000000000001dce8d2ec6184caf0a971769fb1f7 :=
  ecpp_prime (a := 0x259cf84fbc7170ef0f1ab118b371085c3e44fce7191172576ad56aea)
    (x := 0xe9f2a5617856dc624ef10496c44539f70e3f83fa1ca6d00ca29852b4)
    (y := 0x97c5e97d6659b4c00dbce9ba15a7171153ba21c48b624880db0ef653)
    (i := 185) q1 (by decide +kernel)

theorem n_prime : secp224k1P.n.Prime := q0

theorem check : ecppCheck secp224k1P.p (secp224k1P.a % secp224k1P.p).toNat secp224k1P.gx secp224k1P.gy secp224k1P.n 224 = true := by decide +kernel

theorem p_prime : secp224k1P.p.Prime := ecpp_prime n_prime check

/-- The cubic has no root. -/
theorem no_root : noRoot secp224k1P.p (secp224k1P.a % secp224k1P.p).toNat secp224k1P.b
    0x0
    0x0
    0x88a9b2bbb5a56eb3dc329d87424fa7d4ff400b26fb1519cce2a571b2 223 = true := by decide +kernel

end Verif.Ecp.Secp224k1
