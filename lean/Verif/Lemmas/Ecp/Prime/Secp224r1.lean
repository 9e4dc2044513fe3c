import Verif.Lemmas.Ecp.Torsion
import Verif.Spec.Curves
import Mathlib.Tactic.NormNum.Prime
/-! The order and the modulus of secp224r1 are prime: a chain of smaller and smaller primes, each proved from the next by the
test of Lemmas/Ecp/Ecpp.lean, and the base point itself for the modulus. Also: the curve has no point of order two. -/
namespace Verif.Ecp.Secp224r1

theorem q7 : Nat.Prime 7877 := by norm_num

theorem q6 : Nat.Prime 0x6e0b19 :=
  ecpp_prime (a := 0x62d080)
    (x := 0x1d312d)
    (y := 0x10cdb0)
    (i := 12) q7 (by decide +kernel)

theorem q5 : Nat.Prime 0x14d6855221 :=
  ecpp_prime (a := 0x68cc05571)
    (x := 0x78bef7c56)
    (y := 0xda7f91879)
    (i := 22) q6 (by decide +kernel)

theorem q4 : Nat.Prime 0xaa6d81345157f :=
  ecpp_prime (a := 0x1397819f40b8c)
    (x := 0xa938b200e6a39)
    (y := 0x76e530d6dd40)
    (i := 36) q5 (by decide +kernel)

theorem q3 : Nat.Prime 0x414733e64cbc3db8167f2aa83 :=
  ecpp_prime (a := 0x0)
    (x := 0xedffb6173398e3520dd7b96e)
    (y := 0x29a0fde6f447f0802106b117d)
    (i := 51) q4 (by decide +kernel)

theorem q2 : Nat.Prime 0x9d86c44ef5e55505602f03568898d515ec3f :=
  ecpp_prime (a := 0x0)
    (x := 0x270280f14f66df28300de04905388135e94c)
    (y := 0x826eb291b20d0c59b4d9d715f260c53d9429)
    (i := 98) q3 (by decide +kernel)

theorem q1 : Nat.Prime 0x16d23777eb8ba889b3b14cba4821e69804adb95b99d9ef58d3b :=
  ecpp_prime (a := 0x62b8c57af9b007308e27805e3ab79a4f219f05bdc89bc8d964)
    (x := 0xe630155512b220d32afee3a5c124e8954b36418e307caf4525)
    (y := 0x842ff51ad00da3de7616aee890cbc84b40bfbf3b89ab5052b3)
    (i := 143) q2 (by decide +kernel)

theorem q0 : Nat.Prime 0xffffffffffffffffffffffffffff16a2e0b8f03e13dd29455c5c2a3d :=
  ecpp_prime (a := 0x0)
    (x := 0x8e782c5ea6f3b38aaa72cafa6b41279afdc425c9f795e594b178af63)
    (y := 0x40ffff26699a176e11f8f80fda68b3ed686896a9d95ec516390ae14b)
    (i := 200) q1 (by decide +kernel)

theorem n_prime : secp224r1P.n.Prime := q0

theorem check : ecppCheck secp224r1P.p (secp224r1P.a % secp224r1P.p).toNat secp224r1P.gx secp224r1P.gy secp224r1P.n 223 = true := by decide +kernel

theorem p_prime : secp224r1P.p.Prime := ecpp_prime n_prime check

/-- The cubic has no root. -/
theorem no_root : noRoot secp224r1P.p (secp224r1P.a % secp224r1P.p).toNat secp224r1P.b
    0xbfb0c7416cef2338924950ea297baba9a45a8c19e56d07522bd2dc8
    0x2a3b0fc55481fe7547493ed752409b4196872e39038f751a4bfd5d05
    0x59a2db6eb892f815d2e402eca1ce1637ec1ed57ee546b67e75d09dcc 223 = true := by decide +kernel

end Verif.Ecp.Secp224r1
