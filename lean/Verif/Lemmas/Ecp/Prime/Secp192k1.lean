import Verif.Lemmas.Ecp.Torsion
import Verif.Spec.Curves
import Mathlib.Tactic.NormNum.Prime
/-! The order and the modulus of secp192k1 are prime: a chain of smaller and smaller primes, each proved from the next by the
test of Lemmas/Ecp/Ecpp.lean, and the base point itself for the modulus. Also: the curve has no point of order two. -/
namespace Verif.Ecp.Secp192k1

theorem q6 : Nat.Prime 6271 := by norm_num

theorem q5 : Nat.Prime 0x1c3d41 :=
  ecpp_prime (a := 0x53444)
    (x := 0xa9075)
    (y := 0x1805c3)
    (i := 12) q6 (by decide +kernel)

theorem q4 : Nat.Prime 0x50aa050a51 :=
  ecpp_prime (a := 0x0)
    (x := 0xaa0879008)
    (y := 0x2576199b5b)
    (i := 20) q5 (by decide +kernel)

theorem q3 : Nat.Prime 0x673ed17cf47b351 :=
  ecpp_prime (a := 0x1cd4f0ccbe84f6a)
    (x := 0x590193f12ce1da7)
    (y := 0x425986550118155)
    (i := 38) q4 (by decide +kernel)

theorem q2 : Nat.Prime 0x5407e7703849f5c09ec6aff :=
  ecpp_prime (a := 0x1539b766ad78b3f45fb3d2f)
    (x := 0x4a4128f15c07c0b0ba2907f)
    (y := 0x40c8bebc4884c7b5cb8b6de)
    (i := 58) q3 (by decide +kernel)

theorem q1 : Nat.Prime 0xe98299830dadc4e3d3154f3703828073f475 :=
  ecpp_prime (a := 0x8a0003af9b1c7474be09aa61e80576406c82)
    (x := 0x8fe60fb160dadbc049d3ce6932748726164c)
    (y := 0x374535d6577062371d50258207ff4124b311)
    (i := 90) q2 (by decide +kernel)

theorem q0 : Nat.Prime 0xfffffffffffffffffffffffe26f2fc170f69466a74defd8d :=
  ecpp_prime (a := 0x43559500b9ed33fc003d9b13ae93cf5e7957f1523b7551aa)
    (x := 0xf55e228a1fb5b639d6441c59bc67ba5adaced451c20198cc)
    (y := 0x9433d0329c94e1e5735bcf2ba4e3106f4ff1102e3c70b03a)
    (i := 143) q1 (by decide +kernel)

theorem n_prime : secp192k1P.n.Prime := q0

theorem check : ecppCheck secp192k1P.p (secp192k1P.a % secp192k1P.p).toNat secp192k1P.gx secp192k1P.gy secp192k1P.n 191 = true := by decide +kernel

theorem p_prime : secp192k1P.p.Prime := ecpp_prime n_prime check

/-- The cubic has no root. -/
theorem no_root : noRoot secp192k1P.p (secp192k1P.a % secp192k1P.p).toNat secp192k1P.b
    0x0
    0x0
    0xa30ed2c9e9f80bc0339d5439097a2d30e4f7a97b5b53fbdf 191 = true := by decide +kernel

end Verif.Ecp.Secp192k1
