import Verif.Lemmas.Ecp.Torsion
import Verif.Spec.Curves
import Mathlib.Tactic.NormNum.Prime
/-! The order and the modulus of secp256r1 are prime: a chain of smaller and smaller primes, each proved from the next by the
test of Lemmas/Ecp/Ecpp.lean, and the base point itself for the modulus. Also: the curve has no point of order two. -/
namespace Verif.Ecp.Secp256r1

theorem q7 : Nat.Prime 206641 := by norm_num

theorem q6 : Nat.Prime 0x91a71d4b :=
  ecpp_prime (a := 0x76e20f8)
    (x := 0x6d4376e6)
    (y := 0xbf3b065)
    (i := 17) q7 (by decide +kernel)

theorem q5 : Nat.Prime 0x2d5c40e9760d3 :=
  ecpp_prime (a := 0x5935c7e63162)
    (x := 0x2b19dbd782bf)
    (y := 0x5b402c172945)
    (i := 31) q6 (by decide +kernel)

theorem q4 : Nat.Prime 0xe744d8bdfbe5f942e02241db :=
  ecpp_prime (a := 0xdc7327d99f00657c8ac3fc5e)
    (x := 0x4cb99b6a5f3c2ef652f9f4e3)
    (y := 0xc4212bc18611827c43ddd008)
    (i := 49) q5 (by decide +kernel)

theorem q3 : Nat.Prime 0xb71411e1438393a3ce08c2406a205f :=
  ecpp_prime (a := 0x87f978f94ef48b6db23bee1f216578)
    (x := 0xa97f83fd3debf517a9968915e7fd45)
    (y := 0x10c3b97d4821e664e1e0825f71279d)
    (i := 95) q4 (by decide +kernel)

theorem q2 : Nat.Prime 0xfaa1785777c435c6eaeaab5b943be2ea7f9eb35d3b30c2f :=
  ecpp_prime (a := 0x358b8fd37e0fa2c5d7a5c652da534b7e27237a2e6ab7dbf)
    (x := 0x50d385deddea8d4f751062809b92541bb6ff4e0359079b)
    (y := 0xb820e27b713e0edc8c715ea7bc7c629204d435fd2cc8b8e)
    (i := 119) q3 (by decide +kernel)

theorem q1 : Nat.Prime 0x217cdcfdf331d438478b3a78e359c7a78e6a0bfaf28a60b77277d5 :=
  ecpp_prime (a := 0x0)
    (x := 0x65d076e9d3c11caf7e9a28609c7bbf71f3905b503cafe238ab5f)
    (y := 0xb9624cb20be96dcaecf96e28db257b46aea018e4b0ccbf16d4894)
    (i := 187) q2 (by decide +kernel)

theorem q0 : Nat.Prime 0xffffffff00000000ffffffffffffffffbce6faada7179e84f3b9cac2fc632551 :=
  ecpp_prime (a := 0x0)
    (x := 0x84e580bc3518603fc4f4460210205f81c061274283cdd4b77c2c68bf8d820af3)
    (y := 0x5a0b67f54244df8b1af13c3d821e495904151e6015673f63cb99145d2acd0ef9)
    (i := 213) q1 (by decide +kernel)

theorem n_prime : secp256r1P.n.Prime := q0

theorem check : ecppCheck secp256r1P.p (secp256r1P.a % secp256r1P.p).toNat secp256r1P.gx secp256r1P.gy secp256r1P.n 255 = true := by decide +kernel

theorem p_prime : secp256r1P.p.Prime := ecpp_prime n_prime check

/-- The cubic has no root. -/
theorem no_root : noRoot secp256r1P.p (secp256r1P.a % secp256r1P.p).toNat secp256r1P.b
    0xa969487079f1744798bf0de6fded091b66e9d328eb0645fe5d979d1339b7f47f
    0xa4a08891884100c13323460107a8d28eede4387fa3e6e9bfebec9f6d72d0b5cc
    0x4cde11cf86cb876cd59cf0115813c55af0ecd3cda667d98bb9a347a56aa74a6d 255 = true := by decide +kernel

end Verif.Ecp.Secp256r1
