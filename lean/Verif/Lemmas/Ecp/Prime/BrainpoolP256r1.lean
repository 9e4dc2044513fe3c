import Verif.Lemmas.Ecp.Torsion
import Verif.Spec.Curves
import Mathlib.Tactic.NormNum.Prime
/-! The order and the modulus of brainpoolP256r1 are prime: a chain of smaller and smaller primes, each proved from the next by the
test of Lemmas/Ecp/Ecpp.lean, and the base point itself for the modulus. Also: the curve has no point of order two. -/
namespace Verif.Ecp.BrainpoolP256r1

theorem q9 : Nat.Prime 177019 := by norm_num

theorem q8 : Nat.Prime 0x742ee85d :=
  ecpp_prime (a := 0x0)
    (x := 0x48919b5d)
    (y := 0x2ee76cff)
    (i := 17) q9 (by decide +kernel)

theorem q7 : Nat.Prime 0x104b14668122d :=
  ecpp_prime (a := 0xe5497cda273c)
    (x := 0x1ba1705aea41)
    (y := 0x1c0334d98125)
    (i := 30) q8 (by decide +kernel)

theorem q6 : Nat.Prime 0xd2cc5c9edd1c6193 :=
  ecpp_prime (a := 0x853c267c32774189)
    (x := 0x3f97ada905582526)
    (y := 0x8f2bbc2f132cecda)
    (i := 48) q7 (by decide +kernel)

theorem q5 : Nat.Prime 0x1108515379e14d45d3db01cd10d :=
  ecpp_prime (a := 0xc6d79f7633fc17dc903df08728)
    (x := 0x4a24b1020ef61ab0a3a50334ec)
    (y := 0x4fd4e373e6e79ff23ecb1a8232)
    (i := 63) q6 (by decide +kernel)

theorem q4 : Nat.Prime 0x29bebe798d061c35237b00828b234cb477c9 :=
  ecpp_prime (a := 0x103842907b07c2288a3f3cb3ce94b6b3be23)
    (x := 0x13dd55f3dbdd4ae6e6adbbe9e5d16601a395)
    (y := 0x14fcb59e551f40e4e8aea714c079a259a092)
    (i := 104) q5 (by decide +kernel)

theorem q3 : Nat.Prime 0x14424667c0de150812d44bc3a71fb6af5a57f33ec3 :=
  ecpp_prime (a := 0x351f25ca1e3c43006204a97ba050463f74ef42b01)
    (x := 0x89d440580d2c072b77530931986f868f5945bdffa)
    (y := 0xbabbbe226fa1c4159108967d8d04d5e0e944620f)
    (i := 141) q4 (by decide +kernel)

theorem q2 : Nat.Prime 0x1824f88d2332b1582e0e95898d0b8d2e9065e35bb11ecb03b83 :=
  ecpp_prime (a := 0x0)
    (x := 0x151058d67ef0ac89e65bce21af13e7f93f86e7e3773db229a5b)
    (y := 0xa6be55723c35ffc39ce0626e4abd3f0180caf5098234b3daf3)
    (i := 164) q3 (by decide +kernel)

theorem q1 : Nat.Prime 0xd25ba4f65616cbdffd8ddc15e56b7e5335fc5ba8a6501e5ca47d382e746d :=
  ecpp_prime (a := 0x0)
    (x := 0x1225455dbf70fa29f545621777432217d8ddcb5883bf83aaad6cbb7bccf7)
    (y := 0x9eb7249224a267174f08163883f47662df2f1a8e2490500e1717119ee4a2)
    (i := 200) q2 (by decide +kernel)

theorem q0 : Nat.Prime 0xa9fb57dba1eea9bc3e660a909d838d718c397aa3b561a6f7901e0e82974856a7 :=
  ecpp_prime (a := 0x0)
    (x := 0x15b88af7b5dc2b310bba9a91c103ad295aece53e3db66d63d77191dfe2f2161c)
    (y := 0x7d0526862283c54038f55a4729f078e631758b3286471c6fc84bde2f653d8567)
    (i := 239) q1 (by decide +kernel)

theorem n_prime : brainpoolP256r1P.n.Prime := q0

theorem check : ecppCheck brainpoolP256r1P.p (brainpoolP256r1P.a % brainpoolP256r1P.p).toNat brainpoolP256r1P.gx brainpoolP256r1P.gy brainpoolP256r1P.n 255 = true := by decide +kernel

theorem p_prime : brainpoolP256r1P.p.Prime := ecpp_prime n_prime check

/-- The cubic has no root. -/
theorem no_root : noRoot brainpoolP256r1P.p (brainpoolP256r1P.a % brainpoolP256r1P.p).toNat brainpoolP256r1P.b
    0xbd2b7536d35a263f586e97f7b66e78444e69e617ed01536e0e87bd07853b82d
    0x50d896a99b7d30af798989c75e0120eda56c0b7b8e3a43ee036dbb7c8a5aee5c
    0x7eaeb74aa0bbf986c92d07761337edfe6c056bfa2312ede766b220ccc85014bc 255 = true := by decide +kernel

end Verif.Ecp.BrainpoolP256r1
