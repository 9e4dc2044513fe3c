import Verif.Lemmas.Ecp.Torsion
import Verif.Spec.Curves
import Mathlib.Tactic.NormNum.Prime
/-! The order and the modulus of secp192r1 are prime: a chain of smaller and smaller primes, each proved from the next by the
test of Lemmas/Ecp/Ecpp.lean, and the base point itself for the modulus. Also: the curve has no point of order two. -/
namespace Verif.Ecp.Secp192r1

theorem q5 : Nat.Prime 549551 := by norm_num

theorem q4 : Nat.Prime 0x1042e4ee1d :=
  ecpp_prime (a := 0x1b89dcade)
    (x := 0xdf1b7e8c0)
    (y := 0xd59c5e346)
    (i := 19) q5 (by decide +kernel)

theorem q3 : Nat.Prime 0xf0372cc2bc3c3 :=
  ecpp_prime (a := 0x288cb9705fb62)
    (x := 0x6e5605cff5c25)
    (y := 0xdfc4bb347d343)
    (i := 36) q4 (by decide +kernel)

theorem q2 : Nat.Prime 0xc85aa700b01126d1d62183d1 :=
  ecpp_prime (a := 0x15a12358cdb1bb0c7721779)
    (x := 0xc15666a1f7661e4038d275d7)
    (y := 0x69c87a2de7e3ae693f00c5f3)
    (i := 51) q3 (by decide +kernel)

theorem q1 : Nat.Prime 0x96ea30adf658f0c2917058cf0bc9361ee5ef913f :=
  ecpp_prime (a := 0x696c2206404ce0190b2914c621d38adcbc740104)
    (x := 0x1373e6969b9be68ada364f38da7ad0fe54131050)
    (y := 0x1e997cb01e5397c23e68c0a860b46f6ef44deb92)
    (i := 95) q2 (by decide +kernel)

theorem q0 : Nat.Prime 0xffffffffffffffffffffffff99def836146bc9b1b4d22831 :=
  ecpp_prime (a := 0xcd805dcef86a20de577740f85682636a846b3f1c631d642c)
    (x := 0x7a81df5bac24db1214387dd181d3d368fa5aea05b694f926)
    (y := 0x3555529b9b8ea5c32e35ab6ba683ce94df685f6b30d6eac7)
    (i := 159) q1 (by decide +kernel)

theorem n_prime : secp192r1P.n.Prime := q0

theorem check : ecppCheck secp192r1P.p (secp192r1P.a % secp192r1P.p).toNat secp192r1P.gx secp192r1P.gy secp192r1P.n 191 = true := by decide +kernel

theorem p_prime : secp192r1P.p.Prime := ecpp_prime n_prime check

/-- The cubic has no root. -/
theorem no_root : noRoot secp192r1P.p (secp192r1P.a % secp192r1P.p).toNat secp192r1P.b
    0x7d7d3677298d126e9c139a383a39b775c25f4554658d2119
    0xc6aabb3906c7bad6e1a2f11f58cc6d1f359d787aef929d0f
    0x44e7df8ddd6646fc8c51e95334aff5eae0cb98a960c2fa6 191 = true := by decide +kernel

end Verif.Ecp.Secp192r1
