import Verif.Lemmas.Ecp.Torsion
import Verif.Spec.Curves
import Mathlib.Tactic.NormNum.Prime
/-! The order and the modulus of secp256k1 are prime: a chain of smaller and smaller primes, each proved from the next by the
test of Lemmas/Ecp/Ecpp.lean, and the base point itself for the modulus. Also: the curve has no point of order two. -/
namespace Verif.Ecp.Secp256k1

theorem q10 : Nat.Prime 113621 := by norm_num

theorem q9 : Nat.Prime 0x4548ad :=
  ecpp_prime (a := 0x30f477)
    (x := 0x768f0)
    (y := 0x5ac91)
    (i := 16) q10 (by decide +kernel)

theorem q8 : Nat.Prime 0x309fdce7f9 :=
  ecpp_prime (a := 0x2ae655916b)
    (x := 0x2143f9f562)
    (y := 0x1fa2a56658)
    (i := 22) q9 (by decide +kernel)

theorem q7 : Nat.Prime 0x5ca6abee867f27 :=
  ecpp_prime (a := 0x2648de2d15c30b)
    (x := 0x38202800bb6059)
    (y := 0x4ca2cb7bda780e)
    (i := 37) q8 (by decide +kernel)

theorem q6 : Nat.Prime 0xe1d64315558a399d :=
  ecpp_prime (a := 0x0)
    (x := 0x628ff120bd6c5773)
    (y := 0x88419c82a9e02a43)
    (i := 54) q7 (by decide +kernel)

theorem q5 : Nat.Prime 0x9122ba7342b21ccaac8f48f773 :=
  ecpp_prime (a := 0x5799bd8f6b1bd8d88491613165)
    (x := 0x1b0c28b40d34c8b8588d6a5bef)
    (y := 0x4ffe42ffd4a887e76796918a30)
    (i := 63) q6 (by decide +kernel)

theorem q4 : Nat.Prime 0x20bb39501a6aafe16ea72cd6173022b89 :=
  ecpp_prime (a := 0x171faf8d1a85258f0b80763a3d195604f)
    (x := 0x5535f0135fcfc7ead90f12074937d970)
    (y := 0x8b9f0eae7928b7d28e2ec67eaf53c5ed)
    (i := 103) q5 (by decide +kernel)

theorem q3 : Nat.Prime 0x4155b7d2981948f9c5de06a9d956a9c37f9b1ff7214bd5329 :=
  ecpp_prime (a := 0x1a36fb60a1eea5aa2a4d5e9019adeced65d026aeaeff0dec3)
    (x := 0x27e8150d33fe0f3f7035c49fdd10dd92d8d8b426a56b18a0a)
    (y := 0x1223a1916d2b6ecafac0af2b6d2b1c41e7c00dbae5f050bf9)
    (i := 129) q4 (by decide +kernel)

theorem q2 : Nat.Prime 0x4efda4688a87c1ec8aab78ca65db16fd7b32bbe0a52633c83fba9 :=
  ecpp_prime (a := 0x181d4109859c7a844f5f9b9a152559f4f47076dac72ec0b87593)
    (x := 0x2a275546493218e958bf8a08b663d67720ff65e64ba989cce6f69)
    (y := 0x3c2c883edfaf4d136cdabf34fb0530ad1cd678008585e222e74e7)
    (i := 194) q3 (by decide +kernel)

theorem q1 : Nat.Prime 0x7b6c50e358741f0198abecbc3f206ea91cb665f46719a1fce80e3b :=
  ecpp_prime (a := 0x3674c91a4d0423fe4c2942aec0445e6cb60baed8e68baf40dd0d41)
    (x := 0x3d9a4abb6c1ab122f13955732242639d3920da5347f3aa22c65468)
    (y := 0x190a69cb588fa5e63a13f6223bcc0b2ed73f75fe75122418b025ec)
    (i := 210) q2 (by decide +kernel)

theorem q0 : Nat.Prime 0xfffffffffffffffffffffffffffffffebaaedce6af48a03bbfd25e8cd0364141 :=
  ecpp_prime (a := 0xae9c2e295f98d0916d1bce14b2b7e429885e23259dcfda4d24d48994cbe66f17)
    (x := 0x235a53182cf7f459dd6b79d2cb8b8e59d790e70e20735794fb0bbcafb76b35cd)
    (y := 0x6e8122d0a6639784c4f8822fe1658fd25bfed4810cf57aa238b0faea6178deff)
    (i := 214) q1 (by decide +kernel)

theorem n_prime : secp256k1P.n.Prime := q0

theorem check : ecppCheck secp256k1P.p (secp256k1P.a % secp256k1P.p).toNat secp256k1P.gx secp256k1P.gy secp256k1P.n 255 = true := by decide +kernel

theorem p_prime : secp256k1P.p.Prime := ecpp_prime n_prime check

/-- The cubic has no root. -/
theorem no_root : noRoot secp256k1P.p (secp256k1P.a % secp256k1P.p).toNat secp256k1P.b
    0x0
    0x0
    0x676072c51d36ab00c84deb078e4ba0feef17a1f9626d375046274e4ab01347c8 255 = true := by decide +kernel

end Verif.Ecp.Secp256k1
