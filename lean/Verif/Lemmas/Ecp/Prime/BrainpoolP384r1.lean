import Verif.Lemmas.Ecp.Torsion
import Verif.Spec.Curves
import Mathlib.Tactic.NormNum.Prime
/-! The order and the modulus of brainpoolP384r1 are prime: a chain of smaller and smaller primes, each proved from the next by the
test of Lemmas/Ecp/Ecpp.lean, and the base point itself for the modulus. Also: the curve has no point of order two. -/
namespace Verif.Ecp.BrainpoolP384r1

theorem q11 : Nat.Prime 159769 := by norm_num

theorem q10 : Nat.Prime 0x100612ad1 :=
  ecpp_prime (a := 0x0)
    (x := 0x69e48c95)
    (y := 0x1debcd38)
    (i := 17) q11 (by decide +kernel)

theorem q9 : Nat.Prime 0x128b474c888c3 :=
  ecpp_prime (a := 0x0)
    (x := 0x3f6d928b9cac)
    (y := 0x11254605b7226)
    (i := 32) q10 (by decide +kernel)

theorem q8 : Nat.Prime 0x6a318388a6dc19a839cc329 :=
  ecpp_prime (a := 0x23db5997fe93070fc9c52bd)
    (x := 0x120bdc41b28db283e763455)
    (y := 0x685eaef960ffcbb791115ed)
    (i := 48) q9 (by decide +kernel)

theorem q7 : Nat.Prime 0x3b9cbb4fec0a0e9980279ab5d7b8c10c6b717 :=
  ecpp_prime (a := 0x0)
    (x := 0x25fa6c507d89b5397938208e13af96c69657d)
    (y := 0x375529123cdd3f6337f47203b7c905d056922)
    (i := 90) q8 (by decide +kernel)

theorem q6 : Nat.Prime 0x62ba2297f200968f4d5ac8e1df7b69718ca219e68af7b :=
  ecpp_prime (a := 0x2beba07e2f64712672b9378e00ef35a88a7c0cdd0d07b)
    (x := 0x3b194c2823671a2cbc013001876e96c2c7be22ea0d838)
    (y := 0x188c1ab40ba02ec4da58fbbd2d18ac4eddad5521d447e)
    (i := 145) q7 (by decide +kernel)

theorem q5 : Nat.Prime 0x575ddfd015d4975aafe4ac18c9a16f8029679ac337ebacf55001e45b9ceb :=
  ecpp_prime (a := 0x1db233df2cc6d5b3842a180078c30772e3d35c81e793878a23c753225079)
    (x := 0x29ee39475524786dd071fcb19204292893164113b8975f3726687555ba74)
    (y := 0x1e3134b1823cd111f01ec355d632def4434d20d05887ae543aea875f3d76)
    (i := 178) q6 (by decide +kernel)

theorem q4 : Nat.Prime 0x2bf575c1a59cfad12879536d43aef19ce7f51f494a9e0a96f0379361afd17e0913 :=
  ecpp_prime (a := 0x183140d8d799a5721867ca595d87e0778442980bf52beca71cd03aa37e0c6d24cb)
    (x := 0x1ff810d3f88a8c31a92c4eb0ecaad1af473d481dd03eb07a36c62e1fc3ed78d1b4)
    (y := 0x140cf193fb21073ce8f0a44d307cd9e7a14a6db65b968f50e88f2402d9d5ee25fb)
    (i := 238) q5 (by decide +kernel)

theorem q3 : Nat.Prime 0x231d10c19016b0ac105f2b13f9ddd6f5b08cdd0e63febc945079091a4c97ca6b819d6c4caedd :=
  ecpp_prime (a := 0x16b4c5f19bed5252c6eb91edb1dddb4fc92933a7ec20c425da91bd2f90d8e5ed548416cf13a4)
    (x := 0x1b58eb2a8d44efdeb52853fb558bff7643874b3709997c053b345b1cd7efc92a19257027eee0)
    (y := 0x2199c89acfa70128978b1cb6e4510f6c60b0879162f3435f0ad35f772c47f000de33dae86415)
    (i := 261) q4 (by decide +kernel)

theorem q2 : Nat.Prime 0x16c73692e479ac16fa35d0589b1e6f960c897cd55e82135f2391835348242e233b46f57fff7a80dfd :=
  ecpp_prime (a := 0xfe2a7b004ac0a3dbd722d69d8186d54c107537916f331c7ffd465c3b455a178dce1e00d1fd77660)
    (x := 0x4e8ed52e4ed9743e6da490b5f3ae8bf87b6730a2e8040b34e95da75a1d4c056242ee79ebd8866c8c)
    (y := 0x1cda89898949d21c764fdb8f45ebc49b0080caa625907a370330b978e0b92dd5f098cda71e59174)
    (i := 301) q3 (by decide +kernel)

theorem q1 : Nat.Prime 0x3f7f13c3b44ad1ca98d49f77f9b664665be62b65a053d05376bf333f04d66d34ddf806677ded34a88c5181e31b :=
  ecpp_prime (a := 0x31e611e2f79ed663c23d88a5439dcb300e87347d722f3c1304c9d0f04bff98dad570b89bb7627d754ad36a7e5b)
    (x := 0xefcc5c0311c64d99e5804b43ef84342a82bd4370a72ac77f4705c60927f288579ee7f7cee783e660db0414d27)
    (y := 0xf64e450ce329c00255bae5450a09060743207c152fa0c62f0a9f5cc4965841dae0e1338b9e84bf284c9eae324)
    (i := 320) q2 (by decide +kernel)

theorem q0 : Nat.Prime 0x8cb91e82a3386d280f5d6f7e50e641df152f7109ed5456b31f166e6cac0425a7cf3ab6af6b7fc3103b883202e9046565 :=
  ecpp_prime (a := 0x38e90dad2f9e99afe27a2cced532cc64cfe8741c15986eea29fae67df46654951902446a92e7da80c1cb168e1bbaf886)
    (x := 0xd2dc2c135618dfb93602b3161a203f24d39f548946b0272882f1f90ed063d5fcd7cf02ae371a80281dc9ff2ab9d478b)
    (y := 0x6cfaeaef464687ac796d0be31d1932d11dcaa0581a338340def37d23a38afd51e5783dc0e5f4da6dcd727c03a3053348)
    (i := 357) q1 (by decide +kernel)

theorem n_prime : brainpoolP384r1P.n.Prime := q0

theorem check : ecppCheck brainpoolP384r1P.p (brainpoolP384r1P.a % brainpoolP384r1P.p).toNat brainpoolP384r1P.gx brainpoolP384r1P.gy brainpoolP384r1P.n 383 = true := by decide +kernel

theorem p_prime : brainpoolP384r1P.p.Prime := ecpp_prime n_prime check

/-- The cubic has no root. -/
theorem no_root : noRoot brainpoolP384r1P.p (brainpoolP384r1P.a % brainpoolP384r1P.p).toNat brainpoolP384r1P.b
    0x753e33ecc186afbeefa64e59f179e8a6dbeac3e8a3bc7739c702a93df2c693439f71c84aa569a770e29889c299fc2d7e
    0xcd6cd056a09b7673b3952780919d4f92bb7fd75dc4895a74e284f599e026176223ca54f43482f8b537975fed02e5c5e
    0x1e2af8294a97582ca47d1c32f928505de4219e1598cee725cef4e033f408e3e3665558c35012ae6225505a39b16771ef 383 = true := by decide +kernel

end Verif.Ecp.BrainpoolP384r1
