import Verif.Lemmas.Ecp.Torsion
import Verif.Spec.Curves
import Mathlib.Tactic.NormNum.Prime
/-! The order and the modulus of secp384r1 are prime: a chain of smaller and smaller primes, each proved from the next by the
test of Lemmas/Ecp/Ecpp.lean, and the base point itself for the modulus. Also: the curve has no point of order two. -/
namespace Verif.Ecp.Secp384r1

theorem q15 : Nat.Prime 216061 := by norm_num

theorem q14 : Nat.Prime 0x13d1af855 :=
  ecpp_prime (a := 0x0)
    (x := 0x48ae8b8a)
    (y := 0x12caf50bd)
    (i := 17) q15 (by decide +kernel)

theorem q13 : Nat.Prime 0x202284429a2bd5 :=
  ecpp_prime (a := 0xeec46009afd81)
    (x := 0x16cff512767a7)
    (y := 0x1ceefbb9ef4c13)
    (i := 32) q14 (by decide +kernel)

theorem q12 : Nat.Prime 0xcc2643478e37afb16afaf0139 :=
  ecpp_prime (a := 0x4cdb0b53efec95acaa769a324)
    (x := 0x935369b669123c4a4990252a3)
    (y := 0xba24f306ee0026b08ef8518ea)
    (i := 53) q13 (by decide +kernel)

theorem q11 : Nat.Prime 0x15c8a2f9e143dcd05613065e1f7781d507d43079 :=
  ecpp_prime (a := 0x122139e6db2589d481959cb538ef0942c7d8575a)
    (x := 0x6f80121cfe483dc0eb2a2b578828e13070a249d)
    (y := 0xf8465a8c1077e6c2c1884f65cfa1b147912fb)
    (i := 99) q12 (by decide +kernel)

theorem q10 : Nat.Prime 0x175ea1333415f9fdaffdb767b8c567cea44e0a984d95d717b :=
  ecpp_prime (a := 0x0)
    (x := 0xd0babcad01de8db89e199b9569ac39278b9b831317d213a0)
    (y := 0x495d1c770ed31a619922880ad39beb7ef2511fb2d77fc1cd)
    (i := 156) q11 (by decide +kernel)

theorem q9 : Nat.Prime 0x1c23ec067a77787aa8237810eec94d94503f261a479023d0a18c6d :=
  ecpp_prime (a := 0x12c063f3dbfa7f46835e5e5c2f74e1532c6a0e5457155cdeb8eb04)
    (x := 0x160ee5b8eb9ab6b246ce24c3ff527b8967aef4ed18378b9c1f17d1)
    (y := 0x1b677a5d55d5fca1428740fdaa784c6f3a59bc75d84e799c77f018)
    (i := 192) q10 (by decide +kernel)

theorem q8 : Nat.Prime 0x2721fd043c1029cfe777a782a1953c70c6b7f12cad7e51b5bdc6a363ad1 :=
  ecpp_prime (a := 0x11a35a3e43d2889a97a2d4cea7b1fe0e07f03eefadc9f21d5feb6e25dba)
    (x := 0x4426c379c7682f623060eb7235705b1a01f5efc8fe30e842e7f85de352)
    (y := 0xbd5cfb3454cb6d1c93a0d913d5b4d2b02c39163278d06d77c7588730ba)
    (i := 212) q9 (by decide +kernel)

theorem q7 : Nat.Prime 0x3f973b26e19a43f1d8227034469282ce7563a6401226bce51e2d0b7f4bcd :=
  ecpp_prime (a := 0x1537251035fa783dcebc8d2746334df20df7fa681ff336f21415b88c031e)
    (x := 0x37d4ce128eb3d1e9df0f2a69d86bc883deabe5e428255b9ff9e17c6ceefa)
    (y := 0x3a9827c4ae8d49efe87691ae4c89c934bb9b4c2e0c6c00e1f07a812f1d29)
    (i := 233) q8 (by decide +kernel)

theorem q6 : Nat.Prime 0x26232ab1a97d0c8fa2a7675ad9f30e037aec844ae42983637557b895ce8e0f85 :=
  ecpp_prime (a := 0x15e70830431080c7b839ebfba858aa711d5d093b67aea4a60c276f14af44314e)
    (x := 0x1d3a7cf2cdccc92bf16134b7183abb02c94236edf155988567b1cf29f5099710)
    (y := 0x252109ebfb6a4ccd96c56a844ef2ce9868d6ae3c5eb11f5ec6b94a0d15e6d907)
    (i := 237) q7 (by decide +kernel)

theorem q5 : Nat.Prime 0x6b42e813acafb353f976d2af84fb9769984080a8e1cfaf642c7105573c3b84fd7 :=
  ecpp_prime (a := 0x619b5ce62fe3a9c3867a1b64ff3808a16b5345b67545e71689ae246727f79f61b)
    (x := 0x2093a2238a6e93c21f002df6f3c8a65b2e13712e13bbc685d302809eb5de27d83)
    (y := 0x19f049b5b2f185ab651058f4c81c36c594014351feca8620100bfa1e7782ea769)
    (i := 253) q6 (by decide +kernel)

theorem q4 : Nat.Prime 0x1fe680c13ae0b7a9db0c5f3f15f789c13ce323688e41493ea79c56a1cff170590c9b9f1248543 :=
  ecpp_prime (a := 0x13e687551e7adbdf10f8d50e26131a31b971995f33912e9c6a474b8fff483bd517e2946e1b5cb)
    (x := 0xb650a514a4c246b56dd08151cede9cb3566e62321f1865e54a7fe302ac37c8ca88c6fded5078)
    (y := 0x1af30a3b237ff04104ff6720c162058ef04b0aa62a5c89946125f432b16c9c74030e9d8a14672)
    (i := 258) q5 (by decide +kernel)

theorem q3 : Nat.Prime 0x72141761bdef90345596b445e141f631c8707ccc4f4d8e2bda80ad8d77e54dc8200a6bce74127872403b :=
  ecpp_prime (a := 0x0)
    (x := 0x69af56c9c4bed832b03af5850f2f0123f5ea18d12d1c0e39823849f0f4c05f64fd24b877c1fbb8257cec)
    (y := 0x10623e37804f83d14134b4004b894d89d68c1dd625754716ceb5afaeeada26083d28f91f2059623eac7b)
    (i := 304) q4 (by decide +kernel)

theorem q2 : Nat.Prime 0x405b179fb27231fcaa816c74be47737d23244d8ac4b71c61b141d715b53840741649840e08fe732a59f555eadd :=
  ecpp_prime (a := 0x3218b7da05381bea13a27742edecc3537170d22fa98a2ea7abb8f863e616a2362401b0267900d4ed5a13040940)
    (x := 0x3494ce6007ee8c87130020b838ca57c02c8865178460a382759a13f1835753906fbcde65b2b7d1c7114b3379f5)
    (y := 0x2d2db9551a4d5e3b050e56df14e381299644cb2ca33af52c046e40eaa2bbe14378ea60780470e58d715675e4e5)
    (i := 334) q3 (by decide +kernel)

theorem q1 : Nat.Prime 0x3c89b028e90c0ba57d23ded5913d9653269e9631192b7f2d7e1f4e0181d308a70c919795eb65d3084f9585e4521af :=
  ecpp_prime (a := 0x0)
    (x := 0x2b6469337f9dd47a39fda01a28e1be35c4e13f6b450024b012bcf7fd2c8ee9862f02c73733c490ea5e44eb0d0b16f)
    (y := 0x1d19b007f8589382a6e3bde10acef415871d4931d43916fd8d233348c0f253db849814a711746b9a4c715f87f8063)
    (i := 358) q2 (by decide +kernel)

theorem q0 : Nat.Prime 0xffffffffffffffffffffffffffffffffffffffffffffffffc7634d81f4372ddf581a0db248b0a77aecec196accc52973 :=
  ecpp_prime (a := 0xd9db38894806d70154763ec82adb38792173302178448dfe503a64c33f9f5856caad0573fa07600561e8cda812c5312c)
    (x := 0x2e95fb3bee0242eb7ee2960bb543b947319592f879f68c991eb94bd7e31b63c375b137b3aba4f2aa352b9be94657bbce)
    (y := 0x13f50b4450ed75cf224db79819de213947dc3d0a5b00df19b42271dec6f405e2209ee5f185d2d092ae1c6659cd20e961)
    (i := 369) q1 (by decide +kernel)

theorem n_prime : secp384r1P.n.Prime := q0

theorem check : ecppCheck secp384r1P.p (secp384r1P.a % secp384r1P.p).toNat secp384r1P.gx secp384r1P.gy secp384r1P.n 383 = true := by decide +kernel

theorem p_prime : secp384r1P.p.Prime := ecpp_prime n_prime check

/-- The cubic has no root. -/
theorem no_root : noRoot secp384r1P.p (secp384r1P.a % secp384r1P.p).toNat secp384r1P.b
    0x95adec811ebe8d4b9e2b41150d78f91a619189a415583b8f5e01888da3353b61765cde8cd6c12846310c3f0c10aae682
    0x3581b884702fb0931c541a5cacefbe3bea864db86e01e048170560418dca3aa8689f246d9d11ccd2e145532dd48491af
    0x4efcebfdccd7cb25d1b864228f0c32d3a83ec026134ae4753bdff5d3f1fa20b278b31dc3487beb792024fe436f36b43a 383 = true := by decide +kernel

end Verif.Ecp.Secp384r1
