import Verif.Lemmas.Ecp.Torsion
import Verif.Spec.Curves
import Mathlib.Tactic.NormNum.Prime
/-! The order and the modulus of brainpoolP512r1 are prime: a chain of smaller and smaller primes, each proved from the next by the
test of Lemmas/Ecp/Ecpp.lean, and the base point itself for the modulus. Also: the curve has no point of order two. -/
namespace Verif.Ecp.BrainpoolP512r1

theorem q18 : Nat.Prime 242813 := by norm_num

theorem q17 : Nat.Prime 0x8627641d :=
  ecpp_prime (a := 0x412abdd)
    (x := 0x4cf03088)
    (y := 0x160e4a19)
    (i := 17) q18 (by decide +kernel)

theorem q16 : Nat.Prime 0xf23a85f9c207 :=
  ecpp_prime (a := 0x42dae938110)
    (x := 0xd81a92034202)
    (y := 0x362b63a5f217)
    (i := 31) q17 (by decide +kernel)

theorem q15 : Nat.Prime 0x474e66e4f9c7b2c523a0aff :=
  ecpp_prime (a := 0x0)
    (x := 0x2ee109d3226a01b05ffe85e)
    (y := 0x1128a5d864ac597c055e134)
    (i := 47) q16 (by decide +kernel)

theorem q14 : Nat.Prime 0x4fc09b7b41856d10610a505c99152141 :=
  ecpp_prime (a := 0x0)
    (x := 0x124e21bdd59475f037e9903979cefed)
    (y := 0x424426bd24d6886fd220e44aedacafb2)
    (i := 90) q15 (by decide +kernel)

theorem q13 : Nat.Prime 0x11aa08334e4762524bd8f4e740fc233e2c2a6dab6d6d :=
  ecpp_prime (a := 0x0)
    (x := 0x10430f99854e23d4b773568a464eceb8de2f22b35cac)
    (y := 0x4a90eba34736fa89e10cdcb4f357815ea2c8bff02d2)
    (i := 126) q14 (by decide +kernel)

theorem q12 : Nat.Prime 0xd045be34fae9854b783e0984aeef169aba0fe7a52b41dc73bf31e64abd9 :=
  ecpp_prime (a := 0xb30009aa8a1c7cbe1282afdd4fd91b4c82fcc8bf15ac8b8642d165c9005)
    (x := 0x1fc4e0f2e6574bdaf0e90009488849aaaf036ef48d76d326212a4712245)
    (y := 0x6d00263159dd8d6148a3a1c1718d631f8cf2689bf8665cadde764a35a0f)
    (i := 172) q13 (by decide +kernel)

theorem q11 : Nat.Prime 0x8769281f50162d82c6484d8e3d004033cedfac71423d07078612e1613237ddf :=
  ecpp_prime (a := 0x0)
    (x := 0x10b59e53253c2cd87e870fa33392b45e232ff36d881ebae19e99ad1198b9d51)
    (y := 0x2ac8525cc0f273af7917676d6b7ddca93d9644f8d06d2c7716419696de9d4f5)
    (i := 235) q12 (by decide +kernel)

theorem q10 : Nat.Prime 0x32487c7620ad3c465fc1394ca186e7d7408ab8a7d773502ad4f648a989527fe9be5 :=
  ecpp_prime (a := 0x0)
    (x := 0x2f5dffd3f7f21b12902833a9af38bd07c32cdfbdb8af70b15bfcfebda9240f8539a)
    (y := 0x2017458b7a4fe5996a05401d9ad3980a829cc9dbb4cff48690af1c9061e24ea08ea)
    (i := 251) q11 (by decide +kernel)

theorem q9 : Nat.Prime 0x47d5706f8e27cbff0c0220c1f560cedf878e4f2a0a487af5997ae46682ee14a5f91f19689e78059 :=
  ecpp_prime (a := 0x31ba4d7f0cbcb86094b389646d5e6c33ef70148f444abf2468b24be2877f3ad582e522ee39f1abb)
    (x := 0x68fe4f8685b8ef5a70889ff5297eddd1416eda0008025890affce0567f698a937ff2a57c07b7f2)
    (y := 0x4e539ec18546bbeb1b9814ab0d4a56654314fa622ae79896d9ec5c0869b3196d9dc9b1b0f24b32)
    (i := 265) q10 (by decide +kernel)

theorem q8 : Nat.Prime 0x29ecf8d17bee0635e99835f27420f27dc273f500427e070874bd2ee56a3bf8e3dae6ace519f0c399f95 :=
  ecpp_prime (a := 0x1bbf9bc060f6a7f696e84abec47206de9482372c55e4b76c9169246e6b9d0455f90c1dfd79f21320382)
    (x := 0xafa15ee5e124eb12bcee32d93106b29d00de176807f742c10856a273ad26ca8a4505366f67dd5cec01)
    (y := 0x85aa3803ee8877a61755e3b99f69c790f786cbc59cf021716f13278268be9557a0856dc272759e96f0)
    (i := 314) q9 (by decide +kernel)

theorem q7 : Nat.Prime 0x93c06312b4ca01324edc956ed5056bbe162ee88c773411c612a18329a48af05b8a5d9c73a40b23235f2e5f477 :=
  ecpp_prime (a := 0x8460e4f9a1cbcb53c1bf777a819bd593aeabf5fc48feb5090a69f91353f79450d937daa044f5d84d62de9b8b)
    (x := 0x36d324d0e21b4377209bfd1a9b2a0d5abe70055663b5845ce1d1db671d82889ba3d7c534d3834a53b6dd65ca8)
    (y := 0x591c4f5271ef75a343f9665b07b71c710251d0fc8e9b56c57a60af010a4e9af9796d765e4501be4111e984a2)
    (i := 329) q8 (by decide +kernel)

theorem q6 : Nat.Prime 0x4d0b5a60ea4473a3f09e1f0f537647f7411a7fb9640e10d60a62a02ac84be1a40b09ed7775a8aa7a0443995715c8b3e8973447ff :=
  ecpp_prime (a := 0x2135f8785a47db07d443dfd895ea87c42dd484d4a04a6eec3d177432a87efd456a9d02513837097b52467e3fa4d821707954e152)
    (x := 0xb7cd2267745ae13b9a57ed01ed0e498c8347868f61e4a3bb0364b555b7a5d71c2b92b065028e115420e5bd2f8006929b641ad66)
    (y := 0x32a55af719fbca4c07cf43b038be6c99cc36c74bf912df3cafddae3beba7aacc91d8a10b06de329d413aeb6b977619690c6c19d1)
    (i := 355) q7 (by decide +kernel)

theorem q5 : Nat.Prime 0x368d7ce1b059f2cc555e326af68a079e081da56835e5785bddd89dae6ceeedaceb73079755069c9ec9a5802c03a9d31dfbb0b11b0daf2cb :=
  ecpp_prime (a := 0x1e420f775e52291d4d60f3ef49c998774679ac34daed3e77325bbf9da16e141af569538d1191369de4d9cdaa11375a771f1da37c913fcc1)
    (x := 0x9aec7abba7ceebdb8c8e3293b9d290329500080094f8b46e820a5caa27447cf6a63aea9836e5f8c948e5fc93d840b390fc1e0de699b295)
    (y := 0x1ee0230e3d2a19810415bd309d24ac7d9e0d7503a481eeeadfc373fcf91940fb036b7cf12f5bab2c247fad79d21905ac9f4b656150aa85d)
    (i := 414) q6 (by decide +kernel)

theorem q4 : Nat.Prime 0x33c84d8a3a656177f50869db8805053b01b42401eb28d13f33949dac9d3fc5778067fbdc8a560ae2a69f18b7ff78f577a76da0f37191ec3c59 :=
  ecpp_prime (a := 0xb0e0f963ca06b5c3fbdcd4f7b4032caa81af19a4df8182872666964dae38c29d428d7a82c8d38f06ea96bd1edce9fef67e2a76eee49d6223e)
    (x := 0x5b13223447027e384661d9d7b0c3c154979487d03bd47b9205714cc84d22178f931a3de6f7ff9212a7c857234bb25d857a0b0fa9800ed91c8)
    (y := 0x24f2d9d0b4bd07d063a2972aef961c092fd14b986fbd5bbc0f579b93a85ae054813a70626ceb92f2620928752b0f575bb3cba0aab6eed7d27a)
    (i := 441) q5 (by decide +kernel)

theorem q3 : Nat.Prime 0xa6ff47b11a8fbf0eead388ae71c018e6ee3861397cc26bcc568af538a23257e70ea079940572370a98a6455946f44a876249f9276d7d7c6ad328e6b1 :=
  ecpp_prime (a := 0xe23bc3f04becae2926d542234f49750dbb0fa41be8b02bc22a5132691ee3df4ff4a43aaa80865be9c2214f0dcfbdef0c4ca0a3be518f566f3d50c33)
    (x := 0x53ecdb06f2205dcc42a10496de375a7bd3e01977b8f9b0a560e225bdc1495461698c551f645822c7bbf0c59ed4dddc9948f9fed61ea7000526bb5376)
    (y := 0x6a431d5ec6409db3a16989cc3c0e1d00569230248814e782a5d0d683a1e0e1abc8815767e2b7d90bd0661133dc007f668ee326f450940610153ff8b4)
    (i := 453) q4 (by decide +kernel)

theorem q2 : Nat.Prime 0x685f8cceb099d76952c4356d07180f9054e33cc3edf9835fb616d943655fb8e23ac96ed2941fb03757a410d331f77229e682c354976e1583046cb74fd :=
  ecpp_prime (a := 0x1b6ea393a302c498f45fe68367200a594ac1b9d9c82a663fbc5d9b6daa8609e8a5892c09a73e9a4333155399183751b9781e08039faabc3ccc2623426)
    (x := 0x4b11f043471378d3c66c48a44866cf7ffcb289c74f613e4140d01c7d17be8f0f0f0b10a19088c15a092bc3c9c109d8cbc27b382c3afe41d0bdefc721c)
    (y := 0x1c2395acb3b2a139a722e390d02399eb1dc5bd87274769bbbc41e9a71928ea46f161ee05d03e9e419dcb833a201671fee25b0f0e2f6522858de07da69)
    (i := 479) q3 (by decide +kernel)

theorem q1 : Nat.Prime 0x2adc3cb260452c95201cd2706589c16424dbd053f5191612ada621f7cd00eee9ccefc20cb3b6b545e8d5c9a6cb9ff2b4bd1a2ed7dc73f9e4cf38ff32b0cb9 :=
  ecpp_prime (a := 0x75373b82968fe3d5fafc5656891e5b755abb65aab9592cc76b47e63d0321d2301a301cd53d438d9a7b83d298cdf0cd33aaa22cf123ae3d29992677c854f1)
    (x := 0x1b27ad5030457b908574eda72e5e6c09238dcc4390847521bc446750f8b35ed9d11e5f076bfd2220c5efcf19d0ef40ae97a708485d736cedba56468ef5d1e)
    (y := 0x94d97ba2f30c44d37710e49a060e31c8d16306d5909150d16b75d91701ab93dc6e253d5473a14465c6811134d202929949c57277753ef99c9814a10055bd)
    (i := 482) q2 (by decide +kernel)

theorem q0 : Nat.Prime 0xaadd9db8dbe9c48b3fd4e6ae33c9fc07cb308db3b3c9d20ed6639cca70330870553e5c414ca92619418661197fac10471db1d381085ddaddb58796829ca90069 :=
  ecpp_prime (a := 0x0)
    (x := 0x5d4f55581cd5854c412beb09b89f940e37546b4e1958f423e280c43072ec28ae3f34806bf79c49bf15b7143a3599988239b4d90b2985d67d12a2860890cb7b18)
    (y := 0x214a1d018d875b03601d827a703a5e3a5afdc60cf4f18f8e4328573f6b5cf36758db712a5edc2d281afe597000b3d1d955b4c1c5fcc673bd7889985ddeaa4e7f)
    (i := 497) q1 (by decide +kernel)

theorem n_prime : brainpoolP512r1P.n.Prime := q0

theorem check : ecppCheck brainpoolP512r1P.p (brainpoolP512r1P.a % brainpoolP512r1P.p).toNat brainpoolP512r1P.gx brainpoolP512r1P.gy brainpoolP512r1P.n 511 = true := by decide +kernel

theorem p_prime : brainpoolP512r1P.p.Prime := ecpp_prime n_prime check

/-- The cubic has no root. -/
theorem no_root : noRoot brainpoolP512r1P.p (brainpoolP512r1P.a % brainpoolP512r1P.p).toNat brainpoolP512r1P.b
    0x226e6a9d72b9d0c81333be32c3e14d3926125dc9b29be01b074450a080a4e3d96158da1e206aef67570ae3a478c44cf4a500324933ca252d4421f98f03ddcf6c
    0x678d9172242aec8173fc7b4319a383fd37022aa166a12d1f4f8a188aea35415fdc0b9b5471256e05a4b9dfe861dd519aaddc97d7eabbc4e5eb997a5a459ed81d
    0x25d12b049dd7ae9d437ea6e586d49f99aa7d1485916380d99019f452890eaf4e8ef92645516e0ba5b48562aaec5f90a1f2af3521b3691f32ed74e7897aaf9c72 511 = true := by decide +kernel

end Verif.Ecp.BrainpoolP512r1
