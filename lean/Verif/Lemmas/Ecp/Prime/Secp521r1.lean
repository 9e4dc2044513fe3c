import Verif.Lemmas.Ecp.Torsion
import Verif.Spec.Curves
import Mathlib.Tactic.NormNum.Prime
/-! The order and the modulus of secp521r1 are prime: a chain of smaller and smaller primes, each proved from the next by the
test of Lemmas/Ecp/Ecpp.lean, and the base point itself for the modulus. Also: the curve has no point of order two. -/
namespace Verif.Ecp.Secp521r1

theorem q18 : Nat.Prime 15289 := by norm_num

theorem q17 : Nat.Prime 0xb3ff95 :=
  ecpp_prime (a := 0x6c430a)
    (x := 0x50ba48)
    (y := 0x3b2843)
    (i := 13) q18 (by decide +kernel)

theorem q16 : Nat.Prime 0x2d0633c427 :=
  ecpp_prime (a := 0x0)
    (x := 0x2c03244755)
    (y := 0x294a8bd20b)
    (i := 23) q17 (by decide +kernel)

theorem q15 : Nat.Prime 0x68a8aac7d773378a7 :=
  ecpp_prime (a := 0x0)
    (x := 0x3154a798b98acd36c)
    (y := 0x2f856cdfb1ef2e0e0)
    (i := 37) q16 (by decide +kernel)

theorem q14 : Nat.Prime 0x3fc64a0e381f978553e5030ceb :=
  ecpp_prime (a := 0x0)
    (x := 0x3358ecf686e032166861fa6d7f)
    (y := 0x27bdf4f627fa337fa9ff52f6fd)
    (i := 66) q15 (by decide +kernel)

theorem q13 : Nat.Prime 0x83a2606afca807fbb8c79f20e976d3a7a7ebf :=
  ecpp_prime (a := 0xcf0c7d07e124ba95e5eeb3b6f798dc5803d5)
    (x := 0x22bb2a51a15dd132906e562a9cd44a1ef4a61)
    (y := 0x20f50521521d5fe49858e9cbc67b1465816be)
    (i := 101) q14 (by decide +kernel)

theorem q12 : Nat.Prime 0x292f2e59724cfc0a02a8ada1f7fcd5358b86649de3caf63d7 :=
  ecpp_prime (a := 0x86fb91f279a61dcbb8807d7d763641eefd6361869deedb63)
    (x := 0x18e2db7714e3b6a31c335a97726aae4672bde2ba8fb65b60b)
    (y := 0x21be972ac3e67c94ebc60bab3cd4a5fc286651cc85686ad7f)
    (i := 147) q13 (by decide +kernel)

theorem q11 : Nat.Prime 0xed87abbd692b120358b6c7bf11eb089354b916df9ad4c9892a48b17 :=
  ecpp_prime (a := 0x0)
    (x := 0x92fda24471aff2a0c7ff04adcb1844f33d6960233ed413aabfd70e9)
    (y := 0x9d18fee00c3b4b34081164387f68fe6eacfbd335a4d27bb766d15c0)
    (i := 193) q12 (by decide +kernel)

theorem q10 : Nat.Prime 0x1e58a8dce5643d662f5a144843b75de839cffe57be5606c4b79db5877c9e3d :=
  ecpp_prime (a := 0x18fbc385603c42b25c2d8c9e51d391f3bf004f38778486c3cd51ed3db6adc6)
    (x := 0x1b68537e0b0a64f9d251fa537cbe13d877aad6d12464b24beac15a9708bb)
    (y := 0x10519214a315f627b37420b92db8c4e7d0e67a88957c6c1df2e70c00d212c6)
    (i := 219) q11 (by decide +kernel)

theorem q9 : Nat.Prime 0x1df3976b37fb0ce626179dd138ee3ea3aa651b03eb696e198005233b4155ed62a743 :=
  ecpp_prime (a := 0x798c35f1dfb0a4b3aa3aa9c6129555cd432e6a47204819f1eef89962af0173d295d)
    (x := 0x3ec25a91dec5cc682bd34d5718b1f99df58d678ae9dfc99ed08742f5739cae5a20f)
    (y := 0x164bd7a1497a723e947f356f62d2fba59aa386b60f8459af66bdc1e508602e4b7476)
    (i := 244) q10 (by decide +kernel)

theorem q8 : Nat.Prime 0x6ecb3376c6028a75530096b5de76022c9503010f3a75358eb4f3820ff4ad0bc36d7f9199f3 :=
  ecpp_prime (a := 0xa214d9f20167a5042ce1d02daccaa5dcb3b905db0df4ae279e17be0efa5931258b5fba101)
    (x := 0x7d07d7ed2381cc7c49ef7f55c1c34aa0d3636a4cfb9d4818daec1408ae68a9ed33fd024d9)
    (y := 0x2d122ddaafd42b649421815748efafd6b215c6e8fdf80c978ad4923ff17cc0268ff4696c0f)
    (i := 268) q9 (by decide +kernel)

theorem q7 : Nat.Prime 0x272ff1256b50849e75c239c53da4e9fb5a55aa5391d46b0f41527807a173598848eb619abbd89bb9 :=
  ecpp_prime (a := 0x1b574c2c39a6002f85cda73c4987adb6000cef7270ec05e0e9ae4b1ba7f21275783260ef71f641cb)
    (x := 0xae8938b91e31df77a13d4f76a624d17256c4050ba88dca8307ce3ca0525ced0da250d3147c8caea)
    (y := 0x135cf5e5707ee88fa719ce3aa55c58d794ef0bc655eb5324fa9f2416da3ddcf1ab1ac3734497a39f)
    (i := 294) q8 (by decide +kernel)

theorem q6 : Nat.Prime 0x7f75fefffd80ebe7d79f3a19ca7f5c97cf520290ccb6ed5753aa1e3c9ff27c9ad4bd3c960a934ad6537121cfb :=
  ecpp_prime (a := 0x375ae432e186a180d62f7c44e4518d5d542a93040149fa708e6065fee0bfd174c1870d319226ab96d1bd7dc9b)
    (x := 0x40714f166f9ec396e810a6b8fad82e7f0abbc1336a68892637d8c85e753f2b30036cbb70031fe064b9d3a0e19)
    (y := 0x33bfd4f70c02a579c1d54654b168f733a061d6c35facaafa5e8a61ddf6e1c2208d42c4cdbcd28c1f8ee8e7aa0)
    (i := 317) q7 (by decide +kernel)

theorem q5 : Nat.Prime 0x355b78cdd9f8388a6da833cf57d17920f53ff8e67f10d2921e6aa30f566f33dd9fc0542c75b5d335fa9fd54d354c92bb :=
  ecpp_prime (a := 0xdc9b2545ff1901bfd722bc9f8d9a4cfe8729fc6d8a9033f1c4ffdb551c2b8deaf39d7e7d8a59974183c28db30c639cd)
    (x := 0x2b39481741b4afd63f8aca0f39f96c598dd57d1b588000c40662a270e3179ae4ea9c9e5918719731b322ea317e693872)
    (y := 0x25261e68b15f0d075f4b09e09b2f2dcb1f3f5b5bc7f5b0492a5463571d77c287babd336cf41ed1ba73e1973b3fcc308e)
    (i := 354) q6 (by decide +kernel)

theorem q4 : Nat.Prime 0x1bdb4520530f9915a88db5cf948552d2fcbad4b0946a024be3b687e98added2a53cdd5f0a40eb2fb14c8e22c4c47082218d96bb :=
  ecpp_prime (a := 0xe2c66ef03e2b96d4c3037aaa4deca891c07ef3b60f711c785985dd20e0b1d9b4fb8e1d3129c5a2f59b06dcd232fe692ce83fc7)
    (x := 0x465472efa8e4a2629eb4a4e451fd4c06ca64737004ab8cb3fe792a60cc3cdf79a81433f701fdaee2d30b0d503fee5c25737271)
    (y := 0x35c55cee4a707ff913c47d4cd61cfa18019c996264280f053afadb3bb802a7a9416150727eca01dff5590bebb59a0c30074fa2)
    (i := 381) q5 (by decide +kernel)

theorem q3 : Nat.Prime 0x6f6d14814c3e6456a236d73e52154b4bf2eb52c251a8092f8ed948afa0d8738e121457ee00f9bd10fa565bbc6243df26be873289 :=
  ecpp_prime (a := 0x0)
    (x := 0x55bfbb1c9bc4bac5f57ffd65d2cbcbc623d937f3d75a3c6c1bf0d261b5d06324483fdeb4aff8c1f78ef463e831ee0542bebd6d47)
    (y := 0x570735b8a5cac12d6287216b081688eb41dd54749821392cb0e05bf96cf2e1dcc93ce53f8904bea840d9c6c1e6b88664423eac93)
    (i := 408) q4 (by decide +kernel)

theorem q2 : Nat.Prime 0x3420738a56d7b1882d9b55aba4b9ebda566ae09a81679f0637e6b1efcfef3979b7b871defa72b1bd532d6c449a13d19ed7592b4efba15f :=
  ecpp_prime (a := 0xdff82028ad6e1b5a34798a18789cde0d5239eb58055369b0efcd0a68abfdfa5503f936c9e0011d55b55fd5f73c2f79b0154c75a6d20b8)
    (x := 0x1e5f347abd13dec17eb3cb01c2f7186f76df55a09f4383d4eeebc3f47884e502a10f39d4fd052de26bc2720f4737709e2d1aa96a87410f)
    (y := 0x2edcdbcac5de76e7294e5497790b41bf68b545f417bd04f557469354fc935fd4c0f32be8d30db0ba60e8f42782dbef87efb30ce2832959)
    (i := 414) q3 (by decide +kernel)

theorem q1 : Nat.Prime 0xc6980c6980c6980c6980c6980c6980c6980c6980c6980c6980c6980c6980c6981785af18eff1def4a9003513b5d4220758c802826dba221150050c3457c9fe71 :=
  ecpp_prime (a := 0xa5120b2383bafa360f5e6e13ab026240b33d3a574e7d0d06a4ab8ae541efe4a656e56e4c9f54288f83c0ad4965f3c3213e7a33b22121498767104e32d81fef23)
    (x := 0x9173ba4a5e4e63b6d01286ae231d8349156aef5d07b5b4cf5e9103781ba728e96ad2b689c5b30ebb1b48a297acfdd5cf184a45f8b588de7cd89c2a7814b1d25d)
    (y := 0x86b5fb8c59638b477579392cc04f3d18efb95b8e9f19c85deb804b5b4990c9aaa133dbd408836157f308ab0b71f57e50aba397ea9f7adad406e5a32fd8443f80)
    (i := 437) q2 (by decide +kernel)

theorem q0 : Nat.Prime 0x1fffffffffffffffffffffffffffffffffffffffffffffffffffffffffffffffffa51868783bf2f966b7fcc0148f709a5d03bb5c9b8899c47aebb6fb71e91386409 :=
  ecpp_prime (a := 0x12ecbb03a327e82f9d5a0b0c4ece5cc4a44d6260c32db72c9749b24dcbcbaf85029dc6bf317e929416c3d402e5aa8abf1c93c0287cd806549b4b02bbc78dacb7852)
    (x := 0x1d7b066c021f8ddaa9f69932121658882bc3b4146d4aacd2fa62314eaaf943c831bf17e414d2796f734c446ea1ee6077097368f87485ded0da4228352be4167f4c2)
    (y := 0x12636b6e7167afb14825ab8b30e4bba3f372665744c1c5af418bb80b639c01e4b606171b3ad922376a1b2cf31ab71db580099755e8440716bb08535947542f11adc)
    (i := 511) q1 (by decide +kernel)

theorem n_prime : secp521r1P.n.Prime := q0

theorem check : ecppCheck secp521r1P.p (secp521r1P.a % secp521r1P.p).toNat secp521r1P.gx secp521r1P.gy secp521r1P.n 520 = true := by decide +kernel

theorem p_prime : secp521r1P.p.Prime := ecpp_prime n_prime check

/-- The cubic has no root. -/
theorem no_root : noRoot secp521r1P.p (secp521r1P.a % secp521r1P.p).toNat secp521r1P.b
    0x19e72e5691af1c1f1d3f2591c5ad09ec28f1c524714ca75db089cdb9151ca2289840d94ce56793c78b66ef3540572cc405cdc465d82e1a6f69d82c27053ff163aa6
    0xc15e4c9246ef30c73585fc1a490df170ef8e757f1f37e7a6cde9349746d8493ebb31a91aea6f35b910d943c96ba37d442ea7bb6d45c60ec76150edba53d1fc8264
    0x124521c5a63d25338751ea837916053183423f151d92bf4710ef90df9f8ccdf063f99af3ab0f0bd1843a16afc69f16b49b9890c324999f97e8e4650532aea382f92 520 = true := by decide +kernel

end Verif.Ecp.Secp521r1
