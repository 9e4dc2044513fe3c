import Verif.Lemmas.Ecp.Ecpp
import Mathlib.Tactic.NormNum.Prime
/-! Two primes for a concrete run of DSA key generation, proved by the test of Lemmas/Ecp/Ecpp.lean. -/
namespace Verif.DsaGen
open Verif.Ecp

theorem q6_prime : Nat.Prime 73063 := by norm_num

theorem q5_prime : Nat.Prime 0x4b863029 :=
  ecpp_prime (a := 0x74f584)
    (x := 0x1fad7241)
    (y := 0xe503101)
    (i := 16) q6_prime (by decide +kernel)

theorem q4_prime : Nat.Prime 0x150a67cc3003 :=
  ecpp_prime (a := 0xfc97341656f)
    (x := 0x183c318b6da)
    (y := 0x14e62c9c3476)
    (i := 30) q5_prime (by decide +kernel)

theorem q3_prime : Nat.Prime 0x1f3b5f9f74e3a68a1ff :=
  ecpp_prime (a := 0x15c2a9986bb6edc0575)
    (x := 0x142ed5b0083cc75645)
    (y := 0x9b49723b7449a86131)
    (i := 44) q4_prime (by decide +kernel)

theorem q2_prime : Nat.Prime 0x28da498125c0a7e9d846479233 :=
  ecpp_prime (a := 0x207369d6a8f040b532526bbc00)
    (x := 0x1222cd9ca298970ea01293b3af)
    (y := 0x230fb1538a8d28d3d01e4fbb2f)
    (i := 72) q3_prime (by decide +kernel)

theorem q1_prime : Nat.Prime 0x2b41c8aa054aba7b867bfa4fe943a815307 :=
  ecpp_prime (a := 0x23f1928e9f726a61254a9ad353d11638763)
    (x := 0x98b4b3694d83ab3ee4a196ff6ea3507f2b)
    (y := 0x1c6880541281e1635ea21a28c46a74834cb)
    (i := 101) q2_prime (by decide +kernel)

/-- A prime of 160 bits. -/
def exQ : Nat :=
  0xd685d62404fcd5555daf106db8dee081179a071f

theorem exQ_prime : Nat.Prime exQ :=
  ecpp_prime (a := 0x0)
    (x := 0xcf9e891d592dfd44a0595e33e8d47f6fc31c7c04)
    (y := 0x74acbc9fc4bdac9c00d5c749e412edecb6dc3f53)
    (i := 137) q1_prime (by decide +kernel)

theorem p17_prime : Nat.Prime 4201 := by norm_num

theorem p16_prime : Nat.Prime 0x14c6b9 :=
  ecpp_prime (a := 0x88764)
    (x := 0xbcfc0)
    (y := 0xc0028)
    (i := 12) p17_prime (by decide +kernel)

theorem p15_prime : Nat.Prime 0xbbcc5a2d :=
  ecpp_prime (a := 0x650ffbd0)
    (x := 0x98588277)
    (y := 0x91100304)
    (i := 20) p16_prime (by decide +kernel)

theorem p14_prime : Nat.Prime 0x11925affda7f :=
  ecpp_prime (a := 0x0)
    (x := 0x73aead3a143)
    (y := 0x91ce6137b84)
    (i := 31) p15_prime (by decide +kernel)

theorem p13_prime : Nat.Prime 0x70201489ec4171893f76f :=
  ecpp_prime (a := 0x0)
    (x := 0x4ac12a5016c91d4ccd9b)
    (y := 0x6c83bdfa81f029bbe2754)
    (i := 44) p14_prime (by decide +kernel)

theorem p12_prime : Nat.Prime 0x2d9c863bb9ba1ec289ac10e7499bdf :=
  ecpp_prime (a := 0x0)
    (x := 0x19718f91f7eaa4fb93d0e28c85040c)
    (y := 0x1dc9cc395369edd2704f01f1940d8d)
    (i := 82) p13_prime (by decide +kernel)

theorem p11_prime : Nat.Prime 0x439f568fa10b171ae8c7b18edc03d3d3bd79097e15 :=
  ecpp_prime (a := 0x3bd730d714429009afe7ed9f520e0290d8de307289)
    (x := 0x2ef5036244591056cc75051604aa6a8b4a41dfa883)
    (y := 0x3e12b6d7fe47016e446c25ce8001e0f2b6db0d9e00)
    (i := 117) p12_prime (by decide +kernel)

theorem p10_prime : Nat.Prime 0xd079c6e3ab3b7fae911f8a3d6893f8528429ce3660c793c036874f01 :=
  ecpp_prime (a := 0x28cdd5ec36c0c591a3cddd008d189aadee4c8dc6930a44258dbee3ac)
    (x := 0x538068cc7048bdfac1895c79c5360544f3a6eefaae1f0c0fd81194a5)
    (y := 0x2a7226c510c125677882f16d7fcae4769df97ddcc23e790ec8685fe)
    (i := 166) p11_prime (by decide +kernel)

theorem p9_prime : Nat.Prime 0x20fdea5686a8d56e655a82509c5b63083b67016b0a88af371b1ec1fbc1ba6ca39 :=
  ecpp_prime (a := 0x5875f0705c16618658732f5a7e199dee28f3365fba710e277835278c500facb0)
    (x := 0xdc27c48ab36d80c01e122473d94336af693a4cbc86dd56381cdaad8c4f7459ea)
    (y := 0x725d60472698b5c10b8e1fed8176f7030d845404d561d0a8aad004998872edf0)
    (i := 223) p10_prime (by decide +kernel)

theorem p8_prime : Nat.Prime 0x31f39101db47b58d72326617be8b9953a1eae403f69c0fb03cad532910c8ff659939b :=
  ecpp_prime (a := 0x112a3a01c950d429ddaa22e930816f89007e9704405ae3f5a60378e959797659bd764)
    (x := 0x27ddde32872f082f61df8115b80770b5b413057865d1b28c7fadb273c847574d0f70)
    (y := 0x29c3d99b56ef885f5813f91c8beedd134c83ee3c647ba2a150182cdd480ecc3c4311c)
    (i := 257) p9_prime (by decide +kernel)

theorem p7_prime : Nat.Prime 0x7b4912a91fdab553f6ad2a5c6b5eebe5234390454b75addb4f7f7d7e5c325fcc1741dfae3f :=
  ecpp_prime (a := 0x3211a1746955b10b77d873533cbc3336a61bcdd4e4b6b31d2c765013ce922f1408c93e5745)
    (x := 0x5c9dd3394e2d929ca5046e07d26bb24cd6b1b509def5ae8711434826c0486d27c714a726c3)
    (y := 0x157b0a577ac3a57dbdb36e13507a1152256401177cc6a960a1172ccbd858a4e9b84557c704)
    (i := 273) p8_prime (by decide +kernel)

theorem p6_prime : Nat.Prime 0x4253ca19bcdb00df341aeb1db8acb0dca798ec3f933dad9a984538907e3efafc988417590aaa281d5 :=
  ecpp_prime (a := 0x3d9e678c5353afffe0e0f2d8cb2ba03c62ba6877b39bfa16b0376097a3c29614ffaa0b1de75161f3b)
    (x := 0x2012f9369477684b0fab1e5f9c3b00c403d8b30f1bae71bb3e13ed1f2b933bd350bdbc2cc0366ac0c)
    (y := 0x1074649abe167de9710bab36598e816e5a025200039f88e3bb8171db2af85118ce136a85dbcad5dec)
    (i := 294) p7_prime (by decide +kernel)

theorem p5_prime : Nat.Prime 0x1aecdb8eaab6373e9bbadd69b4b3ba5bd2d908075f023584392e1cd159c44c99483f09beb11f6a526ef33 :=
  ecpp_prime (a := 0x0)
    (x := 0x19c20e0934d56eea27f529718d43173e4be3b87e839c3cbcb840acf5d07df5e8384828c5b20773793cdb9)
    (y := 0x5c0d63c48f41928bd24e7606d018b20a3a39e7de345aa34976ae334656320066d76513833c18e1a42606)
    (i := 322) p6_prime (by decide +kernel)

theorem p4_prime : Nat.Prime 0x24b713ce327b012d688fcbb01f96a14ea088545297e10893978d65bcadb2b122092d7a436482a34fee47a67896d8681f :=
  ecpp_prime (a := 0x14c05b8e8a8f09473b8ac4a4164fdf850132e2375010a047ed76b505ee09fc3bfe8f6488642a50b4f554a226930dbe68)
    (x := 0x1385bc50774bec3ceb8aa1407a28fa0d89d444fb033f55474582bbb4917e499ddbae859e50af805bb0cd6c24d1bb0676)
    (y := 0x3d50a14eec490d4f10de6e416290999826f3c1b8d4fada4bb63f8e302db27098bf4c97426436ca880bcea498832c37d)
    (i := 336) p5_prime (by decide +kernel)

theorem p3_prime : Nat.Prime 0x125c687d6fbb46719322b737f66ee296de9b45e07d7a834652286694499b98bcf0c066f3c2d1e255a1bd7df6f47e003020c98c456d6229cf :=
  ecpp_prime (a := 0x12040306216e5031c3d81e74504641e11272bc4763f28216c602581fe61ce30df55d49d5faf1495d9baf9e19ff5df4194ff4801ede9fba23)
    (x := 0xd05dbb270f03cdfc60e3b33d40f9b964cea7dd4689f2e5710cdfc3581b38f1c01913245cbac05b43e056f4cfa58daf4b63763c9f41f5885)
    (y := 0xa933447c94043931746866790ed298fe8097c1436095f3701da644e21e1a703c8ddfd9c814609e4a792a33c2c3d124dcaa2c125c291a07a)
    (i := 381) p4_prime (by decide +kernel)

theorem p2_prime : Nat.Prime 0x1a64d634509d35434381e760723f65b8dfff3472b4601cb5161a137504d6f7c008139b7e63ce70aed115cdd9eea7f0cc56dcb14d586172f7d :=
  ecpp_prime (a := 0x120884ab864d951bd94c63d26cc6ebf5d4d85620cc405daed96cbc7971955189fedb981913702f4459ce4b93b8b91e21633810e66fbbefca4)
    (x := 0x117827104fcfa9662e4e4ef4ce6dc082503e5fe58fd64eb1dbec853829fe96243f5ad8e24ec9847f9f5aa5efb9a96b5fdaea433f5f7c2a97b)
    (y := 0xba8a4418f62195a8d4bbeecc7786bcd6e20123ef047cabe5f0812b7772f40159ffd493c6b132eefcbd07861907ba76c2e75eb1cf3ea490ca)
    (i := 444) p3_prime (by decide +kernel)

theorem p1_prime : Nat.Prime 0x37b1a2f1867ed11fe8e9635f839265e6e558a68b32cc55e53f4a5fc44bb9015c0bda7dcaade5ec9cb6afce15c3e77b18de2a5c8e688452c8496081d0999 :=
  ecpp_prime (a := 0x17dde4d60850cd206da2e7187d52854cce42c375092d5ab54a78de3a16d8f3a3ec8f35c22fc6b49dd34835777595fc2c964cb1e67f3368bc8575af0d5d5)
    (x := 0xca99610ec2cd770dc99ab47fea90e62327823ab2c4f56bea240acb1645d4aa8d49de1517bc9e6d3c5bf4081b1103d697d5a2f6eb48a8424b28ec44c162)
    (y := 0x25d08834186bc5abad9bf7054bfffd853bd265e16a2f8898d8f6b21100ebc05ce32c8f66219828ce79cf9b8034c019e2d9025bb247b4d2135d1fa02ebcf)
    (i := 448) p2_prime (by decide +kernel)

/-- A prime of 512 bits. -/
def exP : Nat :=
  0xdd8f90d5d47dd7c2d10878d03ea65dd8b6ef5dfc5b51e2c01eeae9381243749c84000732f7ff0426721dcfa04e70370983c1ce73a131e1b546e03a1ef67d32f7

theorem exP_prime : Nat.Prime exP :=
  ecpp_prime (a := 0x24524c5dc1368b1c5f3cb7fae6ef2564b9424623bdce6a6e7221968290ae4271c308e99470ab2f5933246a9fe9b7594645c52bd6d7a6a490951732f7af044b50)
    (x := 0x85cf4a85fee045e36356dbe9d757786ad437ea8f21d46e169a91bd6c3e017950a04cede6a1c312b9050209a6cd266a7a5555cb01f6e228399f72091c898920ef)
    (y := 0x94dd5608a303a8e4154aa9e38328d69207c265a7e611c9ebdff65646761358047769b37930ebd399c5dbc142e5f422a11593526defc11575e8091159f9d2e983)
    (i := 489) p1_prime (by decide +kernel)

end Verif.DsaGen
