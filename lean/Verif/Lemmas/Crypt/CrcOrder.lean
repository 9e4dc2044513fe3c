import Verif.Lemmas.Prng.Primitive
import Verif.Props.Crypt.Crc
import Mathlib.RingTheory.AdjoinRoot
import Mathlib.GroupTheory.OrderOfElement
/-! The order of `X` modulo the polynomials of the CRCs. -/
namespace Verif.CrcOrder
open Polynomial Verif.CrcS Verif.Crc Verif.Period

/-- `X ^ N` is 1, and no `X ^ (N / p)` is. -/
theorem order_iff {g : Pol} {N : Nat} (hN : 0 < N) (h1 : g ∣ X ^ N - 1) (h2 : ∀ p, p.Prime → p ∣ N → ¬ g ∣ X ^ (N / p) - 1) (d : Nat) :
    g ∣ X ^ d - 1 ↔ N ∣ d := by
  have hr : ∀ d, g ∣ X ^ d - 1 ↔ AdjoinRoot.root g ^ d = 1 := fun d => by
    rw [← AdjoinRoot.mk_eq_zero, map_sub, map_pow, AdjoinRoot.mk_X, map_one, sub_eq_zero]
  have ho : orderOf (AdjoinRoot.root g) = N := orderOf_eq_of_pow_and_pow_div_prime hN ((hr N).1 h1) fun p hp hd h => h2 p hp hd ((hr _).2 h)
  rw [hr, ← ho, orderOf_dvd_iff_pow_eq_one]

theorem ladder_eq_one {n : Nat} {P x o : BitVec (n + 1)} (hx : reg x = X) (ho : reg o = 1) {l : List (Bool × BitVec (n + 1))} (hl : ladder P x l = true)
    {e : Nat} (he : e = expo 1 l) : (X ^ (n + 1) + reg P) ∣ X ^ e - 1 ↔ top x l = o := by
  subst he
  have hs := ladder_spec P l x 1 (by rw [hx, pow_one, sub_self]; exact dvd_zero _) hl
  constructor
  · intro h
    have hd : (X ^ (n + 1) + reg P) ∣ reg (top x l) - reg o := by
      have := dvd_add hs h
      rwa [ho, show reg (top x l) - 1 = reg (top x l) - X ^ expo 1 l + (X ^ expo 1 l - 1) by ring]
    rw [← modByMonic_eq_zero_iff_dvd (gen_monic P), sub_modByMonic, sub_eq_zero] at hd
    have hm : ∀ v : BitVec (n + 1), reg v %ₘ (X ^ (n + 1) + reg P) = reg v := fun v =>
      (modByMonic_eq_self_iff (gen_monic P)).mpr (by rw [gen_degree]; exact reg_degree _)
    rw [hm, hm] at hd
    exact reg_inj hd
  · intro h
    rw [h, ho] at hs
    rw [← neg_sub]
    exact hs.neg_right

theorem regX16 : reg (16384#16 : BitVec (15 + 1)) = X := by simp [reg, Finset.sum_range_succ, bit]
theorem regO16 : reg (32768#16 : BitVec (15 + 1)) = 1 := by simp [reg, Finset.sum_range_succ, bit]
theorem regX32 : reg (1073741824#32 : BitVec (31 + 1)) = X := by simp [reg, Finset.sum_range_succ, bit]
theorem regO32 : reg (2147483648#32 : BitVec (31 + 1)) = 1 := by simp [reg, Finset.sum_range_succ, bit]

/-- Computed powers of `X`. -/
def ccittN : List (Bool × BitVec 16) := [(true, 4096), (true, 256), (true, 1), (true, 6616), (true, 1067), (true, 32490), (true, 8435), (true, 32656), (true, 18136), (true, 5502),
  (true, 62122), (true, 28706), (true, 13380), (true, 32768)]
/-- Computed powers of `X`. -/
def ccitt7 : List (Bool × BitVec 16) := [(false, 8192), (false, 2048), (true, 64), (false, 8450), (false, 50882), (true, 26097), (false, 4546), (false, 27080), (true, 162), (false,
  50816), (false, 9248), (true, 16948)]
/-- Computed powers of `X`. -/
def ccitt31 : List (Bool × BitVec 16) := [(false, 8192), (false, 2048), (false, 128), (false, 33800), (true, 1654), (false, 25475), (false, 20850), (false, 25242), (false, 52510),
  (true, 62799)]
/-- Computed powers of `X`. -/
def ccitt151 : List (Bool × BitVec 16) := [(true, 4096), (false, 512), (true, 4), (true, 38289), (false, 5768), (false, 2796), (true, 50962)]

theorem ccitt_order (d : Nat) : gCcitt ∣ X ^ d - 1 ↔ 32767 ∣ d := by
  rw [← ccitt_gen]
  refine order_iff (by decide) ((ladder_eq_one regX16 regO16 (l := ccittN) (by decide +kernel) (by decide +kernel)).2 (by decide +kernel)) ?_ d
  intro p hp hd
  have hm : p ∈ [7, 31, 151] := prime_mem (by
    simp only [List.mem_cons, List.not_mem_nil, or_false, forall_eq_or_imp, forall_eq]
    refine ⟨by norm_num, by norm_num, by norm_num⟩) hp hd
  simp only [List.mem_cons, List.not_mem_nil, or_false] at hm
  generalize he : 32767 / p = e
  rcases hm with rfl | rfl | rfl
  · exact fun h => absurd ((ladder_eq_one regX16 regO16 (l := ccitt7) (by decide +kernel) (he.symm.trans (by decide +kernel))).1 h) (by decide +kernel)
  · exact fun h => absurd ((ladder_eq_one regX16 regO16 (l := ccitt31) (by decide +kernel) (he.symm.trans (by decide +kernel))).1 h) (by decide +kernel)
  · exact fun h => absurd ((ladder_eq_one regX16 regO16 (l := ccitt151) (by decide +kernel) (he.symm.trans (by decide +kernel))).1 h) (by decide +kernel)

/-- Computed powers of `X`. -/
def ibmN : List (Bool × BitVec 16) := [(true, 4096), (true, 256), (true, 1), (true, 36865), (true, 53505), (true, 49408), (true, 20481), (true, 33025), (true, 53248), (true,
  20736), (true, 4353), (true, 37120), (true, 16641), (true, 32768)]
/-- Computed powers of `X`. -/
def ibm7 : List (Bool × BitVec 16) := [(false, 8192), (false, 2048), (true, 64), (false, 55297), (false, 49793), (true, 12292), (false, 51737), (false, 49513), (true, 3889),
  (false, 26411), (false, 36428), (true, 35945)]
/-- Computed powers of `X`. -/
def ibm31 : List (Bool × BitVec 16) := [(false, 8192), (false, 2048), (false, 128), (false, 40961), (true, 54273), (false, 49697), (false, 1544), (false, 49225), (false, 55393),
  (true, 52801)]
/-- Computed powers of `X`. -/
def ibm151 : List (Bool × BitVec 16) := [(true, 4096), (false, 512), (true, 4), (true, 49165), (false, 49273), (false, 57313), (true, 15957)]

theorem ibm_order (d : Nat) : gIbm ∣ X ^ d - 1 ↔ 32767 ∣ d := by
  rw [← ibm_gen]
  refine order_iff (by decide) ((ladder_eq_one regX16 regO16 (l := ibmN) (by decide +kernel) (by decide +kernel)).2 (by decide +kernel)) ?_ d
  intro p hp hd
  have hm : p ∈ [7, 31, 151] := prime_mem (by
    simp only [List.mem_cons, List.not_mem_nil, or_false, forall_eq_or_imp, forall_eq]
    refine ⟨by norm_num, by norm_num, by norm_num⟩) hp hd
  simp only [List.mem_cons, List.not_mem_nil, or_false] at hm
  generalize he : 32767 / p = e
  rcases hm with rfl | rfl | rfl
  · exact fun h => absurd ((ladder_eq_one regX16 regO16 (l := ibm7) (by decide +kernel) (he.symm.trans (by decide +kernel))).1 h) (by decide +kernel)
  · exact fun h => absurd ((ladder_eq_one regX16 regO16 (l := ibm31) (by decide +kernel) (he.symm.trans (by decide +kernel))).1 h) (by decide +kernel)
  · exact fun h => absurd ((ladder_eq_one regX16 regO16 (l := ibm151) (by decide +kernel) (he.symm.trans (by decide +kernel))).1 h) (by decide +kernel)

/-- Computed powers of `X`. -/
def dnpN : List (Bool × BitVec 16) := [(false, 8192), (false, 2048), (true, 64), (false, 10671), (true, 26336), (true, 11353), (true, 32768)]
/-- Computed powers of `X`. -/
def dnp151 : List (Bool × BitVec 16) := []

theorem dnp_order (d : Nat) : gDnp ∣ X ^ d - 1 ↔ 151 ∣ d := by
  rw [← dnp_gen]
  refine order_iff (by decide) ((ladder_eq_one regX16 regO16 (l := dnpN) (by decide +kernel) (by decide +kernel)).2 (by decide +kernel)) ?_ d
  intro p hp hd
  have hm : p ∈ [151] := prime_mem (by
    simp only [List.mem_cons, List.not_mem_nil, or_false, forall_eq_or_imp, forall_eq]
    norm_num) hp hd
  simp only [List.mem_cons, List.not_mem_nil, or_false] at hm
  generalize he : 151 / p = e
  rcases hm with rfl
  · exact fun h => absurd ((ladder_eq_one regX16 regO16 (l := dnp151) (by decide +kernel) (he.symm.trans (by decide +kernel))).1 h) (by decide +kernel)

/-- Computed powers of `X`. -/
def ethN : List (Bool × BitVec 32) := [(true, 268435456), (true, 16777216), (true, 65536), (true, 1), (true, 3099354981), (true, 2611301487), (true, 28704029), (true, 3402862223),
  (true, 1946614421), (true, 66713699), (true, 3347858593), (true, 3360620572), (true, 2593093056), (true, 335325470), (true, 3699072095), (true, 1617714740), (true, 4139071878),
  (true, 1677558482), (true, 3836281365), (true, 3642481544), (true, 732761754), (true, 3216831644), (true, 2932021807), (true, 1553776094), (true, 2639741992), (true, 2319049665),
  (true, 2234854716), (true, 689594452), (true, 1399213025), (true, 1387617849), (true, 2147483648)]
/-- Computed powers of `X`. -/
def eth3 : List (Bool × BitVec 32) := [(false, 536870912), (true, 67108864), (false, 2097152), (true, 1024), (false, 2508465314), (true, 4098827283), (false, 1564915760), (true,
  3780454629), (false, 1074420022), (true, 1247960273), (false, 723162240), (true, 1070002131), (false, 856602363), (true, 3953141322), (false, 3953948332), (true, 2879937872),
  (false, 4195517825), (true, 3093793057), (false, 3398945008), (true, 2703340479), (false, 2985618817), (true, 1115768397), (false, 2568263950), (true, 3986134695), (false,
  3605056494), (true, 2561384493), (false, 2291270574), (true, 248187048), (false, 961856706), (true, 3342265170)]
/-- Computed powers of `X`. -/
def eth5 : List (Bool × BitVec 32) := [(true, 268435456), (false, 33554432), (false, 524288), (true, 64), (true, 472294256), (false, 787884166), (false, 3108185600), (true,
  1820459849), (true, 1453926505), (false, 1719595283), (false, 1076115158), (true, 4240548741), (true, 3249118455), (false, 382943627), (false, 1755426207), (true, 1272624634),
  (true, 992732282), (false, 1513380368), (false, 121015785), (true, 2641662373), (true, 3332849841), (false, 3723361855), (false, 3711870978), (true, 1610307727), (true,
  131418338), (false, 303578774), (false, 53777728), (true, 1310848118), (true, 2214662776)]
/-- Computed powers of `X`. -/
def eth17 : List (Bool × BitVec 32) := [(true, 268435456), (true, 16777216), (true, 65536), (false, 2), (false, 3316918511), (false, 1623683040), (false, 2654359659), (true,
  2617345605), (true, 3986752846), (true, 1606507668), (true, 3760168399), (false, 3425278668), (false, 3294608552), (false, 20252798), (false, 2256822453), (true, 3292195772),
  (true, 205810528), (true, 2360046721), (true, 2942916698), (false, 1970142583), (false, 2051354707), (false, 2653535190), (false, 4057144482), (true, 1615629964), (true,
  127683570), (true, 1975095672), (true, 2351447200)]
/-- Computed powers of `X`. -/
def eth257 : List (Bool × BitVec 32) := [(true, 268435456), (true, 16777216), (true, 65536), (true, 1), (true, 3099354981), (true, 2611301487), (true, 28704029), (false,
  1322654559), (false, 383113258), (false, 663566273), (false, 4108660863), (false, 1576631147), (false, 2362397330), (false, 3122433095), (false, 1056257235), (true, 1700530042),
  (true, 759126453), (true, 427238450), (true, 3309803233), (true, 2892846927), (true, 4188048983), (true, 2271867690), (true, 891036361)]
/-- Computed powers of `X`. -/
def eth65537 : List (Bool × BitVec 32) := [(true, 268435456), (true, 16777216), (true, 65536), (true, 1), (true, 3099354981), (true, 2611301487), (true, 28704029), (true,
  3402862223), (true, 1946614421), (true, 66713699), (true, 3347858593), (true, 3360620572), (true, 2593093056), (true, 335325470), (true, 3699072095)]

theorem eth_order (d : Nat) : gEth ∣ X ^ d - 1 ↔ 4294967295 ∣ d := by
  rw [← eth_gen]
  refine order_iff (by decide) ((ladder_eq_one regX32 regO32 (l := ethN) (by decide +kernel) (by decide +kernel)).2 (by decide +kernel)) ?_ d
  intro p hp hd
  have hm : p ∈ [3, 5, 17, 257, 65537] := prime_mem (by
    simp only [List.mem_cons, List.not_mem_nil, or_false, forall_eq_or_imp, forall_eq]
    refine ⟨by norm_num, by norm_num, by norm_num, by norm_num, by norm_num⟩) hp hd
  simp only [List.mem_cons, List.not_mem_nil, or_false] at hm
  generalize he : 4294967295 / p = e
  rcases hm with rfl | rfl | rfl | rfl | rfl
  · exact fun h => absurd ((ladder_eq_one regX32 regO32 (l := eth3) (by decide +kernel) (he.symm.trans (by decide +kernel))).1 h) (by decide +kernel)
  · exact fun h => absurd ((ladder_eq_one regX32 regO32 (l := eth5) (by decide +kernel) (he.symm.trans (by decide +kernel))).1 h) (by decide +kernel)
  · exact fun h => absurd ((ladder_eq_one regX32 regO32 (l := eth17) (by decide +kernel) (he.symm.trans (by decide +kernel))).1 h) (by decide +kernel)
  · exact fun h => absurd ((ladder_eq_one regX32 regO32 (l := eth257) (by decide +kernel) (he.symm.trans (by decide +kernel))).1 h) (by decide +kernel)
  · exact fun h => absurd ((ladder_eq_one regX32 regO32 (l := eth65537) (by decide +kernel) (he.symm.trans (by decide +kernel))).1 h) (by decide +kernel)

end Verif.CrcOrder
