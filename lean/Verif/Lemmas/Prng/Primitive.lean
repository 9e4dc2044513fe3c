import Verif.Lemmas.Prng.Period
import Mathlib.NumberTheory.LucasLehmer
import Mathlib.Tactic.NormNum.Prime
/-! The four polynomials of LFSR113 are primitive: `X` has the order `2 ^ k - 1`. -/
namespace Verif.Period
open Polynomial Verif.CrcS Verif.Crc

/-- A prime divisor of a product of primes is one of them. -/
theorem prime_mem {l : List Nat} (hl : ∀ a ∈ l, a.Prime) {p : Nat} (hp : p.Prime) (h : p ∣ l.prod) : p ∈ l := by
  obtain ⟨a, ha, hpa⟩ := hp.prime.dvd_prod_iff.1 h
  rwa [(Nat.prime_dvd_prime_iff_eq hp (hl a ha)).1 hpa]

/-- Computed powers of `X`. -/
def lad31 : List (Bool × BitVec 31) := [(false, 268435456), (false, 67108864), (false, 4194304), (false, 16384), (false, 545259520), (false, 268500992), (false, 67108868), (false,
  1094713376), (false, 1074022432), (false, 1610745952), (false, 1350707376), (false, 1285785656), (false, 1103305407), (false, 400025748), (false, 1836565629), (false, 888471133),
  (false, 2069091945), (false, 1940180021), (false, 824678987), (false, 47583325), (false, 1191798392), (false, 1759284014), (false, 13198795), (false, 1020488460), (false,
  2087283894), (false, 738351364), (false, 1917323312), (false, 1418873640), (false, 1682515122), (false, 1207978276), (false, 536870912)]
/-- Computed powers of `X`. -/
def lad31_2147483647 : List (Bool × BitVec 31) := []

theorem gen31 : X ^ (30 + 1) + reg (1090519040#31 : BitVec (30 + 1)) = X ^ 31 + X ^ 6 + 1 := by
  simp [reg, Finset.sum_range_succ, bit]; ring
theorem regX31 : reg (536870912#31 : BitVec (30 + 1)) = X := by simp [reg, Finset.sum_range_succ, bit]
theorem regO31 : reg (1073741824#31 : BitVec (30 + 1)) = 1 := by simp [reg, Finset.sum_range_succ, bit]

theorem order31 : (X ^ 31 + X ^ 6 + 1 : Pol) ∣ X ^ (2 ^ 31 - 1) - 1 := by
  rw [← gen31]
  refine ladder_one regX31 (l := lad31) (by decide +kernel) (by decide +kernel) ?_ (by decide +kernel)
  rw [gen31]
  exact ⟨1, -(X ^ 30 + X ^ 5), by ring⟩

theorem units31 (p : Nat) (hp : p.Prime) (h : p ∣ 2 ^ 31 - 1) : ∃ i, (X ^ 31 + X ^ 6 + 1 : Pol) ∣ (X ^ ((2 ^ 31 - 1) / p) - 1) * i - 1 := by
  have hm : p ∈ [2147483647] := prime_mem (by
    intro a ha
    rw [List.mem_singleton.1 ha]
    exact lucas_lehmer_sufficiency 31 (by norm_num) (by norm_num)) hp h
  simp only [List.mem_cons, List.not_mem_nil, or_false] at hm
  generalize he : (2 ^ 31 - 1) / p = e
  rw [← gen31]
  rcases hm with rfl
  · exact ladder_unit regX31 regO31 (l := lad31_2147483647) (i := 33554431#31) (by decide +kernel) (by decide +kernel) (he.symm.trans (by decide +kernel))

/-- Computed powers of `X`. -/
def lad29 : List (Bool × BitVec 29) := [(false, 67108864), (false, 16777216), (false, 1048576), (false, 4096), (false, 41943040), (false, 4456448), (false, 65792), (false, 163856),
  (false, 708), (false, 690216), (false, 10489572), (false, 8831528), (false, 920549), (false, 346556266), (false, 287631018), (false, 439544751), (false, 183007941), (false,
  409979947), (false, 8998909), (false, 344196123), (false, 86770472), (false, 18403232), (false, 9453061), (false, 470159402), (false, 394267626), (false, 301728426), (false,
  270532522), (false, 402669567), (false, 134217728)]
/-- Computed powers of `X`. -/
def lad29_233 : List (Bool × BitVec 29) := [(false, 67108864), (false, 16777216), (false, 1048576), (true, 2048), (true, 5242880), (false, 69632), (false, 41943056), (true,
  2228544), (false, 190528), (true, 290460706), (false, 314120714), (false, 309220538), (false, 317320555), (true, 325579614), (false, 416934743), (true, 290905946), (false,
  303151983), (false, 208188052), (true, 113636182), (true, 283563483), (true, 391620022)]
/-- Computed powers of `X`. -/
def lad29_1103 : List (Bool × BitVec 29) := [(true, 33554432), (true, 2097152), (false, 16384), (true, 335544320), (true, 142606336), (false, 67371008), (true, 8388736), (true,
  151552), (false, 41943105), (true, 170005505), (false, 317210690), (true, 472036869), (false, 161628270), (true, 369766753), (false, 230860354), (false, 255273038), (false,
  267418066), (true, 314289477)]
/-- Computed powers of `X`. -/
def lad29_2089 : List (Bool × BitVec 29) := [(true, 33554432), (true, 2097152), (true, 8192), (true, 83886080), (false, 17825792), (true, 526336), (false, 10486784), (true,
  1449984), (true, 83888288), (true, 14177536), (true, 358074880), (true, 484280490), (false, 363184062), (false, 420768022), (true, 458836433), (true, 343510857), (true,
  46202459)]

theorem gen29 : X ^ (28 + 1) + reg (335544320#29 : BitVec (28 + 1)) = X ^ 29 + X ^ 2 + 1 := by
  simp [reg, Finset.sum_range_succ, bit]; ring
theorem regX29 : reg (134217728#29 : BitVec (28 + 1)) = X := by simp [reg, Finset.sum_range_succ, bit]
theorem regO29 : reg (268435456#29 : BitVec (28 + 1)) = 1 := by simp [reg, Finset.sum_range_succ, bit]

theorem order29 : (X ^ 29 + X ^ 2 + 1 : Pol) ∣ X ^ (2 ^ 29 - 1) - 1 := by
  rw [← gen29]
  refine ladder_one regX29 (l := lad29) (by decide +kernel) (by decide +kernel) ?_ (by decide +kernel)
  rw [gen29]
  exact ⟨1, -(X ^ 28 + X ^ 1), by ring⟩

theorem units29 (p : Nat) (hp : p.Prime) (h : p ∣ 2 ^ 29 - 1) : ∃ i, (X ^ 29 + X ^ 2 + 1 : Pol) ∣ (X ^ ((2 ^ 29 - 1) / p) - 1) * i - 1 := by
  have hm : p ∈ [233, 1103, 2089] := prime_mem (by
    simp only [List.mem_cons, List.not_mem_nil, or_false, forall_eq_or_imp, forall_eq]
    refine ⟨by norm_num, by norm_num, by norm_num⟩) hp h
  simp only [List.mem_cons, List.not_mem_nil, or_false] at hm
  generalize he : (2 ^ 29 - 1) / p = e
  rw [← gen29]
  rcases hm with rfl | rfl | rfl
  · exact ladder_unit regX29 regO29 (l := lad29_233) (i := 198341362#29) (by decide +kernel) (by decide +kernel) (he.symm.trans (by decide +kernel))
  · exact ladder_unit regX29 regO29 (l := lad29_1103) (i := 218478106#29) (by decide +kernel) (by decide +kernel) (he.symm.trans (by decide +kernel))
  · exact ladder_unit regX29 regO29 (l := lad29_2089) (i := 447433449#29) (by decide +kernel) (by decide +kernel) (he.symm.trans (by decide +kernel))

/-- Computed powers of `X`. -/
def lad28 : List (Bool × BitVec 28) := [(false, 33554432), (false, 8388608), (false, 524288), (false, 2048), (false, 8389632), (false, 2621696), (false, 165904), (false, 25169544),
  (false, 12617668), (false, 3187197), (false, 223567927), (false, 121061920), (false, 111708898), (false, 100926565), (false, 112266155), (false, 105320150), (false, 54439277),
  (false, 206824883), (false, 119915420), (false, 66718302), (false, 24544457), (false, 4391175), (false, 1376306), (false, 84148232), (false, 39846016), (false, 8519684), (false,
  1572896), (false, 67108864)]
/-- Computed powers of `X`. -/
def lad28_3 : List (Bool × BitVec 28) := [(false, 33554432), (true, 4194304), (false, 131072), (true, 64), (false, 8193), (true, 67149829), (false, 168902818), (true, 105006087),
  (false, 45547776), (true, 4542808), (false, 54540979), (true, 127400755), (false, 220681432), (true, 211836307), (false, 162471732), (true, 130637480), (false, 71481318), (true,
  236858538), (false, 107267372), (true, 58217629), (false, 64172332), (true, 125578568), (false, 172019089), (true, 76597130), (false, 40281078), (true, 248406058)]
/-- Computed powers of `X`. -/
def lad28_5 : List (Bool × BitVec 28) := [(true, 16777216), (false, 2097152), (false, 32768), (true, 4), (true, 524368), (false, 16785921), (false, 136921162), (true, 203560261),
  (true, 203004061), (false, 164738054), (false, 35549600), (true, 121727307), (true, 221442888), (false, 7000667), (false, 55554153), (true, 259123217), (true, 26343184), (false,
  184712058), (false, 124671099), (true, 182685072), (true, 76810206), (false, 58100573), (false, 24743667), (true, 180869031), (true, 123395518)]
/-- Computed powers of `X`. -/
def lad28_29 : List (Bool × BitVec 28) := [(false, 33554432), (false, 8388608), (false, 524288), (true, 1024), (true, 1048704), (false, 40964), (true, 67641428), (false,
  185623201), (false, 78235724), (true, 158078725), (true, 84725245), (true, 199853978), (true, 81920234), (false, 105777709), (true, 53318261), (true, 199003233), (true,
  235262849), (false, 143364724), (false, 252713545), (true, 204786533), (false, 245083889), (true, 194033651), (true, 197376447)]
/-- Computed powers of `X`. -/
def lad28_43 : List (Bool × BitVec 28) := [(false, 33554432), (true, 4194304), (true, 65536), (true, 16), (true, 8389888), (true, 1376392), (false, 4235428), (true, 101282902),
  (false, 162821035), (false, 107436276), (false, 85070855), (false, 1388802), (false, 168194584), (true, 31730977), (false, 210366234), (true, 32711401), (true, 238155063), (true,
  47966684), (true, 212607567), (true, 153793569), (false, 100790658), (true, 71526411)]
/-- Computed powers of `X`. -/
def lad28_113 : List (Bool × BitVec 28) := [(false, 33554432), (false, 8388608), (true, 262144), (false, 512), (false, 524352), (false, 10241), (false, 142689290), (true,
  70648261), (true, 151634207), (true, 79396892), (true, 28069956), (true, 152837457), (true, 230804109), (false, 183731780), (true, 207159460), (true, 118046786), (false,
  44312587), (true, 69657169), (true, 226800736), (true, 168062340), (true, 1663963)]
/-- Computed powers of `X`. -/
def lad28_127 : List (Bool × BitVec 28) := [(false, 33554432), (false, 8388608), (false, 524288), (false, 2048), (false, 8389632), (false, 2621696), (true, 82952), (false,
  6292386), (false, 67905660), (false, 265309729), (false, 235081032), (false, 174204721), (false, 95019994), (true, 229863531), (false, 74316289), (false, 143384160), (false,
  245372395), (false, 216996791), (false, 227884150), (false, 94139817), (true, 103147726)]

theorem gen28 : X ^ (27 + 1) + reg (134234112#28 : BitVec (27 + 1)) = X ^ 28 + X ^ 13 + 1 := by
  simp [reg, Finset.sum_range_succ, bit]; ring
theorem regX28 : reg (67108864#28 : BitVec (27 + 1)) = X := by simp [reg, Finset.sum_range_succ, bit]
theorem regO28 : reg (134217728#28 : BitVec (27 + 1)) = 1 := by simp [reg, Finset.sum_range_succ, bit]

theorem order28 : (X ^ 28 + X ^ 13 + 1 : Pol) ∣ X ^ (2 ^ 28 - 1) - 1 := by
  rw [← gen28]
  refine ladder_one regX28 (l := lad28) (by decide +kernel) (by decide +kernel) ?_ (by decide +kernel)
  rw [gen28]
  exact ⟨1, -(X ^ 27 + X ^ 12), by ring⟩

theorem units28 (p : Nat) (hp : p.Prime) (h : p ∣ 2 ^ 28 - 1) : ∃ i, (X ^ 28 + X ^ 13 + 1 : Pol) ∣ (X ^ ((2 ^ 28 - 1) / p) - 1) * i - 1 := by
  have hm : p ∈ [3, 5, 29, 43, 113, 127] := prime_mem (by
    simp only [List.mem_cons, List.not_mem_nil, or_false, forall_eq_or_imp, forall_eq]
    refine ⟨by norm_num, by norm_num, by norm_num, by norm_num, by norm_num, by norm_num⟩) hp h
  simp only [List.mem_cons, List.not_mem_nil, or_false] at hm
  generalize he : (2 ^ 28 - 1) / p = e
  rw [← gen28]
  rcases hm with rfl | rfl | rfl | rfl | rfl | rfl
  · exact ladder_unit regX28 regO28 (l := lad28_3) (i := 248406058#28) (by decide +kernel) (by decide +kernel) (he.symm.trans (by decide +kernel))
  · exact ladder_unit regX28 regO28 (l := lad28_5) (i := 213917698#28) (by decide +kernel) (by decide +kernel) (he.symm.trans (by decide +kernel))
  · exact ladder_unit regX28 regO28 (l := lad28_29) (i := 45458466#28) (by decide +kernel) (by decide +kernel) (he.symm.trans (by decide +kernel))
  · exact ladder_unit regX28 regO28 (l := lad28_43) (i := 179267963#28) (by decide +kernel) (by decide +kernel) (he.symm.trans (by decide +kernel))
  · exact ladder_unit regX28 regO28 (l := lad28_113) (i := 81095456#28) (by decide +kernel) (by decide +kernel) (he.symm.trans (by decide +kernel))
  · exact ladder_unit regX28 regO28 (l := lad28_127) (i := 17008845#28) (by decide +kernel) (by decide +kernel) (he.symm.trans (by decide +kernel))

/-- Computed powers of `X`. -/
def lad25 : List (Bool × BitVec 25) := [(false, 4194304), (false, 1048576), (false, 65536), (false, 256), (false, 147456), (false, 1040), (false, 2359872), (false, 865280), (false,
  2380037), (false, 9850935), (false, 13705086), (false, 15625980), (false, 15330272), (false, 13614164), (false, 14971681), (false, 13588759), (false, 5379966), (false, 4090876),
  (false, 10398688), (false, 14330180), (false, 12787808), (false, 5253124), (false, 8454176), (false, 4196352), (false, 8388608)]
/-- Computed powers of `X`. -/
def lad25_31 : List (Bool × BitVec 25) := [(false, 4194304), (false, 1048576), (false, 65536), (false, 256), (true, 73728), (false, 260), (false, 147492), (false, 3380), (false,
  11946852), (true, 7290010), (false, 10536924), (false, 7075492), (false, 3791985), (false, 2190867), (true, 20218287), (false, 26724863), (false, 21228207), (false, 18455787),
  (false, 19266778), (true, 14177222)]
/-- Computed powers of `X`. -/
def lad25_601 : List (Bool × BitVec 25) := [(true, 2097152), (false, 262144), (true, 2048), (true, 4718592), (false, 1064960), (true, 32776), (false, 208), (false, 46656), (false,
  2958405), (false, 11564322), (true, 3253390), (false, 2200057), (true, 23822153), (true, 29200579), (true, 15397541)]
/-- Computed powers of `X`. -/
def lad25_1801 : List (Bool × BitVec 25) := [(false, 4194304), (false, 1048576), (true, 32768), (false, 64), (false, 9216), (false, 2359300), (true, 133138), (true, 23593764),
  (false, 18811172), (false, 26418212), (false, 32836645), (true, 12094483), (true, 17867013), (true, 13213745)]

theorem gen25 : X ^ (24 + 1) + reg (18874368#25 : BitVec (24 + 1)) = X ^ 25 + X ^ 3 + 1 := by
  simp [reg, Finset.sum_range_succ, bit]; ring
theorem regX25 : reg (8388608#25 : BitVec (24 + 1)) = X := by simp [reg, Finset.sum_range_succ, bit]
theorem regO25 : reg (16777216#25 : BitVec (24 + 1)) = 1 := by simp [reg, Finset.sum_range_succ, bit]

theorem order25 : (X ^ 25 + X ^ 3 + 1 : Pol) ∣ X ^ (2 ^ 25 - 1) - 1 := by
  rw [← gen25]
  refine ladder_one regX25 (l := lad25) (by decide +kernel) (by decide +kernel) ?_ (by decide +kernel)
  rw [gen25]
  exact ⟨1, -(X ^ 24 + X ^ 2), by ring⟩

theorem units25 (p : Nat) (hp : p.Prime) (h : p ∣ 2 ^ 25 - 1) : ∃ i, (X ^ 25 + X ^ 3 + 1 : Pol) ∣ (X ^ ((2 ^ 25 - 1) / p) - 1) * i - 1 := by
  have hm : p ∈ [31, 601, 1801] := prime_mem (by
    simp only [List.mem_cons, List.not_mem_nil, or_false, forall_eq_or_imp, forall_eq]
    refine ⟨by norm_num, by norm_num, by norm_num⟩) hp h
  simp only [List.mem_cons, List.not_mem_nil, or_false] at hm
  generalize he : (2 ^ 25 - 1) / p = e
  rw [← gen25]
  rcases hm with rfl | rfl | rfl
  · exact ladder_unit regX25 regO25 (l := lad25_31) (i := 29873701#25) (by decide +kernel) (by decide +kernel) (he.symm.trans (by decide +kernel))
  · exact ladder_unit regX25 regO25 (l := lad25_601) (i := 2915858#25) (by decide +kernel) (by decide +kernel) (he.symm.trans (by decide +kernel))
  · exact ladder_unit regX25 regO25 (l := lad25_1801) (i := 4527183#25) (by decide +kernel) (by decide +kernel) (he.symm.trans (by decide +kernel))

end Verif.Period
