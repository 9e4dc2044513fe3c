import Verif.Lemmas.Mem.PrimeGen
import Verif.Props.Mem.Elgamal
import Mathlib.FieldTheory.Finite.Basic
/-!
# C96: the primality test and the generation of primes in memory
-/
namespace Verif.Mem
open Verif.Mpi

section
variable {w : Nat} {s : St} {sp p fuel : Nat}

/-- C96, partial.  Full statement: `cry_mpi_is_prime` gives the answer of trial division by the odd primes below 1010 followed by
Miller-Rabin turns with the five bases drawn, or reports that an allocation failed; it leaves every number of the caller as it was and
gives back all memory.  Proved: when no allocation fails, for numbers other than 1 (there it does not return, `mem_is_prime_one`), when
the numbers drawn do not begin with a zero digit.  Missing: failing allocations, where it is false (`mem_is_prime_ub`).  `fuel` bounds
the divisions by two; any bound not below the bit length will do. -/
theorem mem_is_prime_partial {n : Nat} (hw : DigitWidth w) (hs : Plenty s) (hp : p < sp) (ap : (s.obj p).Shows w n) (hn : n ≠ 1) (hf : n.size ≤ fuel)
    (draw : Nat → List Byte) (hd : NoSmall n → ∀ i < 5, (draw i).length = (n.size + 7) / 8 ∧ (2 ^ w) ^ ((n.size - 1) / w) ≤ beVal (draw i)) :
    ((Verdict n fun i => rangeVal n (draw i)) → EndsSame sp s (isPrime w sp fuel p draw) 1) ∧
    ((¬ Verdict n fun i => rangeVal n (draw i)) → EndsSame sp s (isPrime w sp fuel p draw) 0) := by
  obtain ⟨st, s', e, h, c⟩ := isPrime_calm (K := ctxOf sp s) hw hs (at_now sp s) hp (fun o ho => by rw [ho]; exact ap) hn hf draw hd
  have hsame := At.same rfl h
  rcases c with ⟨rfl, h1⟩ | ⟨rfl, h1⟩
  · exact ⟨fun _ => ⟨s', e, hsame⟩, fun h => absurd h1 h⟩
  · exact ⟨fun h => absurd h h1, fun _ => ⟨s', e, hsame⟩⟩

/-- A prime passes a Miller-Rabin turn with every base it does not divide. -/
theorem strongTest_prime {n a : Nat} (hn : n.Prime) (ha : ¬ n ∣ a) : StrongTest n a := by
  haveI := Fact.mk hn
  obtain ⟨b, m, h1, h2⟩ := exists_odd_part (n := n - 1) (by have := hn.two_le; omega)
  refine ⟨b, m, h1, h2, ?_⟩
  have ha0 : (a : ZMod n) ≠ 0 := by rwa [Ne, ZMod.natCast_eq_zero_iff]
  have hfermat : ((a : ZMod n) ^ m) ^ 2 ^ b = 1 := by
    rw [← pow_mul, mul_comm, ← h1]; exact ZMod.pow_card_sub_one_eq_one ha0
  have key : ∀ (b : Nat) (x : ZMod n), x ^ 2 ^ b = 1 → x = 1 ∨ ∃ i ≤ b, x ^ 2 ^ i = -1 := by
    intro b
    induction b with
    | zero => intro x h; left; simpa using h
    | succ b ih =>
      intro x h
      rw [pow_succ 2 b, pow_mul, sq_eq_one_iff] at h
      rcases h with h | h
      · rcases ih x h with h | ⟨i, hi, h⟩
        · exact Or.inl h
        · exact Or.inr ⟨i, by omega, h⟩
      · exact Or.inr ⟨b, by omega, h⟩
  have one : ∀ y : Nat, (y : ZMod n) = 1 ↔ y % n = 1 := fun y => by
    rw [show (1 : ZMod n) = ((1 : Nat) : ZMod n) by simp, ZMod.natCast_eq_natCast_iff', Nat.mod_eq_of_lt hn.one_lt]
  have neg : ∀ y : Nat, (y : ZMod n) = -1 → y % n = n - 1 := fun y h => by
    have h' : (y : ZMod n) = ((n - 1 : Nat) : ZMod n) := by rw [h, Nat.cast_sub hn.one_lt.le]; simp
    rw [ZMod.natCast_eq_natCast_iff', Nat.mod_eq_of_lt (by have := hn.two_le; omega : n - 1 < n)] at h'
    exact h'
  rcases key b _ hfermat with h | ⟨i, hi, h⟩
  · left; rw [← one]; push_cast; exact h
  · right; refine ⟨i, hi, neg _ ?_⟩
    push_cast; rw [pow_mul]; exact h

/-- C96: every odd prime is accepted, when no base drawn is 0 (if one is, the number is rejected, also when prime). -/
theorem mem_is_prime_accepts {n : Nat} (hw : DigitWidth w) (hs : Plenty s) (hp : p < sp) (ap : (s.obj p).Shows w n) (hn : n.Prime) (h2 : n ≠ 2)
    (hf : n.size ≤ fuel) (draw : Nat → List Byte)
    (hd : NoSmall n → ∀ i < 5, (draw i).length = (n.size + 7) / 8 ∧ (2 ^ w) ^ ((n.size - 1) / w) ≤ beVal (draw i))
    (h0 : ∀ i < 5, rangeVal n (draw i) ≠ 0) : EndsSame sp s (isPrime w sp fuel p draw) 1 := by
  refine (mem_is_prime_partial hw hs hp ap hn.one_lt.ne' hf draw hd).1 ?_
  by_cases hl : n < 1010
  · exact Or.inl ⟨hn, h2, hl⟩
  · refine Or.inr ⟨fun q q1 q2 q3 q4 => ?_, fun i hi => strongTest_prime hn fun h => ?_⟩
    · rcases (Nat.dvd_prime hn).1 q4 with h | h
      · exact q1.one_lt.ne' h
      · omega
    · exact h0 i hi (Nat.eq_zero_of_dvd_of_lt h (Nat.mod_lt _ hn.pos))

/-- C96: a prime is rejected when one of the bases drawn is 0, and it is not among the small ones. -/
theorem mem_is_prime_zero_base {n : Nat} (hw : DigitWidth w) (hs : Plenty s) (hp : p < sp) (ap : (s.obj p).Shows w n) (hl : 1010 ≤ n)
    (hf : n.size ≤ fuel) (draw : Nat → List Byte)
    (hd : NoSmall n → ∀ i < 5, (draw i).length = (n.size + 7) / 8 ∧ (2 ^ w) ^ ((n.size - 1) / w) ≤ beVal (draw i))
    {i : Nat} (hi : i < 5) (h0 : rangeVal n (draw i) = 0) : EndsSame sp s (isPrime w sp fuel p draw) 0 := by
  refine (mem_is_prime_partial hw hs hp ap (by omega) hf draw hd).2 ?_
  rintro (⟨-, -, h⟩ | ⟨-, h⟩)
  · omega
  · obtain ⟨b, m, -, h2, h3⟩ := h i hi
    dsimp only at h3
    rw [h0] at h3
    have hm : m ≠ 0 := by omega
    rw [zero_pow hm, Nat.zero_mod] at h3
    rcases h3 with h3 | ⟨j, -, h3⟩
    · omega
    · rw [zero_pow (by positivity), Nat.zero_mod] at h3; omega

theorem bind_hang {α β : Type} {c : M α} {f : α → M β} {s : St} (h : c s = .hang) : (c >>= f) s = .hang := by rw [bind_apply, h]

theorem halve_zero (hw : DigitWidth w) {K : Ctx} (hK : K.Calm) {S m : Nat} (hm : m < S) : ∀ (fuel ret : Nat) (E : Env) (s : St), At K E S s →
    (∀ o, E m o → V w 0 0 o) → halveLoop w m fuel ret s = .hang
  | 0, _, _, _, _, _ => rfl
  | fuel + 1, ret, E, s, h, hv => by
    have hw0 : 0 < w := by have := hw.pos; omega
    have v := hv _ (h.objs m hm)
    unfold halveLoop
    rw [bind_ok (isOdd_run hw.pos (n := 0) v.shows), if_neg (by simp)]
    obtain ⟨s1, e1, h1⟩ := calm_leaf hK h hm (shr_leaf hw0 v v.shows 1 hm (Or.inl (le_refl _)))
    rw [bind_ok e1, if_neg (by omega)]
    exact halve_zero hw hK hm fuel (ret + 1) _ s1 h1 fun o ho => by rw [Function.update_self] at ho; simpa using ho

/-- C96, where it fails: on the number 1 the test never returns, whatever bound is set for its loop. -/
theorem mem_is_prime_one (hw : DigitWidth w) (hs : Plenty s) (hp : p < sp) (ap : (s.obj p).Shows w 1) (draw : Nat → List Byte) :
    isPrime w sp fuel p draw s = .hang := by
  have hw0 : 0 < w := by have := hw.pos; omega
  have hK : (ctxOf sp s).Calm := hs
  obtain ⟨st, s1, e1, h1, c⟩ := trial_calm (n := 1) hw hK (at_now sp s) hp (fun o ho => by rw [ho]; exact ap)
  have hst : st = 0 := by
    rcases c with ⟨-, c, -⟩ | ⟨-, q, c, -, -, d, -⟩ | ⟨c, -⟩
    · exact absurd c (by decide)
    · exact absurd (Nat.dvd_one.1 d) c.one_lt.ne'
    · exact c
  subst hst
  unfold isPrime
  rw [bind_ok e1, if_pos rfl]
  unfold mrRepeat
  refine bind_hang ?_
  unfold passesMR
  obtain ⟨s2, e2, h2⟩ := decl_run h1 5
  obtain ⟨s3, e3, h3⟩ := const_at (N := 4) (by rw [show sp + 1 + 4 = sp + 5 by omega]; exact h2) 1
  have hlist : ∀ v, v ∈ [sp + 1, sp + 2, sp + 3, sp + 4] ↔ sp + 1 ≤ v ∧ v < sp + 1 + 4 := by
    intro v; simp only [List.mem_cons, List.not_mem_nil, or_false]; omega
  obtain ⟨s4, e4, h4⟩ := initList_calm hw0 hK h3 hlist (by simp)
  rw [bind_ok e2, bind_ok e3, chk_ok e4]
  refine bind_hang (bind_hang ?_)
  rw [show sp + 5 = sp + 1 + 4 by omega]
  set D := NV w (sp + 1) (Function.update (Now s) sp (· = ⟨some ⟨false, 1, 1⟩, .mem false [some 1]⟩)) (List.replicate 4 0) with hD
  have dp : ∀ o, D p o → o.Shows w 1 := fun o ho => by
    rw [hD, NV.lo (by omega), Function.update_of_ne (by omega)] at ho; rw [show o = s.obj p from ho]; exact ap
  have dm : ∀ o, D (sp + 2) o → V w 0 0 o := fun o ho => by
    rw [hD, show sp + 2 = sp + 1 + 1 by omega, NV.hi] at ho; exact ho
  unfold calcBM
  obtain ⟨s5, e5, h5⟩ := decl_run h4 1
  obtain ⟨s6, e6, h6⟩ := const_at (N := 0) h5 1
  have h6 := undecl (k := 0) h6
  rw [bind_ok e5, bind_ok e6]
  obtain ⟨s7, e7, h7⟩ := calm_leaf hK h6 (r := sp + 2) (by omega) (copy_leaf (x := p) (dm _ (by have := h6.objs (sp + 2) (by omega); rwa [Function.update_of_ne (by omega)] at this))
    (dp _ (by have := h6.objs p (by omega); rwa [Function.update_of_ne (by omega)] at this)))
  have v7 : V w (1 : Int) 0 (s7.obj (sp + 2)) := by have := h7.objs (sp + 2) (by omega); rwa [Function.update_self] at this
  obtain ⟨s8, e8, h8⟩ := calm_leaf hK h7 (r := sp + 2) (by omega) (sub_leaf hw0 v7 v7.shows (y := sp + 1 + 4) (zy := 1) (by
    have := h7.objs (sp + 1 + 4) (by omega); rw [Function.update_of_ne (by omega), Function.update_self] at this
    rw [this]; exact one_shows hw 1))
  rw [chk_ok e7, chk_ok e8]
  exact halve_zero hw hK (by omega : sp + 2 < sp + 1 + 4 + 1) fuel 0 _ s8 h8 fun o ho => by rw [Function.update_self] at ho; simpa using ho

/-- C96, partial.  Full statement: `cry_mpi_prime` leaves in `p` the first number drawn that the test accepts, within the number of turns
allowed, or reports failure.  Proved: as above, when no allocation fails and no number drawn begins with a zero digit; a candidate of the last turn counts as failure though it
is accepted (missing: it should not).  Every other number of the caller is left as it was, and the memory balance changes only by what `p`
owns. -/
theorem mem_prime_partial {z : Int} {bits : Nat} (hw : DigitWidth w) (hs : Plenty s) (hp : p < sp) (ap : (s.obj p).Is w z) (hz : 0 ≤ z) (hb : 0 < bits)
    (h8 : bits % 8 = 0) {draw : Nat → PrimeDraw} (hd : DrawsOk w bits draw) (hf : bits ≤ fuel) (itermax : Nat) :
    let C := fun k => Spec.primeCandidate bits (beVal (draw k).bytes)
    let ok := fun k => Verdict (C k) fun j => rangeVal (C k) ((draw k).mr j)
    ∃ st it s', prime w sp fuel p bits itermax draw s = .ok ((st, it), s') ∧ (∀ v, v < sp → v ≠ p → s'.obj v = s.obj v) ∧ Balanced sp s s' ∧
      ((st = 0 ∧ ∃ k, k + 1 < itermax ∧ it = k + 1 ∧ ok k ∧ (∀ j < k, ¬ ok j) ∧ (s'.obj p).Is w (C k : Nat)) ∨
       (st = -1 ∧ it = itermax ∧ ∀ j, j + 1 < itermax → ¬ ok j)) := by
  intro C ok
  have hand : ¬ (bits &&& 7 ≠ 0 ∨ bits = 0) := by
    have : bits &&& 7 = bits % 8 := Nat.and_two_pow_sub_one_eq_mod bits 3
    omega
  have av : ∀ o, Now s p o → V w z 0 o := fun o ho => by
    rw [show o = s.obj p from ho]; obtain ⟨m, m1, m2, m3⟩ := ap; exact ⟨m, m1, m2, m3, Nat.zero_le _⟩
  obtain ⟨st, it, s', e, h⟩ := primeLoop_calm (K := ctxOf sp s) hw hs hp hb h8 hd hf itermax 0 (-1) s z (Now s) (at_now sp s) av hz
  have hrun : prime w sp fuel p bits itermax draw s = .ok ((if it = itermax then -1 else st, it), s') := by
    unfold prime
    rw [if_neg hand, bind_ok e]; rfl
  have keep : ∀ {P : Obj → Prop}, At (ctxOf sp s) (Function.update (Now s) p P) sp s' → (∀ v, v < sp → v ≠ p → s'.obj v = s.obj v) ∧ Balanced sp s s' ∧ P (s'.obj p) :=
    fun h => ⟨fun v hv hne => by have := h.objs v hv; rwa [Function.update_of_ne hne] at this, balanced_of h,
      by have := h.objs p hp; rwa [Function.update_self] at this⟩
  simp only [Nat.zero_add] at h
  rcases h with ⟨k, k1, k2, k3, k4, k5, k6⟩ | ⟨k1, k2, k3, k4⟩
  · obtain ⟨f1, f2, f3⟩ := keep k6
    refine ⟨_, it, s', hrun, f1, f2, ?_⟩
    by_cases hlast : it = itermax
    · right
      rw [if_pos hlast]
      exact ⟨rfl, hlast, fun j hj => k5 j (by omega)⟩
    · left
      rw [if_neg hlast]
      obtain ⟨m, m1, m2, m3⟩ := f3
      exact ⟨k2, k, by omega, k3, k4, k5, m, m1, m2, m3.1⟩
  · have hfr : (∀ v, v < sp → v ≠ p → s'.obj v = s.obj v) ∧ Balanced sp s s' := by
      by_cases h0 : itermax = 0
      · obtain ⟨-, rfl⟩ := k1 h0
        exact ⟨fun _ _ _ => rfl, rfl⟩
      · exact ⟨(keep (k4 h0)).1, (keep (k4 h0)).2.1⟩
    refine ⟨_, it, s', hrun, hfr.1, hfr.2, Or.inr ?_⟩
    rw [if_pos k2]
    exact ⟨rfl, k2, fun j hj => k3 j (by omega)⟩

end

/-! ### Concrete cases -/

/-- A number of two digits. -/
def exTwo (a b : Nat) (f : Nat → Bool) : St := ⟨fun v => if v = 0 then ⟨some ⟨false, 2, 2⟩, .mem true [some a, some b]⟩ else Obj.fresh, f, 0, 1⟩

theorem exTwo_at (f : Nat → Bool) {a b n : Nat} (ha : a < 256) (hb : b < 256) (h0 : b ≠ 0) (h : n = a + 256 * b) : ((exTwo a b f).obj 0).Is 8 n := by
  refine ⟨⟨false, [a, b]⟩, ⟨⟨?_, ?_⟩, by simp⟩, ?_, rfl, ⟨[], rfl⟩, Or.inr ⟨_, by simp, rfl⟩⟩
  · intro d hd; simp at hd; rcases hd with rfl | rfl <;> assumption
  · unfold TopNZ; simpa using h0
  · subst h; simp [Mpi.Mpi.toInt, Mpi.val]

theorem exTwo_shows (f : Nat → Bool) {a b n : Nat} (ha : a < 256) (hb : b < 256) (h0 : b ≠ 0) (h : n = a + 256 * b) : ((exTwo a b f).obj 0).Shows 8 n := by
  obtain ⟨m, h1, h2, h3⟩ := exTwo_at f ha hb h0 h
  exact ⟨m, h1, h2, h3.reads⟩

/-- 1013 is prime and not in the table. -/
example : EndsSame 1 (exTwo 0xF5 3 fun _ => false) (isPrime 8 1 10 0 fun i => [BitVec.ofNat 8 (i + 1), 2]) 1 :=
  mem_is_prime_accepts (n := 1013) (Or.inl rfl) (fun _ => rfl) (by decide) (exTwo_shows _ (by decide) (by decide) (by decide) (by decide))
    (by norm_num) (by decide) (by decide +kernel) _ (fun _ => by decide +kernel) (by decide +kernel)

/-- 2047 = 23 · 89 is rejected in the trial divisions; 2 to the 11th is even and passes them. -/
example : ¬ Verdict 2047 (fun _ => 2) ∧ NoSmall 2048 := by
  constructor
  · rintro (⟨h, -, -⟩ | ⟨h, -⟩)
    · revert h; norm_num
    · exact h 23 (by norm_num) (by decide) (by decide) (by decide)
  · intro q hq h2 _ hd
    have : q ∣ 2 ^ 11 := hd
    exact h2 ((Nat.prime_dvd_prime_iff_eq hq Nat.prime_two).1 (hq.dvd_of_dvd_pow this))

/-- The same prime, when the third base drawn is 0 (the bytes are 1013 itself). -/
example : EndsSame 1 (exTwo 0xF5 3 fun _ => false) (isPrime 8 1 10 0 fun i => if i = 2 then [3, 0xF5] else [2, 2]) 0 :=
  mem_is_prime_zero_base (n := 1013) (i := 2) (Or.inl rfl) (fun _ => rfl) (by decide) (exTwo_shows (n := 1013) _ (by decide) (by decide) (by decide) (by decide))
    (by decide) (by decide +kernel) _ (fun _ => by decide +kernel) (by decide) (by decide +kernel)

/-- The number 1. -/
example (fuel : Nat) : isPrime 8 1 fuel 0 (fun _ => []) ⟨fun v => if v = 0 then ⟨some ⟨false, 1, 1⟩, .mem false [some 1]⟩ else Obj.fresh, fun _ => false, 0, 0⟩ = .hang :=
  mem_is_prime_one (Or.inl rfl) (fun _ => rfl) (by decide) (one_shows (Or.inl rfl) 1) _

/-- Candidates of 16 bits: the first one, 49153 = 13 · 19 · 199, is rejected in the first turn. -/
example : ∃ st it s', prime 8 1 16 0 16 2 (fun i => ⟨[0xC0, BitVec.ofNat 8 i], fun _ => [1, 1]⟩) (exTwo 1 1 fun _ => false) = .ok ((st, it), s') ∧ s'.live - (s'.obj 0).owns = 0 ∧
    (st = -1 → it = 2) ∧ ¬ Verdict (Spec.primeCandidate 16 (beVal [0xC0, BitVec.ofNat 8 0])) fun _ => rangeVal (Spec.primeCandidate 16 (beVal [0xC0, BitVec.ofNat 8 0])) [1, 1] := by
  have hv : ¬ Verdict 49153 fun _ => rangeVal 49153 [1, 1] := by
    rintro (⟨-, -, h⟩ | ⟨h, -⟩)
    · omega
    · exact h 13 (by norm_num) (by decide) (by decide) (by decide)
  have he : Spec.primeCandidate 16 (beVal [0xC0, BitVec.ofNat 8 0]) = 49153 := by decide +kernel
  obtain ⟨st, it, s', e, -, b, h⟩ := mem_prime_partial (w := 8) (sp := 1) (p := 0) (fuel := 16) (bits := 16) (s := exTwo 1 1 fun _ => false) (z := 257)
    (draw := fun i => ⟨[0xC0, BitVec.ofNat 8 i], fun _ => [1, 1]⟩) (Or.inl rfl) (fun _ => rfl) (by decide) (exTwo_at (n := 257) _ (by decide) (by decide) (by decide) (by decide))
    (by decide) (by decide) (by decide) (fun i => ⟨rfl, by simp [beVal]; omega, fun j _ => ⟨rfl, by show (2 ^ 8) ^ ((16 - 1) / 8) ≤ beVal [(1 : Byte), 1]; decide +kernel⟩⟩) (le_refl _) 2
  refine ⟨st, it, s', e, ?_, ?_, by rw [he]; exact hv⟩
  · unfold Balanced at b
    rw [Finset.sum_range_one, Finset.sum_range_one] at b
    rw [b]; decide
  · rintro rfl
    rcases h with ⟨h, -⟩ | ⟨-, h, -⟩
    · cases h
    · exact h

/-- C96, where it fails: `passes_miller_rabin` on 1013, when its own locals and the buffer of the generator are allocated and the next
request fails. -/
theorem mem_is_prime_ub : isUb (passesMR 8 1 10 0 [1, 2] (exTwo 0xF5 3 fun k => k == 5)) = true := by decide +kernel

/-- Other requests that fail are reported. -/
example : (∃ s', passesMR 8 1 10 0 [1, 2] (exTwo 0xF5 3 fun k => k == 4) = .ok (-1, s') ∧ decide (s'.live = 1) = true) ∧
    (∃ s', passesMR 8 1 10 0 [1, 2] (exTwo 0xF5 3 fun k => k == 6) = .ok (-1, s') ∧ decide (s'.live = 1) = true) :=
  ⟨endsIn_ok (by decide +kernel), endsIn_ok (by decide +kernel)⟩

end Verif.Mem
