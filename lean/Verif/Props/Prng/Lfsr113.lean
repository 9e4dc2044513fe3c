import Verif.Model.Prng.Lfsr113
import Mathlib.Tactic.IntervalCases
import Mathlib.Tactic.SplitIfs
/-!
# C46: LFSR113
-/
namespace Verif.Lfsr

/-- A sequence of bits with the recurrence `x(n+k) = x(n+q) + x(n)`, a trinomial of degree `k`. -/
def Recur (k q : Nat) (x : Nat → Bool) : Prop := ∀ n, x (n + k) = (x (n + q) ^^ x n)

/-- The `m` highest bits of `z` are the terms `n, n+1, …` of the sequence. -/
def Window (m : Nat) (z : BitVec 32) (x : Nat → Bool) (n : Nat) : Prop := ∀ i < m, z.getLsbD (31 - i) = x (n + i)

theorem step0 (z : BitVec 32) (x : Nat → Bool) (n : Nat) (hx : Recur 31 6 x) (h : Window 31 z x n) :
    Window 32 (((z &&& 4294967294#32) <<< 18) ^^^ (((z <<< 6) ^^^ z) >>> 13)) x (n + 18) := by
  intro i hi
  simp only [BitVec.getLsbD_xor, BitVec.getLsbD_shiftLeft, BitVec.getLsbD_ushiftRight, BitVec.getLsbD_and]
  by_cases h1 : i < 13
  · have := h (i + 18) (by omega)
    rw [show 31 - (i + 18) = 13 - i by omega] at this
    rw [show n + 18 + i = n + (i + 18) by omega, ← this]
    interval_cases i <;> simp
  · have e := hx (n + (i - 13))
    rw [show n + (i - 13) + 31 = n + 18 + i by omega] at e
    have a := h (i - 13) (by omega)
    have b := h (i - 13 + 6) (by omega)
    rw [e, show n + (i - 13) + 6 = n + (i - 13 + 6) by omega, ← a, ← b]
    interval_cases i <;> simp [Bool.xor_comm]

theorem step1 (z : BitVec 32) (x : Nat → Bool) (n : Nat) (hx : Recur 29 2 x) (h : Window 29 z x n) :
    Window 32 (((z &&& 4294967288#32) <<< 2) ^^^ (((z <<< 2) ^^^ z) >>> 27)) x (n + 2) := by
  intro i hi
  simp only [BitVec.getLsbD_xor, BitVec.getLsbD_shiftLeft, BitVec.getLsbD_ushiftRight, BitVec.getLsbD_and]
  by_cases h1 : i < 27
  · have := h (i + 2) (by omega)
    rw [show n + 2 + i = n + (i + 2) by omega, ← this]
    interval_cases i <;> simp
  · have e := hx (n + (i - 27))
    rw [show n + (i - 27) + 29 = n + 2 + i by omega] at e
    have a := h (i - 27) (by omega)
    have b := h (i - 27 + 2) (by omega)
    rw [e, show n + (i - 27) + 2 = n + (i - 27 + 2) by omega, ← a, ← b]
    interval_cases i <;> simp [Bool.xor_comm]

theorem step2 (z : BitVec 32) (x : Nat → Bool) (n : Nat) (hx : Recur 28 13 x) (h : Window 28 z x n) :
    Window 32 (((z &&& 4294967280#32) <<< 7) ^^^ (((z <<< 13) ^^^ z) >>> 21)) x (n + 7) := by
  intro i hi
  simp only [BitVec.getLsbD_xor, BitVec.getLsbD_shiftLeft, BitVec.getLsbD_ushiftRight, BitVec.getLsbD_and]
  by_cases h1 : i < 21
  · have := h (i + 7) (by omega)
    rw [show n + 7 + i = n + (i + 7) by omega, ← this]
    interval_cases i <;> simp
  · have e := hx (n + (i - 21))
    rw [show n + (i - 21) + 28 = n + 7 + i by omega] at e
    have a := h (i - 21) (by omega)
    have b := h (i - 21 + 13) (by omega)
    rw [e, show n + (i - 21) + 13 = n + (i - 21 + 13) by omega, ← a, ← b]
    interval_cases i <;> simp [Bool.xor_comm]

theorem step3 (z : BitVec 32) (x : Nat → Bool) (n : Nat) (hx : Recur 25 3 x) (h : Window 25 z x n) :
    Window 32 (((z &&& 4294967168#32) <<< 13) ^^^ (((z <<< 3) ^^^ z) >>> 12)) x (n + 13) := by
  intro i hi
  simp only [BitVec.getLsbD_xor, BitVec.getLsbD_shiftLeft, BitVec.getLsbD_ushiftRight, BitVec.getLsbD_and]
  by_cases h1 : i < 12
  · have := h (i + 13) (by omega)
    rw [show n + 13 + i = n + (i + 13) by omega, ← this]
    interval_cases i <;> simp
  · have e := hx (n + (i - 12))
    rw [show n + (i - 12) + 25 = n + 13 + i by omega] at e
    have a := h (i - 12) (by omega)
    have b := h (i - 12 + 3) (by omega)
    rw [e, show n + (i - 12) + 3 = n + (i - 12 + 3) by omega, ← a, ← b]
    interval_cases i <;> simp [Bool.xor_comm]

/-- The sequence with the recurrence that starts with the bits `a`. -/
def extend (k q : Nat) (hk : 0 < k ∧ q < k) (a : Nat → Bool) (n : Nat) : Bool :=
  if h : n < k then a n else extend k q hk a (n - k + q) ^^ extend k q hk a (n - k)
termination_by n
decreasing_by all_goals omega

theorem extend_recur (k q : Nat) (hk : 0 < k ∧ q < k) (a : Nat → Bool) : Recur k q (extend k q hk a) := by
  intro n
  rw [extend, dif_neg (by omega), show n + k - k = n by omega]

theorem extend_window (k q : Nat) (hk : 0 < k ∧ q < k) (z : BitVec 32) :
    Window k z (extend k q hk fun i => z.getLsbD (31 - i)) 0 := by
  intro i hi
  rw [Nat.zero_add, extend, dif_pos hi]

/-- A sequence with the recurrence that is zero on a window is zero from there on, and before. -/
theorem Recur.zero {k q : Nat} {x : Nat → Bool} (hx : Recur k q x) (hq : 0 < q ∧ q < k) {n : Nat}
    (h : ∀ i < k, x (n + i) = false) : ∀ m, x m = false := by
  have up : ∀ j, x (n + j) = false := by
    intro j
    induction j using Nat.strongRecOn with
    | ind j ih =>
      by_cases hj : j < k
      · exact h j hj
      · have := hx (n + (j - k))
        rw [show n + (j - k) + k = n + j by omega, show n + (j - k) + q = n + (j - k + q) by omega,
          ih (j - k + q) (by omega), ih (j - k) (by omega)] at this
        exact this
  have down : ∀ j, j ≤ n → x (n - j) = false := by
    intro j
    induction j using Nat.strongRecOn with
    | ind j ih =>
      intro hj
      have z : ∀ i, n - j < i → x i = false := by
        intro i hi
        by_cases hin : n ≤ i
        · have := up (i - n); rwa [show n + (i - n) = i by omega] at this
        · have := ih (n - i) (by omega) (by omega)
          rwa [show n - (n - i) = i by omega] at this
      by_cases hj0 : j = 0
      · subst hj0; exact up 0
      · have := hx (n - j)
        rw [z (n - j + k) (by omega), z (n - j + q) (by omega)] at this
        simpa using this.symm
  intro m
  by_cases hm : n ≤ m
  · have := up (m - n); rwa [show n + (m - n) = m by omega] at this
  · have := down (n - m) (by omega); rwa [show n - (n - m) = m by omega] at this

/-- `t` steps of the generator. -/
def steps (s : St) : Nat → St
  | 0 => s
  | t + 1 => next (steps s t)

/-- The four registers after any number `t` of steps: each is a window, moved by 18, 2, 7 and 13 places a step, of the
sequence with recurrence `x^31+x^6+1`, `x^29+x^2+1`, `x^28+x^13+1`, `x^25+x^3+1` that starts with its initial bits. -/
theorem lfsr_recurrence (s : St) (x0 x1 x2 x3 : Nat → Bool) (r0 : Recur 31 6 x0) (r1 : Recur 29 2 x1)
    (r2 : Recur 28 13 x2) (r3 : Recur 25 3 x3) (h0 : Window 31 s.z0 x0 0) (h1 : Window 29 s.z1 x1 0)
    (h2 : Window 28 s.z2 x2 0) (h3 : Window 25 s.z3 x3 0) (t : Nat) :
    Window 31 (steps s t).z0 x0 (18 * t) ∧ Window 29 (steps s t).z1 x1 (2 * t) ∧
    Window 28 (steps s t).z2 x2 (7 * t) ∧ Window 25 (steps s t).z3 x3 (13 * t) ∧
    ∀ i < 32, (value (steps s (t + 1))).getLsbD (31 - i) =
      (x0 (18 * (t + 1) + i) ^^ x1 (2 * (t + 1) + i) ^^ x2 (7 * (t + 1) + i) ^^ x3 (13 * (t + 1) + i)) := by
  have key : ∀ t, Window 31 (steps s t).z0 x0 (18 * t) ∧ Window 29 (steps s t).z1 x1 (2 * t) ∧
      Window 28 (steps s t).z2 x2 (7 * t) ∧ Window 25 (steps s t).z3 x3 (13 * t) := by
    intro t
    induction t with
    | zero => exact ⟨h0, h1, h2, h3⟩
    | succ t ih =>
      obtain ⟨a, b, c, d⟩ := ih
      exact ⟨fun i hi => step0 _ _ _ r0 a i (by omega), fun i hi => step1 _ _ _ r1 b i (by omega),
        fun i hi => step2 _ _ _ r2 c i (by omega), fun i hi => step3 _ _ _ r3 d i (by omega)⟩
  obtain ⟨a, b, c, d⟩ := key t
  refine ⟨a, b, c, d, fun i hi => ?_⟩
  have e0 := step0 _ _ _ r0 a i hi
  have e1 := step1 _ _ _ r1 b i hi
  have e2 := step2 _ _ _ r2 c i hi
  have e3 := step3 _ _ _ r3 d i hi
  rw [show 18 * (t + 1) + i = 18 * t + 18 + i by omega, show 2 * (t + 1) + i = 2 * t + 2 + i by omega,
    show 7 * (t + 1) + i = 7 * t + 7 + i by omega, show 13 * (t + 1) + i = 13 * t + 13 + i by omega,
    ← e0, ← e1, ← e2, ← e3, value, BitVec.getLsbD_xor, BitVec.getLsbD_xor, BitVec.getLsbD_xor]
  simp [steps, next]

/-- Such sequences exist for every state, so that `lfsr_recurrence` describes every run. -/
theorem lfsr_sequences (s : St) : ∃ x0 x1 x2 x3, Recur 31 6 x0 ∧ Recur 29 2 x1 ∧ Recur 28 13 x2 ∧ Recur 25 3 x3 ∧
    Window 31 s.z0 x0 0 ∧ Window 29 s.z1 x1 0 ∧ Window 28 s.z2 x2 0 ∧ Window 25 s.z3 x3 0 :=
  ⟨_, _, _, _, extend_recur 31 6 (by omega) _, extend_recur 29 2 (by omega) _, extend_recur 28 13 (by omega) _,
    extend_recur 25 3 (by omega) _, extend_window 31 6 _ _, extend_window 29 2 _ _, extend_window 28 13 _ _,
    extend_window 25 3 _ _⟩

theorem small_iff (k : Nat) (hk : k ≤ 32) (z : BitVec 32) : (∀ i < k, z.getLsbD (31 - i) = false) ↔ z.toNat < 2 ^ (32 - k) := by
  constructor
  · intro h
    apply Nat.lt_pow_two_of_testBit
    intro i hi
    by_cases h32 : i < 32
    · have := h (31 - i) (by omega)
      rw [show 31 - (31 - i) = i by omega] at this
      simpa [BitVec.getLsbD] using this
    · exact Nat.testBit_lt_two_pow (lt_of_lt_of_le z.isLt (Nat.pow_le_pow_right (by omega) (by omega)))
  · intro h i hi
    rw [BitVec.getLsbD]
    exact Nat.testBit_lt_two_pow (lt_of_lt_of_le h (Nat.pow_le_pow_right (by omega) (by omega)))

/-- The registers never fall to the range where they are stuck, and never leave it: each is at least 2, 8, 16, 128 after
any number of steps exactly when it is at the start. -/
theorem lfsr_nonzero (s : St) (t : Nat) :
    (2 ≤ (steps s t).z0.toNat ↔ 2 ≤ s.z0.toNat) ∧ (8 ≤ (steps s t).z1.toNat ↔ 8 ≤ s.z1.toNat) ∧
    (16 ≤ (steps s t).z2.toNat ↔ 16 ≤ s.z2.toNat) ∧ (128 ≤ (steps s t).z3.toNat ↔ 128 ≤ s.z3.toNat) := by
  obtain ⟨x0, x1, x2, x3, r0, r1, r2, r3, h0, h1, h2, h3⟩ := lfsr_sequences s
  obtain ⟨a, b, c, d, -⟩ := lfsr_recurrence s x0 x1 x2 x3 r0 r1 r2 r3 h0 h1 h2 h3 t
  have gen : ∀ (k q : Nat) (x : Nat → Bool) (z z' : BitVec 32) (n : Nat), Recur k q x → 0 < q ∧ q < k → k ≤ 32 →
      Window k z x 0 → Window k z' x n → (2 ^ (32 - k) ≤ z'.toNat ↔ 2 ^ (32 - k) ≤ z.toNat) := by
    intro k q x z z' n r hq hk w w'
    rw [← not_lt, ← not_lt, ← small_iff k hk, ← small_iff k hk, not_iff_not]
    constructor
    · intro h i hi
      rw [w i hi]; exact r.zero hq (n := n) (fun j hj => by rw [← w' j hj]; exact h j hj) _
    · intro h i hi
      rw [w' i hi]; exact r.zero hq (n := 0) (fun j hj => by rw [← w j hj]; exact h j hj) _
  exact ⟨gen 31 6 x0 _ _ _ r0 (by omega) (by omega) h0 a, gen 29 2 x1 _ _ _ r1 (by omega) (by omega) h1 b,
    gen 28 13 x2 _ _ _ r2 (by omega) (by omega) h2 c, gen 25 3 x3 _ _ _ r3 (by omega) (by omega) h3 d⟩

/-- The output of a sequence of requests. -/
def run (st : Option St) : List Nat → Option (List (List Byte))
  | [] => some []
  | n :: ns => do
    let r ← rand st n
    let l ← run (some r.2) ns
    some (r.1 :: l)

theorem init_16 (s : St) (seed : List Byte) (h : seed.length = 16) : init s seed = some
    ⟨if word seed 0 < 1#32 then defaultSeed else word seed 0, if word seed 1 < 7#32 then defaultSeed else word seed 1,
     if word seed 2 < 15#32 then defaultSeed else word seed 2,
     if word seed 3 < 127#32 then defaultSeed else word seed 3⟩ := by
  have hb : (bytes s).drop 16 = [] := rfl
  have hz : ∀ l : List Byte, List.zipWith (· ^^^ ·) (List.replicate l.length (0 : Byte)) l = l := by
    intro l
    induction l with
    | nil => rfl
    | cons a l ih =>
      rw [List.length_cons, List.replicate_succ, List.zipWith_cons_cons, ih]; simp
  have hp : List.replicate seed.length (0 : Byte) ++ (bytes s).drop seed.length = List.replicate seed.length 0 := by
    rw [h, hb, List.append_nil]
  unfold init
  rw [if_neg (by omega)]
  dsimp only
  rw [hp, List.take_of_length_le (by simp), List.drop_eq_nil_of_le (by simp), List.append_nil, hz]

/-- Full statement, first half: after initialisation with a given seed the output depends only on the seed.  Proved for
seeds of 16 bytes, from any two states before.  Missing, because false: shorter seeds (`lfsr_short_seed`); longer ones
are undefined (`lfsr_long_seed`). -/
theorem lfsr_deterministic_partial (st st' : Option St) (seed : List Byte) (h : seed.length = 16) (ns : List Nat) :
    initSt st seed = initSt st' seed ∧ ∃ s out, initSt st seed = some s ∧ run (some s) ns = some out ∧
      out.map List.length = ns := by
  have hr : ∀ (ns : List Nat) (s : St), ∃ out, run (some s) ns = some out ∧ out.map List.length = ns := by
    intro ns
    induction ns with
    | nil => exact fun s => ⟨[], rfl, rfl⟩
    | cons n ns ih =>
      intro s
      have hw : ∀ (m : Nat) (s : St), (words s m).1.length = 4 * m := by
        intro m
        induction m with
        | zero => exact fun s => rfl
        | succ m ih => intro s; rw [words]; simp [ih, write32be]; omega
      have h3 : n &&& 3 = n % 4 := Nat.and_two_pow_sub_one_eq_mod n 2
      have : ∃ r : List Byte × St, rand (some s) n = some r ∧ r.1.length = n := by
        unfold rand
        simp only [Option.bind_eq_bind, Option.bind_some]
        split_ifs with hi
        · refine ⟨_, rfl, ?_⟩
          simp only [List.length_append, hw, List.length_take, write32be, List.length_cons, List.length_nil, h3]
          omega
        · refine ⟨_, rfl, ?_⟩
          rw [hw]; omega
      obtain ⟨r, h1, h2⟩ := this
      obtain ⟨out, h4, h5⟩ := ih r.2
      exact ⟨r.1 :: out, by rw [run, h1]; simp [h4], by simp [h2, h5]⟩
  refine ⟨by rw [initSt, initSt, init_16 _ _ h, init_16 _ _ h], ?_⟩
  obtain ⟨out, h1, h2⟩ := hr ns ⟨if word seed 0 < 1#32 then defaultSeed else word seed 0,
    if word seed 1 < 7#32 then defaultSeed else word seed 1, if word seed 2 < 15#32 then defaultSeed else word seed 2,
    if word seed 3 < 127#32 then defaultSeed else word seed 3⟩
  exact ⟨_, out, by rw [initSt, init_16 _ _ h], h1, h2⟩

/-- With a shorter seed the rest of the old state stays: here the same seed is given in a fresh program and after an
earlier initialisation, and the outputs differ. -/
theorem lfsr_short_seed : ∃ (seed old : List Byte) (s0 s s' : St), old.length = 16 ∧ initSt none old = some s0 ∧
    initSt none seed = some s ∧ initSt (some s0) seed = some s' ∧ run (some s) [4] ≠ run (some s') [4] :=
  ⟨[5], List.replicate 16 77, _, _, _, rfl, rfl, rfl, rfl, by decide +kernel⟩

/-- A longer seed makes `memset` write past `z`. -/
theorem lfsr_long_seed (st : Option St) (seed : List Byte) (h : 16 < seed.length) : initSt st seed = none := by
  rw [initSt, init, if_pos (by omega)]

/-- Full statement, second half: after initialisation none of the four registers is ever stuck at zero.  Proved for all
seeds of 16 bytes and any number of steps, except when one of the four words of the seed is exactly 1, 7, 15, 127;
there it is false (`lfsr_degenerate`). -/
theorem lfsr_not_stuck_partial (st : Option St) (seed : List Byte) (h : seed.length = 16) (h0 : word seed 0 ≠ 1#32)
    (h1 : word seed 1 ≠ 7#32) (h2 : word seed 2 ≠ 15#32) (h3 : word seed 3 ≠ 127#32) :
    ∃ s, initSt st seed = some s ∧ ∀ t, (steps s t).z0 ≠ 0 ∧ (steps s t).z1 ≠ 0 ∧ (steps s t).z2 ≠ 0 ∧
      (steps s t).z3 ≠ 0 := by
  refine ⟨_, init_16 _ _ h, fun t => ?_⟩
  have g : ∀ (a b : BitVec 32), a ≠ b → b.toNat < 200 → b.toNat + 1 ≤ (if a < b then defaultSeed else a).toNat := by
    intro a b hab hb
    split_ifs with hlt
    · have : defaultSeed.toNat = 987654321 := rfl
      omega
    · rw [BitVec.lt_def] at hlt
      have : a.toNat ≠ b.toNat := fun e => hab (BitVec.eq_of_toNat_eq e)
      omega
  obtain ⟨a, b, c, d⟩ := lfsr_nonzero ⟨if word seed 0 < 1#32 then defaultSeed else word seed 0,
    if word seed 1 < 7#32 then defaultSeed else word seed 1, if word seed 2 < 15#32 then defaultSeed else word seed 2,
    if word seed 3 < 127#32 then defaultSeed else word seed 3⟩ t
  have a' := a.mpr (g _ _ h0 (by decide))
  have b' := b.mpr (g _ _ h1 (by decide))
  have c' := c.mpr (g _ _ h2 (by decide))
  have d' := d.mpr (g _ _ h3 (by decide))
  have z : ∀ (n : Nat) (r : BitVec 32), n + 1 ≤ r.toNat → r ≠ 0 := by
    rintro n r hr rfl; simp at hr
  exact ⟨z _ _ a', z _ _ b', z _ _ c', z _ _ d'⟩

/-- A seed meeting the hypotheses, two of whose words are replaced by the default. -/
example : word [2, 0, 0, 0, 6, 0, 0, 0, 16, 0, 0, 0, 0, 0, 0, 0] 0 = 2#32 ∧
    initSt none [2, 0, 0, 0, 6, 0, 0, 0, 16, 0, 0, 0, 0, 0, 0, 0] = some ⟨2#32, 987654321#32, 16#32, 987654321#32⟩ := by
  decide +kernel

/-- The words 1, 7, 15, 127 are let through: with this seed every output byte is zero, for ever. -/
theorem lfsr_degenerate (st : Option St) (n : Nat) : ∃ s,
    initSt st [1, 0, 0, 0, 7, 0, 0, 0, 15, 0, 0, 0, 127, 0, 0, 0] = some s ∧
      ∃ s', rand (some s) n = some (List.replicate n 0, s') := by
  refine ⟨⟨1, 7, 15, 127⟩, ?_, ?_⟩
  · rw [initSt, init_16 _ _ rfl]; decide +kernel
  · have hz : next zero = zero := by decide +kernel
    have h1 : next ⟨1, 7, 15, 127⟩ = zero := by decide +kernel
    have hv : write32be (value zero) = List.replicate 4 0 := by decide +kernel
    have hw0 : ∀ m, words zero m = (List.replicate (4 * m) 0, zero) := by
      intro m
      induction m with
      | zero => rfl
      | succ m ih => rw [words, hz]; rw [ih, hv]; simp only [List.replicate_append_replicate]; congr 2; omega
    have hw : ∀ m, ∃ s, words ⟨1, 7, 15, 127⟩ m = (List.replicate (4 * m) 0, s) ∧ next s = zero := by
      intro m
      cases m with
      | zero => exact ⟨_, rfl, h1⟩
      | succ m =>
        refine ⟨zero, ?_, hz⟩
        rw [words, h1]; rw [hw0, hv]; simp only [List.replicate_append_replicate]; congr 2; omega
    obtain ⟨s, e, hs⟩ := hw (n / 4)
    have h3 : n &&& 3 = n % 4 := Nat.and_two_pow_sub_one_eq_mod n 2
    unfold rand
    simp only [Option.bind_eq_bind, Option.bind_some]
    rw [e, h3]
    split_ifs with hi
    · refine ⟨zero, ?_⟩
      rw [hs, hv, List.take_replicate, List.replicate_append_replicate]
      congr 3; omega
    · exact ⟨s, by congr 3; omega⟩

end Verif.Lfsr
