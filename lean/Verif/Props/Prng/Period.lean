import Verif.Props.Prng.Lfsr113
import Verif.Lemmas.Prng.Primitive
/-!
# C113: the output of LFSR113 has the full period
-/
namespace Verif.Lfsr
open Polynomial Verif.CrcS Verif.Crc Verif.Period

/-- Windows of a sequence that is not zero agree exactly when they are a multiple of the period apart. -/
theorem window_period {k q N : Nat} {x : Nat → Bool} (hr : Recur k q x) (hq : 0 < q ∧ q < k) {n : Nat} (hne : x n = true) (hN : 0 < N)
    (h1 : (X ^ k + X ^ q + 1 : Pol) ∣ X ^ N - 1)
    (h2 : ∀ p, p.Prime → p ∣ N → ∃ i, (X ^ k + X ^ q + 1 : Pol) ∣ (X ^ (N / p) - 1) * i - 1) (a d : Nat) :
    ((∀ i < k, x (a + d + i) = x (a + i)) ↔ N ∣ d) ∧ ∀ n, x (n + N) = x n := by
  have binj : ∀ a b : Bool, bit a = bit b ↔ a = b := by decide
  have hx : aeval tl (X ^ k + X ^ q + 1 : Pol) (fun n => bit (x n)) = 0 := by
    rw [map_add, map_add, LinearMap.add_apply, LinearMap.add_apply, aeval_pow, aeval_pow, map_one, Module.End.one_apply]
    funext n
    show bit (x (n + k)) + bit (x (n + q)) + bit (x n) = 0
    rw [hr n]
    cases x (n + q) <;> cases x n <;> decide
  have hp := fun d => period_iff hx (fun h => by
    have := congrFun h n
    simp only [hne] at this
    exact (show bit true ≠ 0 by decide) this) hN h1 h2 d
  simp only [binj] at hp
  refine ⟨?_, (hp N).2 (dvd_refl _)⟩
  rw [← hp]
  constructor
  · intro h
    have hd : Recur k q fun n => (x (n + d) ^^ x n) := by
      intro n
      show (x (n + k + d) ^^ x (n + k)) = ((x (n + q + d) ^^ x (n + q)) ^^ (x (n + d) ^^ x n))
      rw [show n + k + d = n + d + k by omega, hr, hr, show n + d + q = n + q + d by omega]
      cases x (n + q + d) <;> cases x (n + d) <;> cases x (n + q) <;> cases x n <;> rfl
    intro m
    have := hd.zero hq (n := a) (fun i hi => by
      show (x (a + i + d) ^^ x (a + i)) = false
      rw [show a + i + d = a + d + i by omega, h i hi, Bool.xor_self]) m
    simpa using this
  · intro h i _
    rw [show a + d + i = a + i + d by omega, h]

theorem periodic_mul {u : Nat → Bool} {A : Nat} (h : ∀ t, u (t + A) = u t) (m t : Nat) : u (t + m * A) = u t := by
  induction m with
  | zero => rw [Nat.zero_mul, Nat.add_zero]
  | succ m ih => rw [Nat.succ_mul, ← Nat.add_assoc, h, ih]

/-- If the sum of two sequences of coprime periods, the first odd, has period `d`, so has the first. -/
theorem sum_period {u w : Nat → Bool} {A B d : Nat} (hu : ∀ t, u (t + A) = u t) (hw : ∀ t, w (t + B) = w t) (hB : 1 < B) (hc : A.Coprime B) (ho : A % 2 = 1)
    (h : ∀ t, (u (t + d) ^^ w (t + d)) = (u t ^^ w t)) (t : Nat) : u (t + d) = u t := by
  have e : ∀ t, (u (t + d) ^^ u t) = (w (t + d) ^^ w t) := fun t => by
    have := h t
    revert this
    cases u (t + d) <;> cases w (t + d) <;> cases u t <;> cases w t <;> decide
  have pA : ∀ t, (u (t + A + d) ^^ u (t + A)) = (u (t + d) ^^ u t) := fun t => by
    rw [show t + A + d = t + d + A by omega, hu, hu]
  have pB : ∀ t, (u (t + B + d) ^^ u (t + B)) = (u (t + d) ^^ u t) := fun t => by
    rw [e, e, show t + B + d = t + d + B by omega, hw, hw]
  obtain ⟨m, hm⟩ := Nat.exists_mul_mod_eq_one_of_coprime hc hB
  have hs : ∀ t, (u (t + 1 + d) ^^ u (t + 1)) = (u (t + d) ^^ u t) := fun t => by
    have h1 := periodic_mul (u := fun t => (u (t + d) ^^ u t)) pA m t
    have h2 := periodic_mul (u := fun t => (u (t + d) ^^ u t)) pB (A * m / B) (t + 1)
    have h3 := Nat.mod_add_div (A * m) B
    rw [hm.2] at h3
    rw [show t + 1 + A * m / B * B = t + m * A by
      have h4 := Nat.mul_comm m A
      have h5 := Nat.mul_comm (A * m / B) B
      omega] at h2
    exact h2.symm.trans h1
  have hk : ∀ t, (u (t + d) ^^ u t) = (u (0 + d) ^^ u 0) := fun t => by
    induction t with
    | zero => rfl
    | succ t ih => rw [hs, ih]
  rcases hcase : (u (0 + d) ^^ u 0) with _ | _
  · have := hk t
    rw [hcase] at this
    simpa using this
  · exfalso
    have hm : ∀ m, u (m * d) = (decide (m % 2 = 1) ^^ u 0) := fun m => by
      induction m with
      | zero => simp
      | succ m ih =>
        have := hk (m * d)
        rw [hcase, ih] at this
        rw [Nat.succ_mul]
        rcases Nat.mod_two_eq_zero_or_one m with h | h
        · rw [show (m + 1) % 2 = 1 by omega]
          rw [h] at this
          revert this; cases u (m * d + d) <;> cases u 0 <;> decide
        · rw [show (m + 1) % 2 = 0 by omega]
          rw [h] at this
          revert this; cases u (m * d + d) <;> cases u 0 <;> decide
    have h1 := hm A
    have h2 := periodic_mul hu d 0
    rw [Nat.zero_add, Nat.mul_comm] at h2
    rw [h2, ho] at h1
    revert h1; cases u 0 <;> decide

/-- The period: the product of the four. -/
def fullPeriod : Nat := (2 ^ 31 - 1) * (2 ^ 29 - 1) * (2 ^ 28 - 1) * (2 ^ 25 - 1)

theorem full_dvd (d : Nat) : fullPeriod ∣ d ↔ 2 ^ 31 - 1 ∣ d ∧ 2 ^ 29 - 1 ∣ d ∧ 2 ^ 28 - 1 ∣ d ∧ 2 ^ 25 - 1 ∣ d := by
  constructor
  · intro h
    exact ⟨Dvd.dvd.trans (by decide +kernel) h, Dvd.dvd.trans (by decide +kernel) h, Dvd.dvd.trans (by decide +kernel) h, Dvd.dvd.trans (by decide +kernel) h⟩
  · rintro ⟨a, b, c, e⟩
    exact Nat.Coprime.mul_dvd_of_dvd_of_dvd (by decide +kernel) (Nat.Coprime.mul_dvd_of_dvd_of_dvd (by decide +kernel)
      (Nat.Coprime.mul_dvd_of_dvd_of_dvd (by decide +kernel) a b) c) e

/-- No register is stuck. -/
def Live (s : St) : Prop := 2 ≤ s.z0.toNat ∧ 8 ≤ s.z1.toNat ∧ 16 ≤ s.z2.toNat ∧ 128 ≤ s.z3.toNat

theorem live_bit {k : Nat} (hk : k ≤ 32) {z : BitVec 32} (h : 2 ^ (32 - k) ≤ z.toNat) {x : Nat → Bool} (hw : Window k z x 0) : ∃ n, x n = true := by
  by_contra hc
  push Not at hc
  refine absurd ((small_iff k hk z).1 fun i hi => ?_) (by omega)
  rw [hw i hi]
  simpa using hc (0 + i)

/-- The state after one step or more comes back after `d` steps exactly when `d` is a multiple of the full period, and so does the sequence of the words given. -/
theorem lfsr_period (s : St) (hs : Live s) (d : Nat) :
    (∀ t, steps s (t + 1 + d) = steps s (t + 1) ↔ fullPeriod ∣ d) ∧
    ((∀ t, value (steps s (t + 1 + d)) = value (steps s (t + 1))) ↔ fullPeriod ∣ d) := by
  obtain ⟨x0, x1, x2, x3, r0, r1, r2, r3, h0, h1, h2, h3⟩ := lfsr_sequences s
  have hw := lfsr_recurrence s x0 x1 x2 x3 r0 r1 r2 r3 h0 h1 h2 h3
  obtain ⟨n0, e0⟩ := live_bit (by omega) hs.1 h0
  obtain ⟨n1, e1⟩ := live_bit (by omega) hs.2.1 h1
  obtain ⟨n2, e2⟩ := live_bit (by omega) hs.2.2.1 h2
  obtain ⟨n3, e3⟩ := live_bit (by omega) hs.2.2.2 h3
  have p0 := window_period r0 (by omega) e0 (by decide) order31 units31
  have p1 := window_period r1 (by omega) e1 (by decide) order29 units29
  have p2 := window_period r2 (by omega) e2 (by decide) order28 units28
  have p3 := window_period r3 (by omega) e3 (by decide) order25 units25
  have w0 : ∀ t, Window 32 (steps s (t + 1)).z0 x0 (18 * (t + 1)) := fun t => step0 _ _ _ r0 (hw t).1
  have w1 : ∀ t, Window 32 (steps s (t + 1)).z1 x1 (2 * (t + 1)) := fun t => step1 _ _ _ r1 (hw t).2.1
  have w2 : ∀ t, Window 32 (steps s (t + 1)).z2 x2 (7 * (t + 1)) := fun t => step2 _ _ _ r2 (hw t).2.2.1
  have w3 : ∀ t, Window 32 (steps s (t + 1)).z3 x3 (13 * (t + 1)) := fun t => step3 _ _ _ r3 (hw t).2.2.2.1
  have reg : ∀ {k N m : Nat} {x : Nat → Bool} {z : Nat → BitVec 32}, k ≤ 32 → N.Coprime m →
      (∀ a d, ((∀ i < k, x (a + d + i) = x (a + i)) ↔ N ∣ d) ∧ ∀ n, x (n + N) = x n) →
      (∀ t, Window 32 (z (t + 1)) x (m * (t + 1))) → ∀ t, z (t + 1 + d) = z (t + 1) ↔ N ∣ d := by
    intro k N m x z hk hc hp hz t
    constructor
    · intro h
      rw [← hc.dvd_mul_left, ← (hp (m * (t + 1)) (m * d)).1]
      intro i hi
      have a := hz t i (by omega)
      have b := hz (t + d) i (by omega)
      rw [show t + d + 1 = t + 1 + d by omega, h, a] at b
      rw [← Nat.mul_add, b]
    · rintro ⟨c, rfl⟩
      apply BitVec.eq_of_getLsbD_eq
      intro i hi
      have a := hz t (31 - i) (by omega)
      have b := hz (t + N * c) (31 - i) (by omega)
      rw [show t + N * c + 1 = t + 1 + N * c by omega] at b
      rw [show 31 - (31 - i) = i by omega] at a b
      rw [a, b, show m * (t + 1 + N * c) + (31 - i) = m * (t + 1) + (31 - i) + (m * c) * N by ring]
      exact periodic_mul (hp 0 0).2 _ _
  have q0 := reg (z := fun t => (steps s t).z0) (by omega) (by decide +kernel) p0 w0
  have q1 := reg (z := fun t => (steps s t).z1) (by omega) (by decide +kernel) p1 w1
  have q2 := reg (z := fun t => (steps s t).z2) (by omega) (by decide +kernel) p2 w2
  have q3 := reg (z := fun t => (steps s t).z3) (by omega) (by decide +kernel) p3 w3
  have hst : ∀ t, steps s (t + 1 + d) = steps s (t + 1) ↔ fullPeriod ∣ d := fun t => by
    rw [full_dvd, ← q0 t, ← q1 t, ← q2 t, ← q3 t]
    constructor
    · intro h; simp only [h, and_self]
    · rintro ⟨a, b, c, e⟩
      rcases hA : steps s (t + 1 + d) with ⟨a0, a1, a2, a3⟩
      rcases hB : steps s (t + 1) with ⟨b0, b1, b2, b3⟩
      simp only [hA, hB] at a b c e
      rw [a, b, c, e]
  refine ⟨hst, ⟨fun h => ?_, fun h t => by rw [(hst t).2 h]⟩⟩
  have dec : ∀ {N m : Nat} {x : Nat → Bool}, (∀ n, x (n + N) = x n) → ∀ i t, x (m * (t + N + 1) + i) = x (m * (t + 1) + i) := by
    intro N m x hx i t
    rw [show m * (t + N + 1) + i = m * (t + 1) + i + m * N by ring]
    exact periodic_mul hx _ _
  have mulP : ∀ {u : Nat → Bool} {A : Nat}, (∀ t, u (t + A) = u t) → ∀ c B, B = A * c → ∀ t, u (t + B) = u t := by
    rintro u A hu c B rfl t
    rw [Nat.mul_comm]
    exact periodic_mul hu _ _
  have hbit : ∀ i < 32, ∀ t, (x0 (18 * (t + d + 1) + i) ^^ x1 (2 * (t + d + 1) + i) ^^ x2 (7 * (t + d + 1) + i) ^^ x3 (13 * (t + d + 1) + i)) =
      (x0 (18 * (t + 1) + i) ^^ x1 (2 * (t + 1) + i) ^^ x2 (7 * (t + 1) + i) ^^ x3 (13 * (t + 1) + i)) := fun i hi t => by
    rw [← (hw (t + d)).2.2.2.2 i hi, ← (hw t).2.2.2.2 i hi, show t + d + 1 = t + 1 + d by omega, h]
  have d0 := fun i => dec (m := 18) (p0 0 0).2 i
  have d1 := fun i => dec (m := 2) (p1 0 0).2 i
  have d2 := fun i => dec (m := 7) (p2 0 0).2 i
  have d3 := fun i => dec (m := 13) (p3 0 0).2 i
  have fin : ∀ {k N m : Nat} {x : Nat → Bool}, k ≤ 32 → N.Coprime m →
      (∀ a d, ((∀ i < k, x (a + d + i) = x (a + i)) ↔ N ∣ d) ∧ ∀ n, x (n + N) = x n) →
      (∀ i < 32, ∀ t, x (m * (t + d + 1) + i) = x (m * (t + 1) + i)) → N ∣ d := by
    intro k N m x hk hc hp hx
    rw [← hc.dvd_mul_left, ← (hp m (m * d)).1]
    intro i hi
    have := hx i (by omega) 0
    rwa [show m * (0 + d + 1) = m + m * d by ring, show m * (0 + 1) = m by ring] at this
  have xr : ∀ {a b c e a' b' c' e' : Bool}, (a ^^ b ^^ c ^^ e) = (a' ^^ b' ^^ c' ^^ e') →
      (a ^^ (b ^^ c ^^ e)) = (a' ^^ (b' ^^ c' ^^ e')) ∧ (b ^^ (a ^^ c ^^ e)) = (b' ^^ (a' ^^ c' ^^ e')) ∧
      (c ^^ (a ^^ b ^^ e)) = (c' ^^ (a' ^^ b' ^^ e')) ∧ (e ^^ (a ^^ b ^^ c)) = (e' ^^ (a' ^^ b' ^^ c')) := by decide +kernel
  rw [full_dvd]
  refine ⟨fin (m := 18) (by omega) (by decide +kernel) p0 fun i hi t => ?_, fin (m := 2) (by omega) (by decide +kernel) p1 fun i hi t => ?_,
    fin (m := 7) (by omega) (by decide +kernel) p2 fun i hi t => ?_, fin (m := 13) (by omega) (by decide +kernel) p3 fun i hi t => ?_⟩
  · exact sum_period (u := fun t => x0 (18 * (t + 1) + i)) (w := fun t => (x1 (2 * (t + 1) + i) ^^ x2 (7 * (t + 1) + i) ^^ x3 (13 * (t + 1) + i)))
      (A := 2 ^ 31 - 1) (B := (2 ^ 29 - 1) * (2 ^ 28 - 1) * (2 ^ 25 - 1)) (d0 i) (fun t => by
        beta_reduce
        rw [mulP (u := fun t => x1 (2 * (t + 1) + i)) (d1 i) ((2 ^ 28 - 1) * (2 ^ 25 - 1)) _ (by decide +kernel), mulP (u := fun t => x2 (7 * (t + 1) + i)) (d2 i) ((2 ^ 29 - 1) * (2 ^ 25 - 1)) _ (by decide +kernel),
          mulP (u := fun t => x3 (13 * (t + 1) + i)) (d3 i) ((2 ^ 29 - 1) * (2 ^ 28 - 1)) _ (by decide +kernel)])
      (by decide +kernel) (by decide +kernel) (by decide +kernel) (fun t => (xr (hbit i hi t)).1) t
  · exact sum_period (u := fun t => x1 (2 * (t + 1) + i)) (w := fun t => (x0 (18 * (t + 1) + i) ^^ x2 (7 * (t + 1) + i) ^^ x3 (13 * (t + 1) + i)))
      (A := 2 ^ 29 - 1) (B := (2 ^ 31 - 1) * (2 ^ 28 - 1) * (2 ^ 25 - 1)) (d1 i) (fun t => by
        beta_reduce
        rw [mulP (u := fun t => x0 (18 * (t + 1) + i)) (d0 i) ((2 ^ 28 - 1) * (2 ^ 25 - 1)) _ (by decide +kernel), mulP (u := fun t => x2 (7 * (t + 1) + i)) (d2 i) ((2 ^ 31 - 1) * (2 ^ 25 - 1)) _ (by decide +kernel),
          mulP (u := fun t => x3 (13 * (t + 1) + i)) (d3 i) ((2 ^ 31 - 1) * (2 ^ 28 - 1)) _ (by decide +kernel)])
      (by decide +kernel) (by decide +kernel) (by decide +kernel) (fun t => (xr (hbit i hi t)).2.1) t
  · exact sum_period (u := fun t => x2 (7 * (t + 1) + i)) (w := fun t => (x0 (18 * (t + 1) + i) ^^ x1 (2 * (t + 1) + i) ^^ x3 (13 * (t + 1) + i)))
      (A := 2 ^ 28 - 1) (B := (2 ^ 31 - 1) * (2 ^ 29 - 1) * (2 ^ 25 - 1)) (d2 i) (fun t => by
        beta_reduce
        rw [mulP (u := fun t => x0 (18 * (t + 1) + i)) (d0 i) ((2 ^ 29 - 1) * (2 ^ 25 - 1)) _ (by decide +kernel), mulP (u := fun t => x1 (2 * (t + 1) + i)) (d1 i) ((2 ^ 31 - 1) * (2 ^ 25 - 1)) _ (by decide +kernel),
          mulP (u := fun t => x3 (13 * (t + 1) + i)) (d3 i) ((2 ^ 31 - 1) * (2 ^ 29 - 1)) _ (by decide +kernel)])
      (by decide +kernel) (by decide +kernel) (by decide +kernel) (fun t => (xr (hbit i hi t)).2.2.1) t
  · exact sum_period (u := fun t => x3 (13 * (t + 1) + i)) (w := fun t => (x0 (18 * (t + 1) + i) ^^ x1 (2 * (t + 1) + i) ^^ x2 (7 * (t + 1) + i)))
      (A := 2 ^ 25 - 1) (B := (2 ^ 31 - 1) * (2 ^ 29 - 1) * (2 ^ 28 - 1)) (d3 i) (fun t => by
        beta_reduce
        rw [mulP (u := fun t => x0 (18 * (t + 1) + i)) (d0 i) ((2 ^ 29 - 1) * (2 ^ 28 - 1)) _ (by decide +kernel), mulP (u := fun t => x1 (2 * (t + 1) + i)) (d1 i) ((2 ^ 31 - 1) * (2 ^ 28 - 1)) _ (by decide +kernel),
          mulP (u := fun t => x2 (7 * (t + 1) + i)) (d2 i) ((2 ^ 31 - 1) * (2 ^ 29 - 1)) _ (by decide +kernel)])
      (by decide +kernel) (by decide +kernel) (by decide +kernel) (fun t => (xr (hbit i hi t)).2.2.2) t

/-- The bytes of a request for whole words. -/
theorem words_eq (s : St) : ∀ n, (words s n).1 = (List.range n).flatMap (fun t => write32be (value (steps s (t + 1))))
  | 0 => rfl
  | n + 1 => by
    have hs : ∀ t, steps (next s) t = steps s (t + 1) := fun t => by
      induction t with
      | zero => rfl
      | succ t ih => rw [steps, ih]; rfl
    rw [words, List.range_succ_eq_map, List.flatMap_cons, List.flatMap_map]
    simp only [words_eq (next s) n, hs]
    rfl

/-- The word number `t` of the stream of bytes given from the state `s`, read from a request for `t + 1` words. -/
def streamWord (s : St) (t : Nat) : Option (List Byte) := (rand (some s) (4 * (t + 1))).map fun r => r.1.drop (4 * t)

theorem streamWord_eq (s : St) (t : Nat) : streamWord s t = some (write32be (value (steps s (t + 1)))) := by
  have h3 : (4 * (t + 1)) &&& 3 = 0 := by
    rw [show (3 : Nat) = 2 ^ 2 - 1 from rfl, Nat.and_two_pow_sub_one_eq_mod]; omega
  have hl : ∀ n, ((List.range n).flatMap fun t => write32be (value (steps s (t + 1)))).length = 4 * n := fun n => by
    induction n with
    | zero => rfl
    | succ n ih => rw [List.range_succ, List.flatMap_append, List.length_append, ih]; simp [write32be]; omega
  unfold streamWord rand
  simp only [Option.bind_eq_bind, Option.bind_some, h3, ne_eq, not_true_eq_false, if_false, Option.map_some]
  rw [show 4 * (t + 1) / 4 = t + 1 by omega, words_eq, List.range_succ, List.flatMap_append, List.drop_append_of_le_length (by rw [hl]),
    List.drop_of_length_le (by rw [hl])]
  simp

theorem write32be_inj (a b : BitVec 32) (h : write32be a = write32be b) : a = b := by
  simp only [write32be, List.cons.injEq, and_true] at h
  obtain ⟨h0, h1, h2, h3⟩ := h
  apply BitVec.eq_of_getLsbD_eq
  intro i hi
  have g : ∀ (n : Nat) (u v : BitVec 32), (u >>> n &&& 0xff#32).setWidth 8 = (v >>> n &&& 0xff#32).setWidth 8 →
      ∀ i < 8, u.getLsbD (n + i) = v.getLsbD (n + i) := by
    intro n u v e i hi
    have := congrArg (fun z : BitVec 8 => z.getLsbD i) e
    simp only [BitVec.getLsbD_setWidth, BitVec.getLsbD_and, BitVec.getLsbD_ushiftRight, hi, decide_true, Bool.true_and] at this
    have hm : (0xff#32).getLsbD i = true := by interval_cases i <;> rfl
    simpa only [hm, Bool.and_true] using this
  by_cases c0 : i < 8
  · have := g 0 a b (by simpa using h3) i c0; rwa [Nat.zero_add] at this
  · by_cases c1 : i < 16
    · have := g 8 a b h2 (i - 8) (by omega); rwa [show 8 + (i - 8) = i by omega] at this
    · by_cases c2 : i < 24
      · have := g 16 a b h1 (i - 16) (by omega); rwa [show 16 + (i - 16) = i by omega] at this
      · have := g 24 a b h0 (i - 24) (by omega); rwa [show 24 + (i - 24) = i by omega] at this

theorem words_state : ∀ (n : Nat) (s : St), (words s n).2 = steps s n
  | 0, s => rfl
  | n + 1, s => by
    have hs : ∀ t, steps (next s) t = steps s (t + 1) := fun t => by
      induction t with
      | zero => rfl
      | succ t ih => rw [steps, ih]; rfl
    rw [words]
    exact (words_state n (next s)).trans (hs n)

/-- What any request gives, and the state it leaves: the words from the next one on, the last of them cut. -/
theorem lfsr_rand (s : St) (n : Nat) : rand (some s) n =
    some (((List.range ((n + 3) / 4)).flatMap fun t => write32be (value (steps s (t + 1)))).take n, steps s ((n + 3) / 4)) := by
  have hl : ∀ n, ((List.range n).flatMap fun t => write32be (value (steps s (t + 1)))).length = 4 * n := fun n => by
    induction n with
    | zero => rfl
    | succ n ih => rw [List.range_succ, List.flatMap_append, List.length_append, ih]; simp [write32be]; omega
  have h3 : n &&& 3 = n % 4 := Nat.and_two_pow_sub_one_eq_mod n 2
  unfold rand
  simp only [Option.bind_eq_bind, Option.bind_some, h3, words_eq, words_state]
  split_ifs with hi
  · rw [show (n + 3) / 4 = n / 4 + 1 by omega, List.range_succ, List.flatMap_append, List.take_append, hl,
      List.take_of_length_le (l := (List.range (n / 4)).flatMap fun t => write32be (value (steps s (t + 1)))) (by rw [hl]; omega), show n - 4 * (n / 4) = n % 4 by omega, List.flatMap_singleton]
    rfl
  · rw [show (n + 3) / 4 = n / 4 by omega, List.take_of_length_le (by rw [hl]; omega), ← words_eq, ← words_state]

/-- However requests for whole words are cut, they give the words of one stream, in order. -/
theorem lfsr_requests : ∀ (ns : List Nat) (s : St), (∀ n ∈ ns, 4 ∣ n) →
    ∃ out, run (some s) ns = some out ∧ ∀ t < ns.sum / 4, some ((out.flatten.drop (4 * t)).take 4) = streamWord s t := by
  have key : ∀ (ns : List Nat) (s : St), (∀ n ∈ ns, 4 ∣ n) →
      ∃ out, run (some s) ns = some out ∧ out.flatten = (List.range (ns.sum / 4)).flatMap fun t => write32be (value (steps s (t + 1))) := by
    intro ns
    induction ns with
    | nil => exact fun s _ => ⟨[], rfl, rfl⟩
    | cons n ns ih =>
      intro s h
      obtain ⟨k, rfl⟩ := h n List.mem_cons_self
      obtain ⟨out, h1, h2⟩ := ih (steps s k) fun m hm => h m (List.mem_cons_of_mem _ hm)
      have hs : ∀ t, steps (steps s k) t = steps s (k + t) := fun t => by
        induction t with
        | zero => rfl
        | succ t ih => rw [steps, ih]; rfl
      have hr := lfsr_rand s (4 * k)
      have hl : ∀ n, ((List.range n).flatMap fun t => write32be (value (steps s (t + 1)))).length = 4 * n := fun n => by
        induction n with
        | zero => rfl
        | succ n ih => rw [List.range_succ, List.flatMap_append, List.length_append, ih]; simp [write32be]; omega
      rw [show (4 * k + 3) / 4 = k by omega, List.take_of_length_le (by rw [hl])] at hr
      refine ⟨((List.range k).flatMap fun t => write32be (value (steps s (t + 1)))) :: out, by rw [run, hr]; simp only [Option.bind_eq_bind, Option.bind_some, h1], ?_⟩
      rw [List.flatten_cons, h2, List.sum_cons, show (4 * k + ns.sum) / 4 = k + ns.sum / 4 by omega, List.range_add, List.flatMap_append, List.flatMap_map]
      simp only [hs, Nat.add_assoc]
  intro ns s h
  obtain ⟨out, h1, h2⟩ := key ns s h
  refine ⟨out, h1, fun t ht => ?_⟩
  have hl : ∀ n, ((List.range n).flatMap fun t => write32be (value (steps s (t + 1)))).length = 4 * n := fun n => by
    induction n with
    | zero => rfl
    | succ n ih => rw [List.range_succ, List.flatMap_append, List.length_append, ih]; simp [write32be]; omega
  obtain ⟨m, hm⟩ : ∃ m, ns.sum / 4 = t + 1 + m := ⟨ns.sum / 4 - (t + 1), by omega⟩
  rw [streamWord_eq, h2, hm, List.range_add, List.flatMap_append, List.range_succ, List.flatMap_append, List.append_assoc, List.drop_left' (hl t), List.flatMap_singleton,
    List.take_left' (show (write32be _).length = 4 from rfl)]

example : ∀ n ∈ [4, 0, 12], 4 ∣ n := by decide

/-- From any state with no stuck register the stream of words repeats after `d` words exactly when `d` is a multiple of the full period. -/
theorem lfsr_stream_live (s : St) (hs : Live s) (d : Nat) :
    (∀ t, streamWord s (t + d) = streamWord s t) ↔ (2 ^ 31 - 1) * (2 ^ 29 - 1) * (2 ^ 28 - 1) * (2 ^ 25 - 1) ∣ d := by
  have hp := (lfsr_period s hs d).2
  rw [fullPeriod] at hp
  rw [← hp]
  refine forall_congr' fun t => ?_
  rw [streamWord_eq, streamWord_eq, Option.some_inj, show t + d + 1 = t + 1 + d by omega]
  exact ⟨write32be_inj _ _, fun e => by rw [e]⟩

/-- From a state with a stuck register it repeats sooner. -/
theorem lfsr_stream_stuck (s : St) (hs : ¬ Live s) :
    ∃ d, 0 < d ∧ d < (2 ^ 31 - 1) * (2 ^ 29 - 1) * (2 ^ 28 - 1) * (2 ^ 25 - 1) ∧ ∀ t, streamWord s (t + d) = streamWord s t := by
  obtain ⟨x0, x1, x2, x3, r0, r1, r2, r3, h0, h1, h2, h3⟩ := lfsr_sequences s
  have hw := lfsr_recurrence s x0 x1 x2 x3 r0 r1 r2 r3 h0 h1 h2 h3
  have per : ∀ {k q N : Nat} {x : Nat → Bool} {z : BitVec 32}, Recur k q x → 0 < q ∧ q < k → k ≤ 32 → 0 < N → (X ^ k + X ^ q + 1 : Pol) ∣ X ^ N - 1 →
      (∀ p, p.Prime → p ∣ N → ∃ i, (X ^ k + X ^ q + 1 : Pol) ∣ (X ^ (N / p) - 1) * i - 1) → Window k z x 0 →
      (∀ n, x (n + N) = x n) ∧ (z.toNat < 2 ^ (32 - k) → ∀ n, x n = false) := by
    intro k q N x z hr hq hk hN a b w
    have hz : z.toNat < 2 ^ (32 - k) → ∀ n, x n = false := fun h =>
      hr.zero hq (n := 0) fun i hi => by rw [← w i hi]; exact (small_iff k hk z).2 h i hi
    refine ⟨?_, hz⟩
    by_cases hl : 2 ^ (32 - k) ≤ z.toNat
    · obtain ⟨n, e⟩ := live_bit hk hl w
      exact (window_period hr hq e hN a b 0 0).2
    · intro n
      rw [hz (by omega), hz (by omega)]
  have p0 := per r0 (by omega) (by omega) (by decide) order31 units31 h0
  have p1 := per r1 (by omega) (by omega) (by decide) order29 units29 h1
  have p2 := per r2 (by omega) (by omega) (by decide) order28 units28 h2
  have p3 := per r3 (by omega) (by omega) (by decide) order25 units25 h3
  have all : ∀ d, (∀ n m, x0 (n + m * d) = x0 n) → (∀ n m, x1 (n + m * d) = x1 n) → (∀ n m, x2 (n + m * d) = x2 n) → (∀ n m, x3 (n + m * d) = x3 n) →
      ∀ t, streamWord s (t + d) = streamWord s t := by
    intro d a b c e t
    rw [streamWord_eq, streamWord_eq]
    suffices hv : value (steps s (t + d + 1)) = value (steps s (t + 1)) by rw [hv]
    apply BitVec.eq_of_getLsbD_eq
    intro i hi
    have u := (hw (t + d)).2.2.2.2 (31 - i) (by omega)
    have v := (hw t).2.2.2.2 (31 - i) (by omega)
    rw [show 31 - (31 - i) = i by omega] at u v
    rw [u, v, show 18 * (t + d + 1) + (31 - i) = 18 * (t + 1) + (31 - i) + 18 * d by ring, show 2 * (t + d + 1) + (31 - i) = 2 * (t + 1) + (31 - i) + 2 * d by ring,
      show 7 * (t + d + 1) + (31 - i) = 7 * (t + 1) + (31 - i) + 7 * d by ring, show 13 * (t + d + 1) + (31 - i) = 13 * (t + 1) + (31 - i) + 13 * d by ring, a, b, c, e]
  have dv : ∀ {N : Nat} {x : Nat → Bool}, (∀ n, x (n + N) = x n) → ∀ d, N ∣ d → ∀ n m, x (n + m * d) = x n := by
    rintro N x hx _ ⟨c, rfl⟩ n m
    rw [show m * (N * c) = (m * c) * N by ring]
    exact periodic_mul hx _ _
  have zz : ∀ {x : Nat → Bool}, (∀ n, x n = false) → ∀ d n m : Nat, x (n + m * d) = x n := fun h d n m => by rw [h, h]
  by_cases c0 : s.z0.toNat < 2
  · exact ⟨(2 ^ 29 - 1) * (2 ^ 28 - 1) * (2 ^ 25 - 1), by decide +kernel, by decide +kernel, all _ (zz (p0.2 c0) _) (dv p1.1 _ (by decide +kernel))
      (dv p2.1 _ (by decide +kernel)) (dv p3.1 _ (by decide +kernel))⟩
  by_cases c1 : s.z1.toNat < 8
  · exact ⟨(2 ^ 31 - 1) * (2 ^ 28 - 1) * (2 ^ 25 - 1), by decide +kernel, by decide +kernel, all _ (dv p0.1 _ (by decide +kernel)) (zz (p1.2 c1) _)
      (dv p2.1 _ (by decide +kernel)) (dv p3.1 _ (by decide +kernel))⟩
  by_cases c2 : s.z2.toNat < 16
  · exact ⟨(2 ^ 31 - 1) * (2 ^ 29 - 1) * (2 ^ 25 - 1), by decide +kernel, by decide +kernel, all _ (dv p0.1 _ (by decide +kernel)) (dv p1.1 _ (by decide +kernel))
      (zz (p2.2 c2) _) (dv p3.1 _ (by decide +kernel))⟩
  by_cases c3 : s.z3.toNat < 128
  · exact ⟨(2 ^ 31 - 1) * (2 ^ 29 - 1) * (2 ^ 28 - 1), by decide +kernel, by decide +kernel, all _ (dv p0.1 _ (by decide +kernel)) (dv p1.1 _ (by decide +kernel))
      (dv p2.1 _ (by decide +kernel)) (zz (p3.2 c3) _)⟩
  exact absurd ⟨by omega, by omega, by omega, by omega⟩ hs

/-- A program that never gives a seed. -/
theorem lfsr_stream_unseeded : ∃ s, initSt none [] = some s ∧
    ∀ d, (∀ t, streamWord s (t + d) = streamWord s t) ↔ (2 ^ 31 - 1) * (2 ^ 29 - 1) * (2 ^ 28 - 1) * (2 ^ 25 - 1) ∣ d :=
  ⟨⟨987654321#32, 987654321#32, 987654321#32, 987654321#32⟩, by decide +kernel, lfsr_stream_live _ (by unfold Live; decide +kernel)⟩

/-- Full statement: after initialisation the stream of words repeats after `(2^31-1)(2^29-1)(2^28-1)(2^25-1)` words and no sooner.  Proved for every
seed of 16 bytes, from any state before, except when a word of the seed is exactly 1, 7, 15, 127; there it is false (`lfsr_stream_stuck`).  Shorter and
longer seeds: `lfsr_short_seed`, `lfsr_long_seed`. -/
theorem lfsr_stream_period_partial (st : Option St) (seed : List Byte) (h : seed.length = 16) (h0 : word seed 0 ≠ 1#32)
    (h1 : word seed 1 ≠ 7#32) (h2 : word seed 2 ≠ 15#32) (h3 : word seed 3 ≠ 127#32) :
    ∃ s, initSt st seed = some s ∧ ∀ d, (∀ t, streamWord s (t + d) = streamWord s t) ↔ (2 ^ 31 - 1) * (2 ^ 29 - 1) * (2 ^ 28 - 1) * (2 ^ 25 - 1) ∣ d := by
  refine ⟨_, init_16 _ _ h, fun d => ?_⟩
  have g : ∀ (a b : BitVec 32), a ≠ b → b.toNat < 200 → b.toNat + 1 ≤ (if a < b then defaultSeed else a).toNat := by
    intro a b hab hb
    split_ifs with hlt
    · have : defaultSeed.toNat = 987654321 := rfl
      omega
    · rw [BitVec.lt_def] at hlt
      have : a.toNat ≠ b.toNat := fun e => hab (BitVec.eq_of_toNat_eq e)
      omega
  exact lfsr_stream_live ⟨if word seed 0 < 1#32 then defaultSeed else word seed 0, if word seed 1 < 7#32 then defaultSeed else word seed 1,
    if word seed 2 < 15#32 then defaultSeed else word seed 2, if word seed 3 < 127#32 then defaultSeed else word seed 3⟩
    ⟨g _ _ h0 (by decide), g _ _ h1 (by decide), g _ _ h2 (by decide), g _ _ h3 (by decide)⟩ d

/-- A seed that meets the hypotheses. -/
example : (List.replicate 16 (77 : Byte)).length = 16 ∧ word (List.replicate 16 77) 0 ≠ 1#32 ∧ word (List.replicate 16 77) 1 ≠ 7#32 ∧
    word (List.replicate 16 77) 2 ≠ 15#32 ∧ word (List.replicate 16 77) 3 ≠ 127#32 := by decide +kernel

end Verif.Lfsr
