import Verif.Props.Crypt.Trivium
import Mathlib.Dynamics.PeriodicPts.Lemmas
import Mathlib.Data.Finite.Prod
/-!
# C118: keys, initial values and states of Trivium
-/
namespace Verif.Trivium
open Verif.TriviumS

/-! ### The step can be undone -/

theorem step_bits (t : St) :
    (t.step.a.getLsbD 0 = (t.s 243 ^^ (t.s 286 && t.s 287) ^^ t.s 288 ^^ t.s 69) ∧ ∀ p < 92, t.step.a.getLsbD (p + 1) = t.a.getLsbD p) ∧
    (t.step.b.getLsbD 0 = (t.s 66 ^^ (t.s 91 && t.s 92) ^^ t.s 93 ^^ t.s 171) ∧ ∀ p < 83, t.step.b.getLsbD (p + 1) = t.b.getLsbD p) ∧
    (t.step.c.getLsbD 0 = (t.s 162 ^^ (t.s 175 && t.s 176) ^^ t.s 177 ^^ t.s 264) ∧ ∀ p < 110, t.step.c.getLsbD (p + 1) = t.c.getLsbD p) := by
  refine ⟨⟨?_, fun p hp => ?_⟩, ⟨?_, fun p hp => ?_⟩, ?_, fun p hp => ?_⟩ <;>
    simp only [St.step, BitVec.getLsbD_setWidth, BitVec.getLsbD_concat] <;> simp <;> omega

theorem ext_top {n : Nat} {x y : BitVec (n + 1)} (h : ∀ p < n, x.getLsbD p = y.getLsbD p) (ht : x.getLsbD n = y.getLsbD n) : x = y := by
  apply BitVec.eq_of_getLsbD_eq
  intro i hi
  by_cases hn : i < n
  · exact h i hn
  · rw [show i = n by omega, ht]

theorem xor_solve : ∀ p q r s x y : Bool, (p ^^ (q && r) ^^ x ^^ s) = (p ^^ (q && r) ^^ y ^^ s) → x = y := by decide

theorem step_inj {t u : St} (h : t.step = u.step) : t = u := by
  obtain ⟨⟨ta, tA⟩, ⟨tb, tB⟩, tc, tC⟩ := step_bits t
  obtain ⟨⟨ua, uA⟩, ⟨ub, uB⟩, uc, uC⟩ := step_bits u
  have hA : ∀ p < 92, t.a.getLsbD p = u.a.getLsbD p := fun p hp => by rw [← tA p hp, ← uA p hp, h]
  have hB : ∀ p < 83, t.b.getLsbD p = u.b.getLsbD p := fun p hp => by rw [← tB p hp, ← uB p hp, h]
  have hC : ∀ p < 110, t.c.getLsbD p = u.c.getLsbD p := fun p hp => by rw [← tC p hp, ← uC p hp, h]
  rw [h, ua] at ta
  rw [h, ub] at tb
  rw [h, uc] at tc
  have s1 : ∀ (v : St) (k : Nat), k ≤ 93 → v.s k = v.a.getLsbD (k - 1) := fun v k hk => if_pos hk
  have s2 : ∀ (v : St) (k : Nat), 93 < k → k ≤ 177 → v.s k = v.b.getLsbD (k - 94) := fun v k h1 h2 => by
    rw [St.s, if_neg (by omega), if_pos h2]
  have s3 : ∀ (v : St) (k : Nat), 177 < k → v.s k = v.c.getLsbD (k - 178) := fun v k h1 => by
    rw [St.s, if_neg (by omega), if_neg (by omega)]
  rw [s3 u 243 (by omega), s3 u 286 (by omega), s3 u 287 (by omega), s3 u 288 (by omega), s1 u 69 (by omega),
    s3 t 243 (by omega), s3 t 286 (by omega), s3 t 287 (by omega), s3 t 288 (by omega), s1 t 69 (by omega)] at ta
  rw [s1 u 66 (by omega), s1 u 91 (by omega), s1 u 92 (by omega), s1 u 93 (by omega), s2 u 171 (by omega) (by omega),
    s1 t 66 (by omega), s1 t 91 (by omega), s1 t 92 (by omega), s1 t 93 (by omega), s2 t 171 (by omega) (by omega)] at tb
  rw [s2 u 162 (by omega) (by omega), s2 u 175 (by omega) (by omega), s2 u 176 (by omega) (by omega), s2 u 177 (by omega) (by omega), s3 u 264 (by omega),
    s2 t 162 (by omega) (by omega), s2 t 175 (by omega) (by omega), s2 t 176 (by omega) (by omega), s2 t 177 (by omega) (by omega), s3 t 264 (by omega)] at tc
  simp only [Nat.reduceSub] at ta tb tc
  rw [hA 68 (by omega), hC 65 (by omega), hC 108 (by omega), hC 109 (by omega)] at ta
  rw [hA 65 (by omega), hA 90 (by omega), hA 91 (by omega), hB 77 (by omega)] at tb
  rw [hB 68 (by omega), hB 81 (by omega), hB 82 (by omega), hC 86 (by omega)] at tc
  have h1 : t.a.getLsbD 92 = u.a.getLsbD 92 := xor_solve _ _ _ _ _ _ tb.symm
  have h2 : t.b.getLsbD 83 = u.b.getLsbD 83 := xor_solve _ _ _ _ _ _ tc.symm
  have h3 : t.c.getLsbD 110 = u.c.getLsbD 110 := xor_solve _ _ _ _ _ _ ta.symm
  have e1 := ext_top (n := 92) hA h1
  have e2 := ext_top (n := 83) hB h2
  have e3 := ext_top (n := 110) hC h3
  cases t; cases u
  simp_all

theorem steps_inj {t u : St} : ∀ n, t.steps n = u.steps n → t = u
  | 0, h => h
  | n + 1, h => steps_inj n (step_inj h)

theorem steps_iterate (t : St) : ∀ n, t.steps n = St.step^[n] t
  | 0 => rfl
  | n + 1 => by rw [St.steps, Function.iterate_succ_apply', steps_iterate t n]

theorem run_of_state : ∀ (ms : List (List Byte)) (c : Ctx), run c ms = runS (abs (load c.s)) ms
  | [], _ => rfl
  | m :: ms, c => by rw [run, runS, run_of_state ms, (crypt_eq c m).1, (crypt_eq c m).2]

/-! ### Keys and initial values -/

/-- The first ten bytes, filled up with zeros. -/
def ten (l : List Byte) : List Byte := (List.range 10).map fun k => l.getD k 0

theorem bit_ten {l l' : List Byte} : ten l = ten l' ↔ ∀ i < 80, bit l i = bit l' i := by
  have h0 : ten l = ten l' ↔ ∀ k < 10, l.getD k 0 = l'.getD k 0 := by
    unfold ten
    rw [List.map_inj_left]
    simp only [List.mem_range]
  rw [h0]
  constructor
  · intro h i hi
    rw [bit, bit, h _ (by omega)]
  · intro h k hk
    apply BitVec.eq_of_getLsbD_eq
    intro i hi
    have := h (8 * k + i) (by omega)
    rwa [bit, bit, show (8 * k + i) / 8 = k by omega, show (8 * k + i) % 8 = i by omega] at this

theorem init_eq {key iv key' iv' : List Byte} : init key iv = init key' iv' ↔ ten key = ten key' ∧ ten iv = ten iv' := by
  rw [bit_ten, bit_ten]
  constructor
  · intro h
    have h := steps_inj _ h
    constructor
    · intro i hi
      have := congrArg (fun t : St => t.a.getLsbD i) h
      simpa only [start, getLsbD_ofBits, if_pos hi, decide_eq_true (show i < 93 by omega), Bool.true_and] using this
    · intro i hi
      have := congrArg (fun t : St => t.b.getLsbD i) h
      simpa only [start, getLsbD_ofBits, if_pos hi, decide_eq_true (show i < 84 by omega), Bool.true_and] using this
  · rintro ⟨h1, h2⟩
    unfold init start
    have e1 : (fun i => if i < 80 then bit key i else false) = fun i => if i < 80 then bit key' i else false := by
      funext i; split_ifs with hi
      · exact h1 i hi
      · rfl
    have e2 : (fun i => if i < 80 then bit iv i else false) = fun i => if i < 80 then bit iv' i else false := by
      funext i; split_ifs with hi
      · exact h2 i hi
      · rfl
    rw [e1, e2]

/-- Keys and initial values which agree in the first ten bytes, filled up with zeros, give the same output. -/
theorem trivium_same (c c' : Ctx) (key iv key' iv' : List Byte) (hk : ten key = ten key') (hi : ten iv = ten iv') (ms : List (List Byte)) :
    run (ivSet (keySet c key) iv) ms = run (ivSet (keySet c' key') iv') ms := by
  rw [trivium_standard, trivium_standard, init_eq.2 ⟨hk, hi⟩]

/-- So a short key is the same as the key followed by zero bytes. -/
example (c : Ctx) (iv : List Byte) (ms : List (List Byte)) : run (ivSet (keySet c [1, 2]) iv) ms = run (ivSet (keySet c [1, 2, 0, 0]) iv) ms :=
  trivium_same c c _ _ _ _ (by decide) rfl ms

/-- If they do not agree, the states are different and stay different, whatever is encrypted. -/
theorem trivium_no_merge (c c' : Ctx) (key iv key' iv' m m' : List Byte) (hl : m.length = m'.length)
    (h : (crypt (ivSet (keySet c key) iv) m).2.s = (crypt (ivSet (keySet c' key') iv') m').2.s) : ten key = ten key' ∧ ten iv = ten iv' := by
  have e : abs (load _) = abs (load _) := congrArg (fun s => abs (load s)) h
  rw [(crypt_eq _ m).2, (crypt_eq _ m').2, hl, ivSet_state, ivSet_state] at e
  exact init_eq.1 (steps_inj _ e)

-- the hypothesis is met by different lengths of the same key
example : (crypt (ivSet (keySet ⟨List.replicate 10 0, List.replicate 40 0⟩ [1]) [2, 0]) [5]).2.s =
    (crypt (ivSet (keySet ⟨List.replicate 10 0, List.replicate 40 0⟩ [1, 0, 0]) [2]) [6]).2.s := by decide +kernel

/-! ### The course of the states -/

theorem finite_bitVec (n : Nat) : Finite (BitVec n) := Finite.of_injective (fun b : BitVec n => b.toFin) fun _ _ h => congrArg BitVec.ofFin h

theorem finite_states : Finite St := by
  have := finite_bitVec 93
  have := finite_bitVec 84
  have := finite_bitVec 111
  refine Finite.of_injective (fun t : St => (t.a, t.b, t.c)) ?_
  rintro ⟨a, b, c⟩ ⟨a', b', c'⟩ h
  simp only [Prod.mk.injEq] at h
  obtain ⟨rfl, rfl, rfl⟩ := h
  rfl

/-- The key stream of every context is periodic from its first byte on: after some number of words everything repeats. -/
theorem trivium_periodic (c : Ctx) : ∃ q > 0, ∀ m : List Byte, m.length = 4 * q → ∀ ms, run (crypt c m).2 ms = run c ms := by
  have := finite_states
  have hf : Function.Injective St.step := fun _ _ => step_inj
  obtain ⟨q, hq, hp⟩ := hf.mem_periodicPts (abs (load c.s))
  refine ⟨q, hq, fun m hm ms => ?_⟩
  rw [run_of_state, run_of_state, (crypt_eq c m).2, hm, show 32 * ((4 * q + 3) / 4) = q * 32 by omega, steps_iterate]
  have : St.step^[q * 32] (abs (load c.s)) = abs (load c.s) := (hp.mul_const 32)
  rw [this]

theorem steps_zero : ∀ n, (⟨0, 0, 0⟩ : St).steps n = ⟨0, 0, 0⟩
  | 0 => rfl
  | n + 1 => by rw [St.steps, steps_zero n]; rfl

/-- No key, initial value and amount of data leads to the state of zeros, in which the cipher would stay and give zeros. -/
theorem trivium_never_zero (c : Ctx) (key iv m : List Byte) : abs (load (crypt (ivSet (keySet c key) iv) m).2.s) ≠ ⟨0, 0, 0⟩ := by
  intro h
  rw [(crypt_eq _ m).2, ivSet_state, ← steps_zero (32 * ((m.length + 3) / 4))] at h
  have h := steps_inj _ h
  rw [init, ← steps_zero 1152] at h
  have h := congrArg (fun t : St => t.c.getLsbD 110) (steps_inj _ h)
  simp only [start, getLsbD_ofBits] at h
  exact absurd h (by decide)

/-- In that state the cipher gives the plaintext. -/
theorem trivium_zero_state (c : Ctx) (h : abs (load c.s) = ⟨0, 0, 0⟩) (m : List Byte) : (crypt c m).1 = m := by
  rw [(crypt_eq c m).1, h]
  have hb : ∀ k, byte ⟨0, 0, 0⟩ k = 0 := fun k => by
    apply BitVec.eq_of_getLsbD_eq
    intro i hi
    rw [byte, getLsbD_ofBits, steps_zero]
    simp [St.z, St.s]
  rw [show byte ⟨0, 0, 0⟩ = fun _ => 0 from funext hb]
  apply List.ext_getElem
  · simp
  · intro i h1 h2
    simp

/-- `cry_trivium_init` (src/crypt/trivium.c:63-66) leaves that state, and a key alone does not change it: without
`cry_trivium_iv_set` the output is the plaintext. -/
theorem trivium_no_iv (key m : List Byte) : (crypt (keySet ⟨List.replicate 10 0, List.replicate 40 0⟩ key) m).1 = m := by
  refine trivium_zero_state _ ?_ m
  show abs (load (List.replicate 40 0)) = _
  rw [show load (List.replicate 40 0) = ⟨0, 0, 0, 0, 0, 0, 0, 0, 0, 0⟩ by decide +kernel]; rfl

/-- A key set later counts from the next initial value on. -/
theorem trivium_key_late (c : Ctx) (key : List Byte) (ms : List (List Byte)) : run (keySet c key) ms = run c ms := by
  rw [run_of_state, run_of_state]; rfl

end Verif.Trivium
