import Verif.Model.Mpi.NumTheory
import Verif.Lemmas.Mpi.Div
import Mathlib.Data.Int.ModEq
import Mathlib.Data.Nat.Bitwise
namespace Verif.Mpi

theorem isBitSet_spec {w : Nat} (hw : 0 < w) {x : Mpi} (hx : Norm (2 ^ w) x) (bit : Nat) :
    isBitSet w x bit = (val (2 ^ w) x.digs).testBit bit := by
  have hb0 : 0 < 2 ^ w := Nat.two_pow_pos w
  unfold isBitSet
  rw [dig_eq hb0 hx.digits, Nat.one_shiftLeft, and_two_pow_eq, ← pow_mul]
  have : (val (2 ^ w) x.digs / 2 ^ (w * (bit / w)) % 2 ^ w).testBit (bit % w) =
      (val (2 ^ w) x.digs).testBit bit := by
    rw [Nat.testBit_mod_two_pow, Nat.testBit_div_two_pow]
    have h1 := Nat.mod_lt bit hw
    have h2 := Nat.div_add_mod bit w
    simp only [h1, decide_true, Bool.true_and]
    congr 1; omega
  rw [this]
  cases (val (2 ^ w) x.digs).testBit bit <;> simp

/-- The reduction step: nothing without modulus, else a representative in `[0, m)`. -/
theorem modOpt_rep {w : Nat} (hw : DigitWidth w) {x m : Mpi} {u v : Int} (hx : Rep w x u)
    (hxw : WF (2 ^ w) x) (hm : Rep w m v) (hv : 0 < v) :
    ∃ r, modOpt w x (some m) = some r ∧ Rep w r (u % v) ∧ WF (2 ^ w) r := by
  obtain ⟨r, h1, h2, h3⟩ := mod_rep hw hx hxw.zero_nonneg hm hv
  exact ⟨r, h1, h2, wf_of_norm_false h2.1 h3⟩

theorem sqr_rep {w : Nat} (hw : 8 ≤ w) {x : Mpi} {u : Int} (hx : Rep w x u) :
    ∃ z, sqr w false x = some z ∧ Rep w z (u * u) ∧ WF (2 ^ w) z := by
  obtain ⟨z, h1, h2, h3, h4⟩ := sqr_spec hw false hx.1
  have hz : z.neg = false := by rw [h4]; split <;> rfl
  refine ⟨z, h1, ⟨h3, ?_⟩, wf_of_norm_false h3 hz⟩
  rw [toInt_false hz, h2, hx.val_eq]
  rw [Nat.cast_mul]
  exact Int.natAbs_mul_self' u

theorem pow_step (X B : Int) (E n : Nat) :
    X ^ 2 ^ (n + 1) * B ^ (E % 2 ^ (n + 1)) =
      ((X * X) * (if E.testBit n then B else 1)) ^ 2 ^ n * B ^ (E % 2 ^ n) := by
  have h : E % 2 ^ (n + 1) = E % 2 ^ n + 2 ^ n * (E.testBit n).toNat := by
    rw [Nat.testBit_eq_decide_div_mod_eq, pow_succ, Nat.mod_mul]
    have := Nat.mod_lt (E / 2 ^ n) (show 0 < 2 by omega)
    congr 2
    rcases Nat.mod_two_eq_zero_or_one (E / 2 ^ n) with h | h <;> simp [h]
  rw [h, mul_pow, pow_succ' 2 n, pow_mul X, pow_two, pow_add B]
  cases E.testBit n <;> simp <;> ring

theorem expLoop_mod {w : Nat} (hw : DigitWidth w) {b e m : Mpi} {B v : Int} (hb : Rep w b B)
    (he : Norm (2 ^ w) e) (hm : Rep w m v) (hv : 0 < v) :
    ∀ (n : Nat) {x : Mpi} {X : Int}, Rep w x X → WF (2 ^ w) x →
    ∃ z Z, expLoop w b e (some m) n x = some z ∧ Rep w z Z ∧ WF (2 ^ w) z ∧
      Z ≡ X ^ 2 ^ n * B ^ (val (2 ^ w) e.digs % 2 ^ n) [ZMOD v] ∧ (0 < n → 0 ≤ Z ∧ Z < v) ∧
      (n = 0 → Z = X)
  | 0, x, X, hx, hxw => by
    refine ⟨x, X, rfl, hx, hxw, ?_, fun h => absurd h (by omega), fun _ => rfl⟩
    simp [Nat.mod_one]
  | n + 1, x, X, hx, hxw => by
    have hw8 := hw.pos
    obtain ⟨x1, a1, a2, a3⟩ := sqr_rep hw8 hx
    obtain ⟨x2, b1, b2, b3⟩ := modOpt_rep hw a2 a3 hm hv
    rw [pow_step]
    have bset := isBitSet_spec (show 0 < w by omega) he n
    have hin : ∀ U : Int, 0 ≤ U % v ∧ U % v < v := fun U =>
      ⟨Int.emod_nonneg _ (by omega), Int.emod_lt_of_pos _ hv⟩
    rw [expLoop]
    simp only [a1, b1, Option.bind_eq_bind, Option.bind_some]
    cases hbit : (val (2 ^ w) e.digs).testBit n with
    | false =>
      rw [hbit] at bset
      obtain ⟨z, Z, c1, c2, c3, c4, c5, c6⟩ := expLoop_mod hw hb he hm hv n b2 b3
      refine ⟨z, Z, ?_, c2, c3, ?_, fun _ => ?_, fun h => by omega⟩
      · simp only [bset]; simpa using c1
      · refine c4.trans (Int.ModEq.mul_right _ (Int.ModEq.pow _ ?_))
        simp only [Bool.false_eq_true, if_false, mul_one]
        exact Int.mod_modEq _ _
      · rcases Nat.eq_zero_or_pos n with h | h
        · rw [c6 h]; exact hin _
        · exact c5 h
    | true =>
      rw [hbit] at bset
      obtain ⟨x3, d1, d2, d3⟩ := mul_rep hw8 false b2 hb
      obtain ⟨x4, e1, e2, e3⟩ := modOpt_rep hw d2 d3 hm hv
      obtain ⟨z, Z, c1, c2, c3, c4, c5, c6⟩ := expLoop_mod hw hb he hm hv n e2 e3
      refine ⟨z, Z, ?_, c2, c3, ?_, fun _ => ?_, fun h => by omega⟩
      · simp only [bset, if_true, d1, e1, Option.bind_some]; exact c1
      · refine c4.trans (Int.ModEq.mul_right _ (Int.ModEq.pow _ ?_))
        simp only [if_true]
        exact (Int.mod_modEq _ _).trans (Int.ModEq.mul_right _ (Int.mod_modEq _ _))
      · rcases Nat.eq_zero_or_pos n with h | h
        · rw [c6 h]; exact hin _
        · exact c5 h

theorem expLoop_plain {w : Nat} (hw : DigitWidth w) {b e : Mpi} {B : Int} (hb : Rep w b B)
    (he : Norm (2 ^ w) e) :
    ∀ (n : Nat) {x : Mpi} {X : Int}, Rep w x X → WF (2 ^ w) x →
    ∃ z, expLoop w b e none n x = some z ∧ WF (2 ^ w) z ∧
      Rep w z (X ^ 2 ^ n * B ^ (val (2 ^ w) e.digs % 2 ^ n))
  | 0, x, X, hx, hxw => by
    refine ⟨x, rfl, hxw, ?_⟩
    simpa [Nat.mod_one] using hx
  | n + 1, x, X, hx, hxw => by
    have hw8 := hw.pos
    obtain ⟨x1, a1, a2, a3⟩ := sqr_rep hw8 hx
    rw [pow_step]
    have bset := isBitSet_spec (show 0 < w by omega) he n
    rw [expLoop]
    simp only [a1, modOpt, Option.bind_eq_bind, Option.bind_some]
    cases hbit : (val (2 ^ w) e.digs).testBit n with
    | false =>
      rw [hbit] at bset
      obtain ⟨z, c1, c2, c3⟩ := expLoop_plain hw hb he n a2 a3
      refine ⟨z, ?_, c2, ?_⟩
      · simp only [bset]; simpa using c1
      · simpa using c3
    | true =>
      rw [hbit] at bset
      obtain ⟨x3, d1, d2, d3⟩ := mul_rep hw8 false a2 hb
      obtain ⟨z, c1, c2, c3⟩ := expLoop_plain hw hb he n d2 d3
      refine ⟨z, ?_, c2, ?_⟩
      · simp only [bset, if_true, d1, Option.bind_some]; exact c1
      · simpa using c3

theorem one_rep {w : Nat} (hw : 0 < w) : Rep w ⟨false, [1]⟩ 1 ∧ WF (2 ^ w) ⟨false, [1]⟩ := by
  have h : Norm (2 ^ w) ⟨false, [1]⟩ := ⟨by simp [one_lt_two_pow hw], by simp [TopNZ]⟩
  exact ⟨⟨h, by rw [toInt_false rfl]; simp⟩, wf_of_norm_false h rfl⟩

theorem mod_size {E : Nat} : E % 2 ^ E.size = E := Nat.mod_eq_of_lt (Nat.lt_size_self E)

theorem expLoop_mod_full {w : Nat} (hw : DigitWidth w) {b e m : Mpi} {B v : Int} (hb : Rep w b B)
    (he : Norm (2 ^ w) e) (hm : Rep w m v) (hv : 0 < v) :
    ∃ z Z, expLoop w b e (some m) (countBits w e) ⟨false, [1]⟩ = some z ∧ Rep w z Z ∧
      WF (2 ^ w) z ∧ Z = if val (2 ^ w) e.digs = 0 then 1 else B ^ (val (2 ^ w) e.digs) % v := by
  have hw0 : 0 < w := by have := hw.pos; omega
  obtain ⟨z, Z, c1, c2, c3, c4, c5, c6⟩ := expLoop_mod hw hb he hm hv (countBits w e)
    (one_rep hw0).1 (one_rep hw0).2
  refine ⟨z, Z, c1, c2, c3, ?_⟩
  rw [countBits_spec hw he] at c4 c5 c6
  rw [mod_size, one_pow, one_mul] at c4
  split
  next h => exact c6 (by rw [h]; simp)
  next h =>
    obtain ⟨d1, d2⟩ := c5 (Nat.size_pos.2 (by omega))
    rw [← c4, Int.emod_eq_of_lt d1 d2]

theorem expLoop_plain_full {w : Nat} (hw : DigitWidth w) {b e : Mpi} {B : Int} (hb : Rep w b B)
    (he : Norm (2 ^ w) e) :
    ∃ z, expLoop w b e none (countBits w e) ⟨false, [1]⟩ = some z ∧ WF (2 ^ w) z ∧
      Rep w z (B ^ val (2 ^ w) e.digs) := by
  have hw0 : 0 < w := by have := hw.pos; omega
  obtain ⟨z, c1, c2, c3⟩ := expLoop_plain hw hb he (countBits w e) (one_rep hw0).1 (one_rep hw0).2
  refine ⟨z, c1, c2, ?_⟩
  rwa [countBits_spec hw he, mod_size, one_pow, one_mul] at c3

end Verif.Mpi
