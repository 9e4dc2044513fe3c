import Verif.Lemmas.Mpi.SqrBaseline
namespace Verif.Mpi

/-- C03: `cry_mpi_mul(r, x, y)` succeeds and leaves the exact integer product in well-formed
representation, for every digit width of at least 8 bits, all lengths (hence every choice
between Comba, Karatsuba and Toom-3, at every depth of recursion), all signs, and whatever
sign the destination had before.  Operands may even be negative zeros. -/
theorem mul_correct {w : Nat} (hw : 8 ≤ w) (old : Bool) (x y : Mpi) (hx : Norm (2 ^ w) x)
    (hy : Norm (2 ^ w) y) :
    ∃ z, mul w old x y = some z ∧ z.toInt (2 ^ w) = x.toInt (2 ^ w) * y.toInt (2 ^ w) ∧
      WF (2 ^ w) z := mul_spec hw old hx hy

/-- C03: the four multiplication routines agree with the product of the magnitudes; the
recursive ones for every correct routine used below them. -/
theorem mul_routines_agree {w : Nat} (hw : 8 ≤ w) (x y : Mpi) (hx : Norm (2 ^ w) x)
    (hy : Norm (2 ^ w) y) (f : Mpi → Mpi → Option Mpi)
    (hf : ∀ u v, Norm (2 ^ w) u → Norm (2 ^ w) v →
      ∃ z, f u v = some z ∧ Norm (2 ^ w) z ∧ z.neg = false ∧
        val (2 ^ w) z.digs = val (2 ^ w) u.digs * val (2 ^ w) v.digs) :
    val (2 ^ w) (mulBaseline w x y).digs = val (2 ^ w) x.digs * val (2 ^ w) y.digs ∧
    (min x.digs.length y.digs.length < 2 ^ w →
      val (2 ^ w) (mulComba w false x y).digs = val (2 ^ w) x.digs * val (2 ^ w) y.digs) ∧
    (4 < min x.digs.length y.digs.length → ∃ z, mulKaratsuba w f x y = some z ∧
      val (2 ^ w) z.digs = val (2 ^ w) x.digs * val (2 ^ w) y.digs) ∧
    (6 < min x.digs.length y.digs.length → ∃ z, mulToom3 w (mulWith f) x y = some z ∧
      val (2 ^ w) z.digs = val (2 ^ w) x.digs * val (2 ^ w) y.digs) := by
  have hok : ∀ n, MulOK w n f := by
    intro n u v hu hv _
    obtain ⟨z, h1, h2, h3, h4⟩ := hf u v hu hv
    exact ⟨z, h1, h4, h2, fun _ _ => h3⟩
  refine ⟨(mulBaseline_spec hx hy).1,
    fun h => (mulComba_spec (by omega) false hx.digits hy.digits h).1, fun h => ?_, fun h => ?_⟩
  · obtain ⟨z, h1, h2, -⟩ := mulKaratsuba_spec (by omega) hx hy h (hok _)
    exact ⟨z, h1, h2⟩
  · obtain ⟨z, h1, h2⟩ := mulToom3_spec (by omega) hx hy h (hok _)
    exact ⟨z, h1, by rw [h2.val_eq, Int.natAbs_mul, natAbs_toInt, natAbs_toInt]⟩

/-- C03: multiplication by a single digit is exact, zero digit included.  (A negative zero can
only be left behind if the destination was negative before.) -/
theorem mulDig_correct {w : Nat} (hw : 8 ≤ w) (old : Bool) (x : Mpi) (hx : Norm (2 ^ w) x) (d : Nat)
    (hd : d < 2 ^ w) :
    ∃ z, mulDig w old x d = some z ∧ z.toInt (2 ^ w) = x.toInt (2 ^ w) * d ∧ Norm (2 ^ w) z ∧
      (old = false → WF (2 ^ w) z) := by
  obtain ⟨z, h1, h2, h3, h4⟩ := mulDig_spec hw old hx hd
  refine ⟨z, h1, h3, h2, fun ho => ⟨h2, fun h0 => ?_⟩⟩
  cases hn : z.neg with
  | false => rfl
  | true => have := h4 hn h0; rw [ho] at this; simp at this

/-- A negative zero from `cry_mpi_mul_dig(r, a, 0)` with a negative `r`. -/
example : mulDig 8 true ⟨false, [7]⟩ 0 = some ⟨true, []⟩ := by decide

example : mul 8 true ⟨true, [255, 255]⟩ ⟨false, [255, 255, 1]⟩ =
    some ⟨true, [1, 0, 253, 255, 1]⟩ := by decide
/-- Operands on the Karatsuba and Toom-3 sides of the cut-offs exist. -/
example (n : Nat) : Norm (2 ^ 8) ⟨false, List.replicate (n + 1) 255⟩ ∧
    min (List.replicate (n + 1) 255).length (List.replicate (n + 1) 255).length > n := by
  constructor
  · constructor
    · intro d hd
      rw [List.mem_replicate] at hd
      obtain ⟨-, rfl⟩ := hd; norm_num
    · unfold TopNZ; simp [List.getLast?_replicate]
  · simp

/-- C04 (partial): `cry_mpi_sqr(r, x)` leaves exactly the square, in well-formed representation,
provided the destination was not negative before the call or coincides with the operand
(`old = false`), or `x` has more than 64 digits, or `x = 0`.
Missing: a negative destination, see `sqr_negative_wrong`. -/
theorem sqr_correct_partial {w : Nat} (hw : 8 ≤ w) (old : Bool) (x : Mpi) (hx : Norm (2 ^ w) x)
    (h : old = false ∨ x.digs.length > 64 ∨ x.toInt (2 ^ w) = 0) :
    ∃ z, sqr w old x = some z ∧ z.toInt (2 ^ w) = x.toInt (2 ^ w) * x.toInt (2 ^ w) ∧
      WF (2 ^ w) z := by
  obtain ⟨z, h1, h2, h3, h4⟩ := sqr_spec hw old hx
  have hz : z.neg = false := by
    rw [h4]
    split
    · rfl
    next hc =>
      rcases h with h | h | h
      · exact h
      · exact absurd (Or.inr h) hc
      · exact absurd (Or.inl ((toInt_eq_zero_iff (Nat.two_pow_pos w) hx).1 h)) hc
  refine ⟨z, h1, ?_, wf_of_norm_false h3 hz⟩
  rw [toInt_false hz, h2]
  push_cast
  unfold Mpi.toInt
  split <;> ring

/-- The magnitude is right even for a negative destination. -/
theorem sqr_magnitude {w : Nat} (hw : 8 ≤ w) (old : Bool) (x : Mpi) (hx : Norm (2 ^ w) x) :
    ∃ z, sqr w old x = some z ∧
      (z.toInt (2 ^ w)).natAbs = (x.toInt (2 ^ w)).natAbs * (x.toInt (2 ^ w)).natAbs := by
  obtain ⟨z, h1, h2, -, -⟩ := sqr_spec hw old hx
  exact ⟨z, h1, by rw [natAbs_toInt, natAbs_toInt, h2]⟩

/-- C04 is false of the code: for every non-zero operand of at most 64 digits and a negative
destination the result is *minus* the square. -/
theorem sqr_negative_wrong {w : Nat} (hw : 8 ≤ w) (x : Mpi) (hx : Norm (2 ^ w) x)
    (h0 : x.toInt (2 ^ w) ≠ 0) (hl : x.digs.length ≤ 64) :
    ∃ z, sqr w true x = some z ∧ z.toInt (2 ^ w) = -(x.toInt (2 ^ w) * x.toInt (2 ^ w)) := by
  obtain ⟨z, h1, h2, h3, h4⟩ := sqr_spec hw true hx
  refine ⟨z, h1, ?_⟩
  have hne : x.digs ≠ [] := fun e => h0 ((toInt_eq_zero_iff (Nat.two_pow_pos w) hx).2 e)
  rw [if_neg (by rintro (h | h); exacts [hne h, by omega])] at h4
  unfold Mpi.toInt
  rw [h4, h2, if_pos rfl]
  split <;> push_cast <;> ring

example : sqr 8 true ⟨false, [3]⟩ = some ⟨true, [9]⟩ := by decide
example : sqr 8 false ⟨true, [255, 255]⟩ = some ⟨false, [1, 0, 254, 255]⟩ := by decide

/-- C04: the schoolbook squaring gives the non-negative square unconditionally. -/
theorem sqrBaseline_correct {w : Nat} (hw : 8 ≤ w) (x : Mpi) (hx : Norm (2 ^ w) x) :
    ∃ z, sqrBaseline w x = some z ∧ z.toInt (2 ^ w) = x.toInt (2 ^ w) * x.toInt (2 ^ w) ∧
      WF (2 ^ w) z := by
  obtain ⟨z, h1, h2, h3, h4⟩ := sqrBaseline_spec (by omega) hx
  refine ⟨z, h1, ?_, wf_of_norm_false h3 h4⟩
  rw [toInt_false h4, h2]
  push_cast
  unfold Mpi.toInt
  split <;> ring

example : sqrBaseline 8 ⟨true, [255, 255]⟩ = some ⟨false, [1, 0, 254, 255]⟩ := by decide

end Verif.Mpi
