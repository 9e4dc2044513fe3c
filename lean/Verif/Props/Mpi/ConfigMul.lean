import Verif.Lemmas.Mpi.ConfigMul
import Verif.Props.Mpi.Mul
/-!
# C98: products and squares under all options

`mulOpt w o` and `sqrOpt w o` are `cry_mpi_mul` and `cry_mpi_sqr` with the options `o`
(`CRY_MPI_MUL_TOOM3`, `CRY_MPI_MUL_KARATSUBA`, `CRY_MPI_MUL_COMBA`, each on or off).
-/
namespace Verif.Mpi

/-- C98 (products).  Full statement: for each of the eight choices of options `cry_mpi_mul` leaves the exact product, the
same object as in the default configuration, for operands of any length.  Proved for all choices and lengths but one: when
Comba is on and Karatsuba off, operands that reach the Comba routine must have fewer than `2^w` digits (they do with Toom-3
and digits of 16 bits or more).  Missing, because false: Comba alone with 8-bit digits and more digits
(`mul_options_comba_wrong`). -/
theorem mul_options_partial {w : Nat} (hw : DigitWidth w) (o : MulOpts) (old : Bool) (x y : Mpi) (hx : Norm (2 ^ w) x)
    (hy : Norm (2 ^ w) y)
    (hcap : o.comba = true → o.kara = true ∨ (o.toom = true ∧ 16 ≤ w) ∨ min x.digs.length y.digs.length < 2 ^ w) :
    mulOpt w o old x y = mul w old x y ∧
    ∃ z, mulOpt w o old x y = some z ∧ z.toInt (2 ^ w) = x.toInt (2 ^ w) * y.toInt (2 ^ w) ∧ WF (2 ^ w) z := by
  have h := mulOpt_spec hw.pos o old hx hy hcap
  exact ⟨h, by rw [h]; exact mul_spec hw.pos old hx hy⟩

/-- With Comba alone and 8-bit digits the product of two numbers of 258 digits (2064 bits) is wrong: a column does not fit
three digits.  The factors are both `256^258 - 1`. -/
theorem mul_options_comba_wrong :
    ∃ x z : Mpi, WF (2 ^ 8) x ∧ x.toInt (2 ^ 8) = 256 ^ 258 - 1 ∧ mulOpt 8 ⟨false, false, true⟩ false x x = some z ∧
      z.toInt (2 ^ 8) ≠ x.toInt (2 ^ 8) * x.toInt (2 ^ 8) := by
  have hc : val (2 ^ 8) (constCols (2 ^ 8) 255 258 0 (258 + 258) 0) ≠ (256 ^ 258 - 1) * (256 ^ 258 - 1) := by
    decide +kernel
  have h1 : (1 : Nat) ≤ 256 ^ 258 := Nat.one_le_pow _ _ (by norm_num)
  have hval : (⟨false, List.replicate 258 255⟩ : Mpi).toInt (2 ^ 8) = ((256 ^ 258 - 1 : Nat) : Int) := by
    rw [toInt_false rfl, ones_val]
  have e : ((256 ^ 258 - 1 : Nat) : Int) = 256 ^ 258 - 1 := by rw [Nat.cast_sub h1]; push_cast; rfl
  refine ⟨_, _, ones_wf (N := 258), by rw [hval, e], ones_mulOpt (by norm_num), ?_⟩
  rw [hval, toInt_false rfl, val_adjust]
  exact fun h => hc (by exact_mod_cast h)

/-- C98 (squares).  Full statement: `cry_mpi_sqr` leaves the exact square, the same object as in the default configuration,
for each choice of options.  Proved when the destination is not negative, for all lengths with Karatsuba or without Comba,
and below `2^w` digits otherwise.  Missing: Comba without Karatsuba for more digits; a negative destination keeps its sign
when Comba writes it (`sqr_options_sign_wrong`). -/
theorem sqr_options_partial {w : Nat} (hw : DigitWidth w) (o : MulOpts) (x : Mpi) (hx : Norm (2 ^ w) x)
    (hcap : o.comba = true → o.kara = true ∨ x.digs.length < 2 ^ w) :
    sqrOpt w o false x = sqr w false x ∧
    ∃ z, sqrOpt w o false x = some z ∧ z.toInt (2 ^ w) = x.toInt (2 ^ w) * x.toInt (2 ^ w) ∧ WF (2 ^ w) z := by
  have h := sqrOpt_spec hw.pos o hx hcap
  obtain ⟨z, h1, h2, h3, h4⟩ := sqr_spec hw.pos false hx
  have hz : z.neg = false := by rw [h4]; simp
  refine ⟨h, z, h.trans h1, ?_, wf_of_norm_false h3 hz⟩
  rw [toInt_false hz, h2, ← natAbs_toInt, ← Int.natAbs_mul]
  exact Int.natAbs_of_nonneg (mul_self_nonneg _)

/-- The square of 3 into a negative object: 9 without Comba, -9 with it. -/
theorem sqr_options_sign_wrong :
    sqrOpt 64 ⟨false, false, false⟩ true ⟨false, [3]⟩ = some ⟨false, [9]⟩ ∧
    sqrOpt 64 ⟨false, false, true⟩ true ⟨false, [3]⟩ = some ⟨true, [9]⟩ := by decide +kernel

/-- Two-digit factors with all eight choices; 65535 · -257 = -16842495. -/
example : ∀ t k c, mulOpt 8 ⟨t, k, c⟩ true ⟨false, [255, 255]⟩ ⟨true, [1, 1]⟩ = some ⟨true, [255, 254, 0, 1]⟩ ∧
    sqrOpt 8 ⟨t, k, c⟩ false ⟨true, [255, 255]⟩ = some ⟨false, [1, 0, 254, 255]⟩ := by decide +kernel

end Verif.Mpi
