import Verif.Props.Mpi.NumTheory
import Verif.Props.Mpi.AddSub
import Verif.Props.Mpi.Shift
import Verif.Props.Mpi.Conv
import Verif.Lemmas.Mpi.Str
/-! Non-negative numbers: a convenient form of the correctness theorems. -/
namespace Verif.Mpi

/-- `x` is the well-formed representation of the natural number `n`. -/
structure NatRep (w : Nat) (x : Mpi) (n : Nat) : Prop where
  norm : Norm (2 ^ w) x
  neg : x.neg = false
  value : val (2 ^ w) x.digs = n

namespace NatRep
variable {w : Nat} {x y : Mpi} {m n : Nat}

theorem wf (h : NatRep w x n) : WF (2 ^ w) x := wf_of_norm_false h.norm h.neg
theorem toInt (h : NatRep w x n) : x.toInt (2 ^ w) = n := by rw [toInt_false h.neg, h.value]
theorem rep (h : NatRep w x n) : Rep w x (n : Int) := ⟨h.norm, h.toInt⟩

theorem of_wf (h : WF (2 ^ w) x) (hn : x.toInt (2 ^ w) = n) : NatRep w x n := by
  have hneg : x.neg = false := by
    rw [← Bool.not_eq_true, neg_iff_of_wf h]; omega
  refine ⟨h.toNorm, hneg, ?_⟩
  rw [toInt_false hneg] at hn
  exact_mod_cast hn

theorem of_rep {v : Int} (h : Rep w x v) (hn : x.neg = false) (hv : v = n) : NatRep w x n :=
  of_wf (wf_of_norm_false h.1 hn) (by rw [h.2, hv])

theorem zero (w : Nat) : NatRep w ⟨false, []⟩ 0 := ⟨norm_zero _ _, rfl, rfl⟩

theorem digit (hw : 8 ≤ w) {d : Nat} (hd : d < 256) (h0 : d ≠ 0) : NatRep w ⟨false, [d]⟩ d :=
  ⟨(rep_digit hw hd h0).1, rfl, by simp⟩

theorem one (hw : 8 ≤ w) : NatRep w ⟨false, [1]⟩ 1 := digit hw (by omega) (by omega)

theorem unique (hx : NatRep w x n) (hy : NatRep w y n) : x = y := by
  obtain ⟨xs, xd⟩ := x
  obtain ⟨ys, yd⟩ := y
  have h1 : xs = false := hx.neg
  have h2 : ys = false := hy.neg
  have := val_inj (Nat.two_pow_pos w) hx.norm.digits hy.norm.digits hx.norm.top hy.norm.top
    (by rw [hx.value, hy.value])
  subst h1; subst h2
  congr

theorem digs_nil_iff (h : NatRep w x n) : x.digs = [] ↔ n = 0 := by
  rw [← toInt_eq_zero_iff (Nat.two_pow_pos w) h.norm, h.toInt]; omega

theorem isZero_iff (h : NatRep w x n) : isZero x = true ↔ n = 0 := by
  rw [isZero_correct x h.wf, h.toInt]; omega

theorem digs_one_iff (hw : 8 ≤ w) (h : NatRep w x n) : x.digs = [1] ↔ n = 1 := by
  constructor
  · intro e
    have := h.value
    rw [e] at this
    simpa using this.symm
  · rintro rfl
    rw [h.unique (one hw)]

theorem cmp_eq (hx : NatRep w x m) (hy : NatRep w y n) : cmp x y = 0 ↔ m = n := by
  rw [(cmp_correct (Nat.two_pow_pos w) x y hx.wf hy.wf).2.1, hx.toInt, hy.toInt]; omega

theorem cmp_lt (hx : NatRep w x m) (hy : NatRep w y n) : cmp x y < 0 ↔ m < n := by
  obtain ⟨h1, h2, h3⟩ := cmp_correct (Nat.two_pow_pos w) x y hx.wf hy.wf
  rw [hx.toInt, hy.toInt] at h1 h2 h3
  have h1' : cmp x y = -1 ↔ m < n := by rw [h1]; omega
  have h2' : cmp x y = 0 ↔ m = n := by rw [h2]; omega
  have h3' : cmp x y = 1 ↔ m > n := by rw [h3]; omega
  rcases Nat.lt_trichotomy m n with h | h | h
  · rw [h1'.2 h]; simp [h]
  · rw [h2'.2 h]; simp [h]
  · rw [h3'.2 h]; simp; omega

theorem cmpAbs_eq (hx : NatRep w x m) (hy : NatRep w y n) :
    (cmpAbs x y < 0 ↔ m < n) ∧ (cmpAbs x y = 0 ↔ m = n) := by
  have := cmpAbs_spec (Nat.two_pow_pos w) hx.norm hy.norm
  rw [hx.value, hy.value] at this
  omega

theorem isOdd_iff (hw : 8 ≤ w) (h : NatRep w x n) : isOdd x = true ↔ n % 2 = 1 := by
  rw [isOdd_correct (w := w) (by omega), h.toInt]; omega

theorem add (hw : 8 ≤ w) (hx : NatRep w x m) (hy : NatRep w y n) :
    ∃ z, Mpi.add (2 ^ w) x y = some z ∧ NatRep w z (m + n) := by
  obtain ⟨z, h1, h2, h3, h4⟩ := add_norm (one_lt_two_pow (w := w) (by omega)) hx.norm hy.norm
  refine ⟨z, h1, of_wf ⟨h3, fun e => ?_⟩ (by rw [h2, hx.toInt, hy.toInt]; push_cast; rfl)⟩
  cases hz : z.neg with
  | false => rfl
  | true =>
    have h := h4 e hz
    rw [hx.neg] at h
    simp at h

theorem sub (hw : 8 ≤ w) (hx : NatRep w x m) (hy : NatRep w y n) (hle : n ≤ m) :
    ∃ z, Mpi.sub (2 ^ w) x y = some z ∧ NatRep w z (m - n) := by
  obtain ⟨z, h1, h2, h3, h4⟩ := sub_norm (one_lt_two_pow (w := w) (by omega)) hx.norm hy.norm
  refine ⟨z, h1, of_wf ⟨h3, fun e => ?_⟩ (by rw [h2, hx.toInt, hy.toInt]; omega)⟩
  cases hz : z.neg with
  | false => rfl
  | true =>
    have h := h4 e hz
    rw [hx.neg] at h
    simp at h

/-- Subtraction in general: a well-formed integer. -/
theorem sub_int (hw : 8 ≤ w) (hx : NatRep w x m) (hy : NatRep w y n) :
    ∃ z, Mpi.sub (2 ^ w) x y = some z ∧ WF (2 ^ w) z ∧ z.toInt (2 ^ w) = (m : Int) - n := by
  obtain ⟨z, h1, h2, h3, h4⟩ := sub_norm (one_lt_two_pow (w := w) (by omega)) hx.norm hy.norm
  refine ⟨z, h1, ⟨h3, fun e => ?_⟩, by rw [h2, hx.toInt, hy.toInt]⟩
  cases hz : z.neg with
  | false => rfl
  | true =>
    have h := h4 e hz
    rw [hx.neg] at h
    simp at h

theorem mul (hw : 8 ≤ w) (old : Bool) (hx : NatRep w x m) (hy : NatRep w y n) :
    ∃ z, Mpi.mul w old x y = some z ∧ NatRep w z (m * n) := by
  obtain ⟨z, h1, h2, h3⟩ := mul_rep hw old hx.rep hy.rep
  exact ⟨z, h1, of_wf h3 (by rw [h2.2]; push_cast; rfl)⟩

theorem mod (hw : DigitWidth w) (hx : NatRep w x m) (hy : NatRep w y n) (hn : 0 < n) :
    ∃ z, Mpi.mod w .none x y = some z ∧ NatRep w z (m % n) := by
  obtain ⟨z, h1, h2, h3⟩ := mod_rep hw hx.rep (fun _ => hx.neg) hy.rep (by omega)
  exact ⟨z, h1, of_rep h2 h3 (by norm_cast)⟩

/-- Reduction of a possibly negative number. -/
theorem mod_int (hw : DigitWidth w) (hx : WF (2 ^ w) x) (hy : NatRep w y n) (hn : 0 < n) :
    ∃ z, Mpi.mod w .none x y = some z ∧ NatRep w z (x.toInt (2 ^ w) % n).toNat := by
  obtain ⟨z, h1, h2, h3⟩ := mod_rep hw (⟨hx.toNorm, rfl⟩ : Rep w x _) hx.zero_nonneg hy.rep (by omega)
  have := Int.emod_nonneg (x.toInt (2 ^ w)) (show (n : Int) ≠ 0 by omega)
  exact ⟨z, h1, of_rep h2 h3 (by omega)⟩

theorem modExp (hw : DigitWidth w) {b e p : Mpi} {bv ev pv : Nat} (hb : NatRep w b bv)
    (he : NatRep w e ev) (hp : NatRep w p pv) (hpos : 1 < pv) :
    ∃ z, Mpi.modExp w b e (some p) = some z ∧ NatRep w z (bv ^ ev % pv) := by
  obtain ⟨z, h1, h2, h3⟩ := modExp_correct_partial hw b e p hb.norm he.wf hp.wf
    (by rw [he.toInt]; omega) (by rw [hp.toInt]; omega) (by rw [hp.toInt]; omega)
  refine ⟨z, h1, of_wf h2 ?_⟩
  rw [h3, hb.toInt, he.toInt, hp.toInt, Int.toNat_natCast]
  norm_cast

theorem shr (hw : 8 ≤ w) (h : NatRep w x n) (k : Nat) : NatRep w (Mpi.shr w x k) (n / 2 ^ k) := by
  obtain ⟨h1, h2, h3⟩ := shr_spec (w := w) (by omega) h.norm k
  refine ⟨h2, ?_, by rw [h1, h.value]⟩
  have hn := h.neg
  unfold Mpi.shr Mpi.shrd
  split_ifs <;> simp [hn] <;> split <;> simp [hn]

end NatRep

theorem natRep_setInt {w : Nat} (hw : DigitWidth w) {v : Nat} (hv : v < 2 ^ 63) :
    ∃ x, setInt w (v : Int) = some x ∧ NatRep w x v := by
  obtain ⟨x, h1, h2, h3⟩ := setInt_correct_partial hw (v : Int) (by omega) (by omega)
  exact ⟨x, h1, NatRep.of_wf h2 h3⟩

end Verif.Mpi
