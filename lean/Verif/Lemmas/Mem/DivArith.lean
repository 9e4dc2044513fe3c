import Verif.Lemmas.Mpi.Div
/-! Arithmetic of one quotient digit, without reference to how the numbers are stored. -/
namespace Verif.Mpi

/-- The comparison in the correcting loop; `t2` has three digits, leading ones may be zero. -/
theorem corr_cmp {w yt1 yt : Nat} (hw : 0 < w) (h1 : yt1 < 2 ^ w) (hy : yt < 2 ^ w) {t2 : List Nat} (ht2 : Digits (2 ^ w) t2)
    (hl : t2.length = 3) {e : Nat} (he : e < 2 ^ w) {t1 : Mpi} (g2 : Norm (2 ^ w) t1) (hv : val (2 ^ w) t1.digs = e * (yt1 + 2 ^ w * yt))
    (g : Bool) :
    (cmpAbs t1 ⟨g, t2⟩ = 1 → val (2 ^ w) t2 < e * (yt1 + 2 ^ w * yt)) ∧
      (cmpAbs t1 ⟨g, t2⟩ ≠ 1 → e * (yt1 + 2 ^ w * yt) ≤ val (2 ^ w) t2 ∨ e * (yt1 + 2 ^ w * yt) < 2 ^ w * 2 ^ w) := by
  have hb := one_lt_two_pow hw
  have hlt : e * (yt1 + 2 ^ w * yt) < (2 ^ w) ^ 3 := by
    have : yt1 + 2 ^ w * yt < 2 ^ w * 2 ^ w := by
      have : 2 ^ w * (yt + 1) ≤ 2 ^ w * 2 ^ w := Nat.mul_le_mul_left _ hy
      rw [Nat.mul_add] at this; omega
    calc e * (yt1 + 2 ^ w * yt) < 2 ^ w * (2 ^ w * 2 ^ w) :=
          Nat.mul_lt_mul_of_lt_of_le he this.le (Nat.mul_pos (by omega) (by omega))
      _ = (2 ^ w) ^ 3 := by ring
  have hlen : t1.digs.length ≤ 3 := length_le_of_lt hb g2 (by rw [hv]; exact hlt)
  unfold cmpAbs
  simp only [hl]
  by_cases hl3 : t1.digs.length < 3
  · rw [if_pos hl3]
    refine ⟨fun h => by omega, fun _ => Or.inr ?_⟩
    rw [← hv]
    calc val (2 ^ w) t1.digs < (2 ^ w) ^ t1.digs.length := val_lt g2.digits
      _ ≤ (2 ^ w) ^ 2 := Nat.pow_le_pow_right (by omega) (by omega)
      _ = 2 ^ w * 2 ^ w := by ring
  · rw [if_neg hl3, if_neg (by omega)]
    have := cmpDigs_spec g2.digits ht2 (by omega)
    rw [hv] at this
    omega

/-- One quotient digit: the estimate is not below it, and what passes the test is at most one above. -/
theorem digit_arith {w X Y t k yt yt1 xi x1 x0 : Nat} (hw : 8 ≤ w) (hlo : 2 ^ (w - 2) * (2 ^ w) ^ t ≤ Y)
    (hhi : Y < 2 ^ (w - 1) * (2 ^ w) ^ t) (hX : X < Y * (2 ^ w) ^ (k + 1))
    (hyt : yt = Y / (2 ^ w) ^ t % 2 ^ w) (hyt1 : yt1 = if t = 0 then 0 else Y / (2 ^ w) ^ (t - 1) % 2 ^ w)
    (hxi : xi = X / (2 ^ w) ^ (t + (k + 1)) % 2 ^ w) (hx1 : x1 = X / (2 ^ w) ^ (t + k) % 2 ^ w)
    (hx0 : x0 = if t + (k + 1) ≤ 1 then 0 else X / (2 ^ w) ^ (t + (k + 1) - 2) % 2 ^ w) :
    0 < yt ∧ yt < 2 ^ w ∧ yt1 < 2 ^ w ∧ Digits (2 ^ w) [x0, x1, xi] ∧ X / (Y * (2 ^ w) ^ k) < 2 ^ w ∧
    ∃ e, divEst w xi x1 yt = some e ∧ e < 2 ^ w ∧ X / (Y * (2 ^ w) ^ k) ≤ e ∧
      X / (Y * (2 ^ w) ^ k) * (yt1 + 2 ^ w * yt) ≤ val (2 ^ w) [x0, x1, xi] ∧
      ∀ d, X / (Y * (2 ^ w) ^ k) ≤ d → d ≤ e →
        (d * (yt1 + 2 ^ w * yt) ≤ val (2 ^ w) [x0, x1, xi] ∨ d * (yt1 + 2 ^ w * yt) < 2 ^ w * 2 ^ w) → d ≤ X / (Y * (2 ^ w) ^ k) + 1 := by
  have hw0 : 0 < w := by omega
  have hb := one_lt_two_pow hw0
  have hb0 : 0 < 2 ^ w := by omega
  have hbk : 0 < (2 ^ w) ^ k := Nat.pow_pos hb0
  have hbt : 0 < (2 ^ w) ^ t := Nat.pow_pos hb0
  have hp2 : 64 ≤ 2 ^ (w - 2) := by
    calc 64 = 2 ^ 6 := by norm_num
      _ ≤ 2 ^ (w - 2) := Nat.pow_le_pow_right (by omega) (by omega)
  have hp4 : 2 ^ w = 4 * 2 ^ (w - 2) := by
    rw [show w = (w - 2) + 2 by omega, pow_add]; simp; ring
  have hp1 : 2 ^ (w - 1) = 2 * 2 ^ (w - 2) := by
    rw [show w - 1 = (w - 2) + 1 by omega, pow_succ]; ring
  have hY0 : 0 < Y := lt_of_lt_of_le (Nat.mul_pos (by omega) hbt) hlo
  have hYk : 0 < Y * (2 ^ w) ^ k := Nat.mul_pos hY0 hbk
  have hytlo : 2 ^ (w - 2) ≤ Y / (2 ^ w) ^ t := (Nat.le_div_iff_mul_le hbt).2 hlo
  have hythi : Y / (2 ^ w) ^ t < 2 ^ (w - 1) := (Nat.div_lt_iff_lt_mul hbt).2 hhi
  have hyt : yt = Y / (2 ^ w) ^ t := by rw [hyt, Nat.mod_eq_of_lt (by omega)]
  have hyt1lt : yt1 < 2 ^ w := by
    rw [hyt1]; split
    · exact hb0
    · exact Nat.mod_lt _ hb0
  have hY2 : Y * 2 ^ w / (2 ^ w) ^ t = yt1 + 2 ^ w * (Y / (2 ^ w) ^ t) := by
    rw [hyt1]
    split
    next h => subst h; simp; ring
    next h =>
      obtain ⟨u, rfl⟩ : ∃ u, t = u + 1 := ⟨t - 1, by omega⟩
      rw [Nat.add_sub_cancel]
      have := div_step_eq (X := Y) (m := u) hb0
      rw [pow_succ (2 ^ w) u, Nat.mul_div_mul_right _ _ hb0, ← pow_succ, Nat.mul_comm (2 ^ w)]
      omega
  have hxilt : xi < 2 ^ w := by rw [hxi]; exact Nat.mod_lt _ hb0
  have hxi : xi = X / (2 ^ w) ^ (t + (k + 1)) := by
    rw [hxi, Nat.mod_eq_of_lt]
    rw [Nat.div_lt_iff_lt_mul (Nat.pow_pos hb0)]
    calc X < Y * (2 ^ w) ^ (k + 1) := hX
      _ ≤ 2 ^ (w - 1) * (2 ^ w) ^ t * (2 ^ w) ^ (k + 1) := Nat.mul_le_mul_right _ hhi.le
      _ ≤ 2 ^ w * (2 ^ w) ^ t * (2 ^ w) ^ (k + 1) :=
          Nat.mul_le_mul_right _ (Nat.mul_le_mul_right _ (by omega))
      _ = 2 ^ w * (2 ^ w) ^ (t + (k + 1)) := by rw [pow_add]; ring
  have hx1lt : x1 < 2 ^ w := by rw [hx1]; exact Nat.mod_lt _ hb0
  have hX2 : xi * 2 ^ w + x1 = X / (2 ^ w) ^ (t + k) := by
    rw [hxi, hx1]; exact div_step_eq (m := t + k) hb0
  have hx0lt : x0 < 2 ^ w := by
    rw [hx0]; split
    · exact hb0
    · exact Nat.mod_lt _ hb0
  have hX3 : X * 2 ^ w / (2 ^ w) ^ (t + k) = x0 + 2 ^ w * (X / (2 ^ w) ^ (t + k)) := by
    rw [hx0]
    split
    next h =>
      have : t + k = 0 := by omega
      rw [this]; simp; ring
    next h =>
      obtain ⟨u, hu'⟩ : ∃ u, t + k = u + 1 := ⟨t + k - 1, by omega⟩
      rw [show t + (k + 1) - 2 = u by omega, hu']
      have := div_step_eq (X := X) (m := u) hb0
      rw [pow_succ (2 ^ w) u, Nat.mul_div_mul_right _ _ hb0, ← pow_succ, Nat.mul_comm (2 ^ w)]
      omega
  obtain ⟨Q, hQ⟩ : ∃ Q, Q = X / (Y * (2 ^ w) ^ k) := ⟨_, rfl⟩
  have hQle : Q * Y * (2 ^ w) ^ k ≤ X := by
    rw [Nat.mul_assoc, hQ]; exact Nat.div_mul_le_self _ _
  have hQmax : ∀ d, d * Y * (2 ^ w) ^ k ≤ X → d ≤ Q := by
    intro d hd
    rw [hQ, Nat.le_div_iff_mul_le hYk, ← Nat.mul_assoc]; exact hd
  have hQb : Q < 2 ^ w := by
    rw [hQ, Nat.div_lt_iff_lt_mul hYk]
    calc X < Y * (2 ^ w) ^ (k + 1) := hX
      _ = 2 ^ w * (Y * (2 ^ w) ^ k) := by rw [pow_succ]; ring
  have hD := est_lower (t := t) hb0 1 hQle
  have hA := est_lower (t := t) hb0 (2 ^ w) hQle
  rw [Nat.mul_one, Nat.mul_one, ← hX2, ← hyt] at hD
  rw [hY2, hX3, ← hX2, ← hyt] at hA
  have hB := fun d => est_upper (k := k) (q := d) (Y := Y) (X := X) (t := t) (c := 2 ^ w) hb0 hb0
  have hC := fun d => est_upper (k := k) (q := d) (Y := Y) (X := X) (t := t) (c := 1) hb0
    Nat.one_pos
  rw [hY2, hX3, ← hX2, ← hyt] at hB
  simp only [Nat.mul_one] at hC
  rw [← hX2, ← hyt] at hC
  rw [← hyt] at hytlo hythi
  rw [← hQ]
  obtain ⟨e, e1, e2, e3, e4⟩ := divEst_spec hxilt hx1lt (yt := yt) (by omega)
  have ht2v : val (2 ^ w) [x0, x1, xi] = x0 + 2 ^ w * (xi * 2 ^ w + x1) := by
    simp only [val_cons, val_nil]; ring
  refine ⟨by omega, by omega, hyt1lt, by simp [hx0lt, hx1lt, hxilt], hQb, e, e1, e2, e3 Q hQb hD, by rw [ht2v]; exact hA, ?_⟩
  intro d d2 d3 d4
  rw [ht2v] at d4
  have : d - 1 ≤ Q := by
    rcases d4 with d4 | d4
    · refine hQmax _ (hB d d4 ?_)
      have : 2 ^ w * 1 ≤ 2 ^ w * yt := Nat.mul_le_mul_left _ (by omega)
      omega
    · have hlt : d * yt < 2 ^ w := by
        have : 2 ^ w * (d * yt) < 2 ^ w * 2 ^ w := by
          refine lt_of_le_of_lt ?_ d4
          rw [Nat.mul_add, Nat.mul_left_comm]
          omega
        exact Nat.lt_of_mul_lt_mul_left this
      have hd3 : d ≤ 3 := by
        by_contra hcon
        have : 4 * yt ≤ d * yt := Nat.mul_le_mul_right _ (by omega)
        omega
      refine hQmax _ (hC d ?_ (by omega))
      by_cases hxy : xi = yt
      · rw [hxy]
        have : yt * 1 ≤ yt * 2 ^ w := Nat.mul_le_mul_left _ (by omega)
        have h6 : d * yt ≤ 2 ^ w * yt := Nat.mul_le_mul_right _ (by omega)
        rw [Nat.mul_comm (2 ^ w)] at h6
        omega
      · exact le_trans (Nat.mul_le_mul_right _ d3) (e4 hxy)
  omega

end Verif.Mpi
