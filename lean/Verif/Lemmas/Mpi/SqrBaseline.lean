import Verif.Lemmas.Mpi.Mul
namespace Verif.Mpi

theorem sqrCarry_spec {w : Nat} (hw : 2 ≤ w) : ∀ (ts : List Nat) (c : Nat), Digits (2 ^ w) ts →
    c < 2 * 2 ^ w → val (2 ^ w) ts + c < (2 ^ w) ^ ts.length →
    ∃ rs, sqrCarry w ts c = some rs ∧ val (2 ^ w) rs = val (2 ^ w) ts + c ∧ Digits (2 ^ w) rs ∧
      rs.length = ts.length
  | ts, 0, hd, _, _ => ⟨ts, by simp [sqrCarry], by simp, hd, rfl⟩
  | [], c + 1, _, _, h => by simp at h
  | t :: ts, c + 1, hd, hc, h => by
    rw [digits_cons] at hd
    have hb : 4 ≤ 2 ^ w := by
      calc 4 = 2 ^ 2 := rfl
        _ ≤ 2 ^ w := Nat.pow_le_pow_right (by omega) hw
    have e2 : 2 ^ (2 * w) = 2 ^ w * 2 ^ w := by rw [two_mul, pow_add]
    have hlt : t + (c + 1) < 2 ^ (2 * w) := by
      rw [e2]
      have : 4 * 2 ^ w ≤ 2 ^ w * 2 ^ w := Nat.mul_le_mul_right _ hb
      omega
    have hdm := Nat.div_add_mod (t + (c + 1)) (2 ^ w)
    have hq : (t + (c + 1)) / 2 ^ w < 2 * 2 ^ w := by
      rw [Nat.div_lt_iff_lt_mul (by omega)]
      have : 4 * 2 ^ w ≤ 2 ^ w * 2 ^ w := Nat.mul_le_mul_right _ hb
      have e : 2 * 2 ^ w * 2 ^ w = 2 * (2 ^ w * 2 ^ w) := by ring
      omega
    simp only [val_cons, List.length_cons] at h ⊢
    unfold sqrCarry
    simp only [Nat.mod_eq_of_lt hlt]
    generalize hqq : (t + (c + 1)) / 2 ^ w = q at *
    have hm : (t + (c + 1)) % 2 ^ w < 2 ^ w := Nat.mod_lt _ (by omega)
    generalize (t + (c + 1)) % 2 ^ w = m at *
    have hfit : val (2 ^ w) ts + q < (2 ^ w) ^ ts.length := by
      rw [pow_succ] at h
      apply Nat.lt_of_mul_lt_mul_right (a := 2 ^ w)
      have : (val (2 ^ w) ts + q) * 2 ^ w = 2 ^ w * val (2 ^ w) ts + 2 ^ w * q := by ring
      omega
    obtain ⟨rs, h1, h2, h3, h4⟩ := sqrCarry_spec hw ts q hd.2 hq hfit
    refine ⟨m :: rs, by rw [h1]; rfl, ?_, ?_, by simp [h4]⟩
    · rw [val_cons, h2, Nat.mul_add]; omega
    · rw [digits_cons]; exact ⟨hm, h3⟩

theorem and_two_pow_eq (n k : Nat) : n &&& 2 ^ k = (n.testBit k).toNat * 2 ^ k := by
  apply Nat.eq_of_testBit_eq
  intro i
  rw [Nat.testBit_and, Nat.testBit_two_pow]
  by_cases h : k = i
  · subst h
    cases n.testBit k <;> simp
  · cases n.testBit k <;> simp [h, Nat.testBit_two_pow]

/-- One inner step of the baseline squaring: twice the product plus digit plus carry, with the
carry-out in `ch`. -/
theorem sqrRow_step {w x y t c : Nat} (hw : 2 ≤ w) (hx : x < 2 ^ w) (hy : y < 2 ^ w)
    (ht : t < 2 ^ w) (hc : c < 2 * 2 ^ w) :
    let dd := x * y
    let ch := (dd &&& (1 <<< (2 * w - 1))) >>> (w - 1)
    let dd := (dd <<< 1) % 2 ^ (2 * w)
    let dd := (dd + (t + c)) % 2 ^ (2 * w)
    let ch := if ch = 0 ∧ dd < t + c then 1 <<< w else ch
    (ch ||| (dd / 2 ^ w)) < 2 * 2 ^ w ∧
    dd % 2 ^ w + 2 ^ w * (ch ||| (dd / 2 ^ w)) = 2 * (x * y) + t + c := by
  intro dd0 ch0 dd1 dd2 ch
  have hb : 4 ≤ 2 ^ w := by
    calc 4 = 2 ^ 2 := rfl
      _ ≤ 2 ^ w := Nat.pow_le_pow_right (by omega) hw
  have e2 : 2 ^ (2 * w) = 2 ^ w * 2 ^ w := by rw [two_mul, pow_add]
  have e3 : 2 ^ (2 * w) = 2 * 2 ^ (2 * w - 1) := by
    rw [← pow_succ']; congr 1; omega
  have hP : x * y < 2 ^ (2 * w) := by
    rw [e2]; exact Nat.mul_lt_mul_of_lt_of_le hx (by omega) (by omega)
  have htot : 2 * (x * y) + t + c < 2 * 2 ^ (2 * w) := by
    rw [e2]
    obtain ⟨k, hk⟩ : ∃ k, 2 ^ w = k + 1 := ⟨2 ^ w - 1, by omega⟩
    rw [hk] at hx hy ht hc hb ⊢
    have : x * y ≤ k * k := Nat.mul_le_mul (by omega) (by omega)
    have e : (k + 1) * (k + 1) = k * k + 2 * k + 1 := by ring
    omega
  have hch0 : ch0 = if 2 ^ (2 * w - 1) ≤ x * y then 2 ^ w else 0 := by
    show (x * y &&& (1 <<< (2 * w - 1))) >>> (w - 1) = _
    rw [Nat.one_shiftLeft, and_two_pow_eq, Nat.testBit_eq_decide_div_mod_eq]
    split
    next h =>
      have : x * y / 2 ^ (2 * w - 1) = 1 := by
        apply Nat.div_eq_of_lt_le <;> omega
      rw [this, Nat.shiftRight_eq_div_pow]
      simp only [Nat.one_mod, decide_true, Bool.toNat_true, one_mul]
      have : 2 ^ (2 * w - 1) = 2 ^ w * 2 ^ (w - 1) := by rw [← pow_add]; congr 1; omega
      rw [this, Nat.mul_div_cancel _ (Nat.two_pow_pos _)]
    next h =>
      have : x * y / 2 ^ (2 * w - 1) = 0 := Nat.div_eq_of_lt (by omega)
      rw [this]; simp
  have hdd1 : dd1 = (2 * (x * y)) % 2 ^ (2 * w) := by
    show (x * y) <<< 1 % _ = _
    rw [Nat.shiftLeft_eq, pow_one, Nat.mul_comm]
  have hdd2 : dd2 = (2 * (x * y) + t + c) % 2 ^ (2 * w) := by
    show (dd1 + (t + c)) % _ = _
    rw [hdd1, Nat.mod_add_mod, Nat.add_assoc]
  have hres : dd2 + (if ch = 0 then 0 else 2 ^ (2 * w)) = 2 * (x * y) + t + c ∧
      (ch = 0 ∨ ch = 2 ^ w) := by
    show _ + (if (if ch0 = 0 ∧ dd2 < t + c then 1 <<< w else ch0) = 0 then 0 else _) = _ ∧
      ((if ch0 = 0 ∧ dd2 < t + c then 1 <<< w else ch0) = 0 ∨
        (if ch0 = 0 ∧ dd2 < t + c then 1 <<< w else ch0) = 2 ^ w)
    rw [Nat.one_shiftLeft, hdd2, hch0]
    have hb0 : 2 ^ w ≠ 0 := by omega
    by_cases h : 2 ^ (2 * w - 1) ≤ x * y
    · simp only [h, if_true, hb0, false_and, if_false, or_true, and_true]
      rw [Nat.mod_eq_sub_mod (by omega), Nat.mod_eq_of_lt (by omega)]; omega
    · simp only [h, if_false, true_and]
      by_cases h2 : 2 * (x * y) + t + c < 2 ^ (2 * w)
      · rw [Nat.mod_eq_of_lt h2]
        have : ¬ (2 * (x * y) + t + c < t + c) := by omega
        simp [this]
      · rw [Nat.mod_eq_sub_mod (by omega), Nat.mod_eq_of_lt (by omega)]
        have : 2 * (x * y) + t + c - 2 ^ (2 * w) < t + c := by omega
        simp only [this, if_true, hb0, if_false, or_true, and_true]
        omega
  obtain ⟨hr, hcase⟩ := hres
  have hd2 : dd2 < 2 ^ w * 2 ^ w := by rw [← e2, hdd2]; exact Nat.mod_lt _ (Nat.two_pow_pos _)
  have hq : dd2 / 2 ^ w < 2 ^ w := by rw [Nat.div_lt_iff_lt_mul (by omega)]; exact hd2
  have hdm := Nat.div_add_mod dd2 (2 ^ w)
  rcases hcase with h | h
  · rw [h, Nat.zero_or]
    rw [if_pos h] at hr
    exact ⟨by omega, by omega⟩
  · rw [if_neg (by omega)] at hr
    have : ch ||| dd2 / 2 ^ w = 2 ^ w + dd2 / 2 ^ w := by
      have := or_eq_add_mul (q := 1) hq
      rw [one_mul] at this
      rw [h, this]
    rw [this, Nat.mul_add]
    rw [e2] at hr
    exact ⟨by omega, by omega⟩

theorem sqrRow_spec {w x : Nat} (hw : 2 ≤ w) (hx : x < 2 ^ w) : ∀ (ys ts : List Nat) (c : Nat),
    Digits (2 ^ w) ys → Digits (2 ^ w) ts → c < 2 * 2 ^ w →
    val (2 ^ w) ts + 2 * (x * val (2 ^ w) ys) + c < (2 ^ w) ^ ts.length → ys.length ≤ ts.length →
    ∃ rs, sqrRow w x ys ts c = some rs ∧
      val (2 ^ w) rs = val (2 ^ w) ts + 2 * (x * val (2 ^ w) ys) + c ∧ Digits (2 ^ w) rs ∧
      rs.length = ts.length
  | [], ts, c, _, ht, hc, h, _ => by
    simp only [val_nil, Nat.mul_zero, Nat.add_zero] at h ⊢
    unfold sqrRow
    exact sqrCarry_spec hw ts c ht hc h
  | _ :: _, [], _, _, _, _, _, h => by simp at h
  | y :: ys, t :: ts, c, hy, ht, hc, h, hl => by
    rw [digits_cons] at hy ht
    have hb : 0 < 2 ^ w := Nat.two_pow_pos w
    obtain ⟨s1, s2⟩ := sqrRow_step hw hx hy.1 ht.1 hc
    unfold sqrRow
    simp only [val_cons, List.length_cons] at h hl ⊢
    generalize hCH : ((if (x * y &&& 1 <<< (2 * w - 1)) >>> (w - 1) = 0 ∧
      ((x * y) <<< 1 % 2 ^ (2 * w) + (t + c)) % 2 ^ (2 * w) < t + c then 1 <<< w
      else (x * y &&& 1 <<< (2 * w - 1)) >>> (w - 1)) |||
      ((x * y) <<< 1 % 2 ^ (2 * w) + (t + c)) % 2 ^ (2 * w) / 2 ^ w) = q at *
    have hm : ((x * y) <<< 1 % 2 ^ (2 * w) + (t + c)) % 2 ^ (2 * w) % 2 ^ w < 2 ^ w :=
      Nat.mod_lt _ hb
    generalize ((x * y) <<< 1 % 2 ^ (2 * w) + (t + c)) % 2 ^ (2 * w) % 2 ^ w = m at *
    have e : t + 2 ^ w * val (2 ^ w) ts + 2 * (x * (y + 2 ^ w * val (2 ^ w) ys)) + c =
        m + 2 ^ w * (val (2 ^ w) ts + 2 * (x * val (2 ^ w) ys) + q) := by
      have : m + 2 ^ w * (val (2 ^ w) ts + 2 * (x * val (2 ^ w) ys) + q) =
        (m + 2 ^ w * q) + 2 ^ w * val (2 ^ w) ts + 2 * (x * (2 ^ w * val (2 ^ w) ys)) := by ring
      rw [this, s2]; ring
    rw [e] at h ⊢
    have hfit : val (2 ^ w) ts + 2 * (x * val (2 ^ w) ys) + q < (2 ^ w) ^ ts.length := by
      rw [pow_succ] at h
      apply Nat.lt_of_mul_lt_mul_left (a := 2 ^ w)
      rw [Nat.mul_comm _ (2 ^ w)] at h
      omega
    obtain ⟨rs, h1, h2, h3, h4⟩ := sqrRow_spec hw hx ys ts q hy.2 ht.2 s1 hfit (by omega)
    refine ⟨m :: rs, by rw [h1]; rfl, by rw [val_cons, h2], ?_, by simp [h4]⟩
    rw [digits_cons]; exact ⟨hm, h3⟩

theorem sqrRows_spec {w : Nat} (hw : 2 ≤ w) : ∀ (xs ts : List Nat), Digits (2 ^ w) xs →
    Digits (2 ^ w) ts → 2 * xs.length + 1 ≤ ts.length →
    val (2 ^ w) ts + val (2 ^ w) xs * val (2 ^ w) xs < (2 ^ w) ^ ts.length →
    ∃ rs, sqrRows w xs ts = some rs ∧
      val (2 ^ w) rs = val (2 ^ w) ts + val (2 ^ w) xs * val (2 ^ w) xs ∧ Digits (2 ^ w) rs
  | [], ts, _, ht, _, _ => ⟨ts, by simp [sqrRows], by simp, ht⟩
  | _ :: _, [], _, _, h, _ => by simp at h
  | x :: xs, t :: ts, hx, ht, hl, h => by
    rw [digits_cons] at hx ht
    have hb : 4 ≤ 2 ^ w := by
      calc 4 = 2 ^ 2 := rfl
        _ ≤ 2 ^ w := Nat.pow_le_pow_right (by omega) hw
    have e2 : 2 ^ (2 * w) = 2 ^ w * 2 ^ w := by rw [two_mul, pow_add]
    simp only [val_cons, List.length_cons] at h hl ⊢
    have hlt : t + x * x < 2 ^ (2 * w) := by
      rw [e2]
      have hx1 := hx.1; have ht1 := ht.1
      obtain ⟨k, hk⟩ : ∃ k, 2 ^ w = k + 1 := ⟨2 ^ w - 1, by omega⟩
      rw [hk] at hx1 ht1 ⊢
      have : x * x ≤ k * k := Nat.mul_le_mul (by omega) (by omega)
      have e : (k + 1) * (k + 1) = k * k + 2 * k + 1 := by ring
      omega
    have hq : (t + x * x) / 2 ^ w < 2 * 2 ^ w := by
      have : (t + x * x) / 2 ^ w < 2 ^ w := by
        rw [Nat.div_lt_iff_lt_mul (by omega), ← e2]; exact hlt
      omega
    have hdm := Nat.div_add_mod (t + x * x) (2 ^ w)
    unfold sqrRows
    simp only [Nat.mod_eq_of_lt hlt]
    generalize (t + x * x) / 2 ^ w = q at *
    have hm : (t + x * x) % 2 ^ w < 2 ^ w := Nat.mod_lt _ (by omega)
    generalize (t + x * x) % 2 ^ w = m at *
    generalize hX : val (2 ^ w) xs = X at *
    have e : t + 2 ^ w * val (2 ^ w) ts + (x + 2 ^ w * X) * (x + 2 ^ w * X) =
        m + 2 ^ w * ((val (2 ^ w) ts + 2 * (x * X) + q) + 2 ^ w * (X * X)) := by
      have : t + 2 ^ w * val (2 ^ w) ts + (x + 2 ^ w * X) * (x + 2 ^ w * X) =
        (t + x * x) + 2 ^ w * (val (2 ^ w) ts + 2 * (x * X) + 2 ^ w * (X * X)) := by ring
      rw [this, ← hdm]; ring
    rw [e] at h ⊢
    have hfit : (val (2 ^ w) ts + 2 * (x * X) + q) + 2 ^ w * (X * X) < (2 ^ w) ^ ts.length := by
      rw [pow_succ] at h
      apply Nat.lt_of_mul_lt_mul_left (a := 2 ^ w)
      rw [Nat.mul_comm _ (2 ^ w)] at h
      omega
    obtain ⟨rs, h1, h2, h3, h4⟩ := sqrRow_spec hw hx.1 xs ts q hx.2 ht.2 hq
      (by rw [hX]; omega) (by omega)
    rw [h1]
    cases rs with
    | nil => simp at h4; omega
    | cons t1 ts' =>
      simp only [List.length_cons] at h4
      rw [hX] at h2
      rw [← h2, val_cons] at hfit ⊢
      rw [digits_cons] at h3
      have hfit2 : val (2 ^ w) ts' + val (2 ^ w) xs * val (2 ^ w) xs < (2 ^ w) ^ ts'.length := by
        rw [hX]
        rw [← h4, pow_succ, Nat.mul_comm _ (2 ^ w)] at hfit
        apply Nat.lt_of_mul_lt_mul_left (a := 2 ^ w)
        rw [Nat.mul_add]
        omega
      obtain ⟨r, g1, g2, g3⟩ := sqrRows_spec hw xs ts' hx.2 h3.2 (by omega) hfit2
      refine ⟨m :: t1 :: r, by simp only; rw [g1]; rfl, ?_, ?_⟩
      · simp only [val_cons]
        rw [g2, hX]; ring
      · simp only [digits_cons]
        exact ⟨hm, h3.1, g3⟩

theorem sqrBaseline_spec {w : Nat} (hw : 2 ≤ w) {x : Mpi} (hx : Norm (2 ^ w) x) :
    ∃ z, sqrBaseline w x = some z ∧
      val (2 ^ w) z.digs = val (2 ^ w) x.digs * val (2 ^ w) x.digs ∧ Norm (2 ^ w) z ∧
      z.neg = false := by
  have hb : 0 < 2 ^ w := Nat.two_pow_pos w
  unfold sqrBaseline
  split
  next h => exact ⟨_, rfl, by simp [h], norm_zero _ _, rfl⟩
  next h =>
    have hv := val_lt hx.digits
    obtain ⟨rs, h1, h2, h3⟩ := sqrRows_spec hw x.digs (List.replicate (2 * x.digs.length + 1) 0)
      hx.digits (digits_replicate_zero hb _) (by simp) (by
        rw [val_replicate_zero, List.length_replicate, Nat.zero_add]
        calc val (2 ^ w) x.digs * val (2 ^ w) x.digs
            < (2 ^ w) ^ x.digs.length * (2 ^ w) ^ x.digs.length := by
              exact Nat.mul_lt_mul_of_lt_of_le hv hv.le (by omega)
          _ = (2 ^ w) ^ (2 * x.digs.length) := by rw [← pow_add]; congr 1; omega
          _ ≤ (2 ^ w) ^ (2 * x.digs.length + 1) := Nat.pow_le_pow_right hb (by omega))
    rw [h1]
    refine ⟨_, rfl, ?_, ⟨digits_adjust h3, topNZ_adjust _⟩, rfl⟩
    simp only [val_adjust]
    rw [h2, val_replicate_zero, Nat.zero_add]

end Verif.Mpi
