import Verif.Lemmas.Mpi.Inv
import Mathlib.Data.Nat.GCD.Basic
import Mathlib.Algebra.Order.Ring.Nat
namespace Verif.Mpi

/-! ## trailing zero bits -/

theorem lsbDig_spec (d : Nat) : ∀ (n j : Nat), d < 2 ^ (j + n) → d / 2 ^ j ≠ 0 →
    ∃ k, d / 2 ^ j = 2 ^ lsbDig d n j * (2 * k + 1)
  | 0, j, h, h0 => absurd (Nat.div_eq_of_lt h) h0
  | n + 1, j, h, h0 => by
    unfold lsbDig
    rw [Nat.shiftRight_eq_div_pow, Nat.and_one_is_mod]
    have hdiv : d / 2 ^ (j + 1) = d / 2 ^ j / 2 := by rw [pow_succ, Nat.div_div_eq_div_mul]
    split
    next ho => exact ⟨d / 2 ^ j / 2, by simp; omega⟩
    next ho =>
      obtain ⟨k, hk⟩ := lsbDig_spec d n (j + 1) (by rwa [show j + 1 + n = j + (n + 1) by omega])
        (by rw [hdiv]; omega)
      refine ⟨k, ?_⟩
      rw [pow_succ', Nat.mul_assoc, ← hk, hdiv]
      omega

theorem lsb_spec {w : Nat} (junk : Nat) : ∀ {ds : List Nat}, Digits (2 ^ w) ds →
    val (2 ^ w) ds ≠ 0 → ∃ k, val (2 ^ w) ds = 2 ^ lsb w junk ds * (2 * k + 1)
  | [], _, h => absurd rfl h
  | d :: ds, hd, h => by
    rw [digits_cons] at hd
    rw [lsb]
    split
    next h0 =>
      subst h0
      rw [val_cons, Nat.zero_add] at h ⊢
      obtain ⟨k, hk⟩ := lsb_spec junk hd.2 (fun e => h (by rw [e]; rfl))
      exact ⟨k, by rw [hk, pow_add]; ring⟩
    next h0 =>
      obtain ⟨k, hk⟩ := lsbDig_spec d w 0 (by simpa using hd.1) (by simpa using h0)
      simp only [pow_zero, Nat.div_one] at hk
      have hl : lsbDig d w 0 < w := by
        by_contra hc
        have : 2 ^ w ≤ 2 ^ lsbDig d w 0 := Nat.pow_le_pow_right (by omega) (by omega)
        have h2 : 2 ^ lsbDig d w 0 * 1 ≤ d := by
          conv_rhs => rw [hk]
          exact Nat.mul_le_mul_left _ (by omega)
        have := hd.1
        omega
      generalize lsbDig d w 0 = l at *
      refine ⟨k + 2 ^ (w - l - 1) * val (2 ^ w) ds, ?_⟩
      have e : 2 ^ w = 2 ^ l * (2 * 2 ^ (w - l - 1)) := by
        rw [← pow_succ', ← pow_add]; congr 1; omega
      rw [val_cons, hk]
      generalize val (2 ^ w) ds = V
      conv_lhs => rw [e]
      ring

/-! ## gcd of odd parts -/

theorem gcd_pow_two_mul (i a b : Nat) : Nat.gcd (2 ^ i * a) (2 * b + 1) = Nat.gcd a (2 * b + 1) := by
  apply Nat.Coprime.gcd_mul_left_cancel
  apply Nat.Coprime.pow_left
  show Nat.gcd 2 (2 * b + 1) = 1
  rw [Nat.gcd_rec, show (2 * b + 1) % 2 = 1 by omega]
  rfl

theorem gcd_two_parts (i j a b : Nat) : Nat.gcd (2 ^ i * (2 * a + 1)) (2 ^ j * (2 * b + 1)) =
    2 ^ min i j * Nat.gcd (2 * a + 1) (2 * b + 1) := by
  rcases Nat.le_total i j with h | h
  · rw [Nat.min_eq_left h]
    obtain ⟨k, rfl⟩ := Nat.exists_eq_add_of_le h
    rw [pow_add, Nat.mul_assoc (2 ^ i) (2 ^ k), Nat.gcd_mul_left, Nat.gcd_comm, gcd_pow_two_mul,
      Nat.gcd_comm]
  · rw [Nat.min_eq_right h]
    obtain ⟨k, rfl⟩ := Nat.exists_eq_add_of_le h
    rw [pow_add, Nat.mul_assoc (2 ^ j) (2 ^ k), Nat.gcd_mul_left, gcd_pow_two_mul]

theorem shr_lsb {w : Nat} (hw : 0 < w) (junk : Nat) {x : Mpi} (hx : Norm (2 ^ w) x)
    (h0 : 0 < val (2 ^ w) x.digs) :
    ∃ k, val (2 ^ w) x.digs = 2 ^ lsb w junk x.digs * (2 * k + 1) ∧
      val (2 ^ w) (shr w x (lsb w junk x.digs)).digs = 2 * k + 1 ∧
      Norm (2 ^ w) (shr w x (lsb w junk x.digs)) ∧
      (shr w x (lsb w junk x.digs)).neg = x.neg := by
  obtain ⟨k, hk⟩ := lsb_spec junk hx.digits (by omega)
  obtain ⟨s1, s2, s3⟩ := shr_spec hw hx (lsb w junk x.digs)
  have hv : val (2 ^ w) (shr w x (lsb w junk x.digs)).digs = 2 * k + 1 := by
    rw [s1]
    conv_lhs => rw [hk]
    exact Nat.mul_div_cancel_left _ (Nat.two_pow_pos _)
  refine ⟨k, hk, hv, s2, ?_⟩
  rcases s3 with h | h
  · exact h
  · rw [h, val_nil] at hv; omega

/-- The loop computes the gcd of the odd parts.  The sign of the result is that of `ty` or
positive. -/
theorem gcdLoop_spec {w : Nat} (hw : 0 < w) (jx jy : Nat) : ∀ (fuel : Nat) {tx ty : Mpi},
    Norm (2 ^ w) tx → Norm (2 ^ w) ty → ∀ {i j a b : Nat},
    val (2 ^ w) tx.digs = 2 ^ i * (2 * a + 1) → val (2 ^ w) ty.digs = 2 ^ j * (2 * b + 1) →
    val (2 ^ w) tx.digs + val (2 ^ w) ty.digs < fuel →
    ∃ z, gcdLoop w jx jy fuel tx ty = some z ∧ Norm (2 ^ w) z ∧
      val (2 ^ w) z.digs = Nat.gcd (2 * a + 1) (2 * b + 1) ∧ (z.neg = true → ty.neg = true)
  | 0, _, _, _, _, _, _, _, _, _, _, h => by omega
  | fuel + 1, tx, ty, hx, hy, i, j, a, b, hvx, hvy, hf => by
    have hb1 := one_lt_two_pow hw
    have hx0 : 0 < val (2 ^ w) tx.digs := by rw [hvx]; positivity
    have hy0 : 0 < val (2 ^ w) ty.digs := by rw [hvy]; positivity
    obtain ⟨a', ha', hxv, hxn, hxs⟩ := shr_lsb hw jx hx hx0
    obtain ⟨b', hb', hyv, hyn, hys⟩ := shr_lsb hw jy hy hy0
    have odd_unique : ∀ i k a b : Nat, 2 ^ i * (2 * a + 1) = 2 ^ k * (2 * b + 1) → a = b := by
      intro i k a b h
      rcases Nat.lt_trichotomy i k with hik | hik | hik
      · exfalso
        obtain ⟨m, rfl⟩ := Nat.exists_eq_add_of_lt hik
        rw [show i + m + 1 = i + (m + 1) by omega, pow_add, Nat.mul_assoc] at h
        have := Nat.eq_of_mul_eq_mul_left (Nat.two_pow_pos i) h
        rw [pow_succ', Nat.mul_assoc] at this
        omega
      · subst hik
        have := Nat.eq_of_mul_eq_mul_left (Nat.two_pow_pos i) h
        omega
      · exfalso
        obtain ⟨m, rfl⟩ := Nat.exists_eq_add_of_lt hik
        rw [show k + m + 1 = k + (m + 1) by omega, pow_add, Nat.mul_assoc] at h
        have := Nat.eq_of_mul_eq_mul_left (Nat.two_pow_pos k) h
        rw [pow_succ', Nat.mul_assoc] at this
        omega
    have hxle : 2 * a' + 1 ≤ val (2 ^ w) tx.digs := by
      rw [ha']; exact Nat.le_mul_of_pos_left _ (Nat.two_pow_pos _)
    have hyle : 2 * b' + 1 ≤ val (2 ^ w) ty.digs := by
      rw [hb']; exact Nat.le_mul_of_pos_left _ (Nat.two_pow_pos _)
    have eab : a' = a := odd_unique _ _ _ _ (ha'.symm.trans hvx)
    have ebb : b' = b := odd_unique _ _ _ _ (hb'.symm.trans hvy)
    subst eab ebb
    have hz : ¬ isZero tx = true := by
      unfold isZero
      intro h
      have : tx.digs = [] := by simpa [List.length_eq_zero_iff] using h
      rw [this, val_nil] at hx0; omega
    rw [gcdLoop, if_neg hz]
    dsimp only
    generalize shr w tx (lsb w jx tx.digs) = ux at *
    generalize shr w ty (lsb w jy ty.digs) = uy at *
    have hcmp := cmpAbs_spec (b := 2 ^ w) (by omega) hxn hyn
    rw [hxv, hyv] at hcmp
    by_cases hge : b' ≤ a'
    · rw [if_pos (by omega)]
      obtain ⟨t, t1, t2, t3, t4⟩ := subAbs_spec hb1 hxn hyn (by omega)
      obtain ⟨s1, s2, s3⟩ := shr_spec hw t3 1
      have hsv : val (2 ^ w) (shr w t 1).digs = a' - b' := by rw [s1]; omega
      simp only [t1, Option.bind_eq_bind, Option.bind_some]
      rcases Nat.eq_or_lt_of_le hge with heq | hlt
      · -- equal: the next test ends the loop
        subst heq
        obtain ⟨f, rfl⟩ : ∃ f, fuel = f + 1 := ⟨fuel - 1, by omega⟩
        have hz0 : isZero (shr w t 1) = true := by
          unfold isZero
          have : (shr w t 1).digs = [] :=
            (val_eq_zero_iff (Nat.two_pow_pos w) s2.top).1 (by omega)
          simp [this]
        refine ⟨uy, ?_, hyn, by rw [hyv, Nat.gcd_self], fun h => by rw [← hys]; exact h⟩
        rw [gcdLoop, if_pos hz0]
      · obtain ⟨k, hk⟩ := lsb_spec (w := w) 0 s2.digits (by omega)
        obtain ⟨z, z1, z2, z3, z4⟩ := gcdLoop_spec hw jx jy fuel s2 hyn hk
          (j := 0) (b := b') (by rw [hyv]; simp) (by omega)
        refine ⟨z, z1, z2, ?_, fun h => by rw [← hys]; exact z4 h⟩
        rw [z3]
        have h1 := gcd_pow_two_mul (lsb w 0 (shr w t 1).digs) (2 * k + 1) b'
        rw [← hk, hsv] at h1
        have h2 := gcd_pow_two_mul 1 (a' - b') b'
        rw [← h1, ← h2, show 2 ^ 1 * (a' - b') = (2 * a' + 1) - (2 * b' + 1) by omega]
        exact Nat.gcd_sub_self_left (by omega)
    · rw [if_neg (by omega)]
      obtain ⟨t, t1, t2, t3, t4⟩ := subAbs_spec hb1 hyn hxn (by omega)
      obtain ⟨s1, s2, s3⟩ := shr_spec hw t3 1
      have hsv : val (2 ^ w) (shr w t 1).digs = b' - a' := by rw [s1]; omega
      simp only [t1, Option.bind_eq_bind, Option.bind_some]
      obtain ⟨k, hk⟩ := lsb_spec (w := w) 0 s2.digits (by omega)
      obtain ⟨z, z1, z2, z3, z4⟩ := gcdLoop_spec hw jx jy fuel hxn s2
        (i := 0) (a := a') (by rw [hxv]; simp) hk (by omega)
      refine ⟨z, z1, z2, ?_, fun h => ?_⟩
      · rw [z3]
        have h1 := gcd_pow_two_mul (lsb w 0 (shr w t 1).digs) (2 * k + 1) a'
        rw [← hk, hsv] at h1
        have h2 := gcd_pow_two_mul 1 (b' - a') a'
        rw [Nat.gcd_comm, ← h1, ← h2, show 2 ^ 1 * (b' - a') = (2 * b' + 1) - (2 * a' + 1) by omega,
          Nat.gcd_sub_self_left (by omega), Nat.gcd_comm]
      · exfalso
        have h5 := z4 h
        rcases s3 with s3 | s3
        · rw [s3, t4] at h5; simp at h5
        · have : val (2 ^ w) (shr w t 1).digs = 0 := by rw [s3]; rfl
          omega

/-- Both operands non-zero: the magnitude is the gcd. -/
theorem gcd_spec {w : Nat} (hw : 0 < w) (jx jy : Nat) {x y : Mpi} (hx : Norm (2 ^ w) x)
    (hy : Norm (2 ^ w) y) (hx0 : 0 < val (2 ^ w) x.digs) (hy0 : 0 < val (2 ^ w) y.digs) :
    ∃ z, gcd w jx jy x y = some z ∧ Norm (2 ^ w) z ∧
      val (2 ^ w) z.digs = Nat.gcd (val (2 ^ w) x.digs) (val (2 ^ w) y.digs) ∧
      (z.neg = true → y.neg = true) := by
  unfold gcd
  dsimp only
  obtain ⟨a, ha⟩ := lsb_spec jx hx.digits (by omega)
  obtain ⟨b, hb⟩ := lsb_spec jy hy.digits (by omega)
  generalize lsb w jx x.digs = i at *
  generalize lsb w jy y.digs = j at *
  have hlz : (if j < i then j else i) = min i j := by split <;> omega
  rw [hlz]
  obtain ⟨s1, s2, -⟩ := shr_spec hw hx (min i j)
  obtain ⟨t1, t2, t3⟩ := shr_spec hw hy (min i j)
  have cut : ∀ n k, min i j ≤ n → 2 ^ n * k / 2 ^ min i j = 2 ^ (n - min i j) * k := by
    intro n k hn
    conv_lhs => rw [show n = min i j + (n - min i j) by omega, pow_add, Nat.mul_assoc]
    exact Nat.mul_div_cancel_left _ (Nat.two_pow_pos _)
  have u1 : val (2 ^ w) (shr w x (min i j)).digs = 2 ^ (i - min i j) * (2 * a + 1) := by
    rw [s1]; conv_lhs => rw [ha]
    exact cut i _ (by omega)
  have u2 : val (2 ^ w) (shr w y (min i j)).digs = 2 ^ (j - min i j) * (2 * b + 1) := by
    rw [t1]; conv_lhs => rw [hb]
    exact cut j _ (by omega)
  have hfuel : val (2 ^ w) (shr w x (min i j)).digs + val (2 ^ w) (shr w y (min i j)).digs <
      val (2 ^ w) x.digs + val (2 ^ w) y.digs + 1 := by
    have e1 := Nat.div_le_self (val (2 ^ w) x.digs) (2 ^ min i j)
    have e2 := Nat.div_le_self (val (2 ^ w) y.digs) (2 ^ min i j)
    rw [s1, t1]; omega
  obtain ⟨z, z1, z2, z3, z4⟩ := gcdLoop_spec hw jx jy _ s2 t2 u1 u2 hfuel
  obtain ⟨v1, v2, v3⟩ := shl_spec hw z2 (min i j)
  refine ⟨shl w z (min i j), ?_, v2, ?_, ?_⟩
  · simp only [z1, Option.bind_eq_bind, Option.bind_some]
  · rw [v1, z3, ha, hb, gcd_two_parts, Nat.mul_comm]
  · intro h
    rw [v3] at h
    have h5 := z4 h
    rcases t3 with t3 | t3
    · rw [← t3]; exact h5
    · rw [t3, val_nil] at u2
      have : 0 < 2 ^ (j - min i j) * (2 * b + 1) := by positivity
      omega

/-- First operand zero: the second operand is returned, sign included. -/
theorem gcd_zero_left {w : Nat} (hw : 0 < w) (jx jy : Nat) {x y : Mpi} (hx : x.digs = [])
    (hy : Norm (2 ^ w) y) (hy0 : 0 < val (2 ^ w) y.digs) :
    ∃ z, gcd w jx jy x y = some z ∧ Norm (2 ^ w) z ∧ z.toInt (2 ^ w) = y.toInt (2 ^ w) := by
  unfold gcd
  dsimp only
  obtain ⟨b, hb⟩ := lsb_spec jy hy.digits (by omega)
  generalize lsb w jx x.digs = i at *
  generalize lsb w jy y.digs = j at *
  have hlz : (if j < i then j else i) = min i j := by split <;> omega
  rw [hlz]
  obtain ⟨t1, t2, t3⟩ := shr_spec hw hy (min i j)
  have hsx : isZero (shr w x (min i j)) = true := by
    unfold shr; rw [if_pos (Or.inr hx)]; simp [isZero, hx]
  obtain ⟨v1, v2, v3⟩ := shl_spec hw t2 (min i j)
  have hdvd : 2 ^ min i j ∣ val (2 ^ w) y.digs := by
    rw [hb]; exact Dvd.dvd.mul_right (pow_dvd_pow 2 (Nat.min_le_right i j)) _
  refine ⟨shl w (shr w y (min i j)) (min i j), ?_, v2, ?_⟩
  · rw [gcdLoop, if_pos hsx]; rfl
  · have hneg : (shl w (shr w y (min i j)) (min i j)).neg = y.neg := by
      rw [v3]
      rcases t3 with t3 | t3
      · exact t3
      · rw [t3, val_nil] at t1
        have := Nat.div_mul_cancel hdvd
        rw [← t1] at this; omega
    unfold Mpi.toInt
    rw [hneg, v1, t1, Nat.div_mul_cancel hdvd]

theorem gcdLoop_zero_right {w : Nat} (hw : 0 < w) (jx jy : Nat) {ty : Mpi} (hy : ty.digs = []) :
    ∀ (fuel : Nat) {tx : Mpi}, Norm (2 ^ w) tx → val (2 ^ w) tx.digs < fuel →
      gcdLoop w jx jy fuel tx ty = some ty
  | 0, _, _, h => by omega
  | fuel + 1, tx, hx, h => by
    rw [gcdLoop]
    by_cases hz : isZero tx = true
    · rw [if_pos hz]
    · rw [if_neg hz]
      dsimp only
      have hb1 := one_lt_two_pow hw
      have hsy : shr w ty (lsb w jy ty.digs) = ty := by unfold shr; rw [if_pos (Or.inr hy)]
      rw [hsy]
      have hyn : Norm (2 ^ w) ty := ⟨by rw [hy]; simp, by rw [hy]; simp⟩
      have hyv : val (2 ^ w) ty.digs = 0 := by rw [hy]; rfl
      obtain ⟨s1, s2, -⟩ := shr_spec hw hx (lsb w jx tx.digs)
      have hle := Nat.div_le_self (val (2 ^ w) tx.digs) (2 ^ lsb w jx tx.digs)
      have hpos : 0 < val (2 ^ w) tx.digs := by
        rcases Nat.eq_zero_or_pos (val (2 ^ w) tx.digs) with h0 | h0
        · exfalso; apply hz
          have := (val_eq_zero_iff (Nat.two_pow_pos w) hx.top).1 h0
          simp [isZero, this]
        · exact h0
      generalize shr w tx (lsb w jx tx.digs) = ux at *
      have hcmp := cmpAbs_spec (b := 2 ^ w) (by omega) s2 hyn
      rw [if_pos (by omega)]
      obtain ⟨t, t1, t2, t3, t4⟩ := subAbs_spec hb1 s2 hyn (by omega)
      obtain ⟨r1, r2, -⟩ := shr_spec hw t3 1
      simp only [t1, Option.bind_eq_bind, Option.bind_some]
      exact gcdLoop_zero_right hw jx jy hy fuel r2 (by rw [r1]; omega)

/-- Second operand zero: the result is zero. -/
theorem gcd_zero_right {w : Nat} (hw : 0 < w) (jx jy : Nat) {x y : Mpi} (hx : Norm (2 ^ w) x)
    (hy : y.digs = []) : gcd w jx jy x y = some y := by
  unfold gcd
  dsimp only
  generalize (if lsb w jy y.digs < lsb w jx x.digs then lsb w jy y.digs else lsb w jx x.digs) = l
  have hsy : shr w y l = y := by unfold shr; rw [if_pos (Or.inr hy)]
  obtain ⟨s1, s2, -⟩ := shr_spec hw hx l
  have hle := Nat.div_le_self (val (2 ^ w) x.digs) (2 ^ l)
  rw [hsy, gcdLoop_zero_right hw jx jy hy _ s2 (by rw [s1]; omega)]
  have : shl w y l = y := by unfold shl; rw [if_pos (Or.inr hy)]
  simp only [Option.bind_eq_bind, Option.bind_some, this]

end Verif.Mpi
