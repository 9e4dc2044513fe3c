import Verif.Lemmas.Ecp.Curve
import Mathlib.GroupTheory.OrderOfElement
/-!
# A primality test with elliptic curves, to be run by the kernel

For a number `N`, a point (x, y) of y² = x³ + ax + b modulo `N` and a prime `q` with (q - 1)² > 4N: if q times the point is
infinity modulo every prime factor of `N`, then `N` is prime.  The multiple is computed in Jacobian coordinates; each
denominator divides the next, so only the last need be a unit.
-/
namespace Verif.Ecp
open WeierstrassCurve WeierstrassCurve.Affine

/-! ## The computation -/

/-- `k n`, with `n` evaluated first when the kernel reduces. -/
def force {α : Type} (n : Nat) (k : Nat → α) : α :=
  match n with
  | 0 => k 0
  | m + 1 => k (m + 1)

theorem force_eq {α : Type} (n : Nat) (k : Nat → α) : force n k = k n := by
  cases n <;> rfl

/-- Doubling; `M` is `N - 1`. -/
def jdbl (N M a X Y Z : Nat) (k : Nat → Nat → Nat → Bool) : Bool :=
  force (Y * Y % N) fun yy =>
  force (4 * X * yy % N) fun s =>
  force (Z * Z % N) fun zz =>
  force ((3 * (X * X) + a * (zz * zz)) % N) fun m =>
  force ((m * m + M * (2 * s)) % N) fun X' =>
  force ((m * (s + M * X') + M * (8 * (yy * yy))) % N) fun Y' =>
  force (2 * Y * Z % N) fun Z' => k X' Y' Z'

/-- Addition of the affine point (x, y). -/
def jadd (N M x y X Y Z : Nat) (k : Nat → Nat → Nat → Bool) : Bool :=
  force (Z * Z % N) fun zz =>
  force ((x * zz + M * X) % N) fun h =>
  force ((y * (Z * zz) + M * Y) % N) fun r =>
  force (h * h % N) fun hh =>
  force (h * hh % N) fun hhh =>
  force (X * hh % N) fun v =>
  force ((r * r + M * (hhh + 2 * v)) % N) fun X' =>
  force ((r * (v + M * X') + M * (Y * hhh)) % N) fun Y' =>
  force (Z * h % N) fun Z' => k X' Y' Z'

/-- The multiple `m (x, y)`, from bit `i - 1` downwards. -/
def jmul (N M a x y m : Nat) (k : Nat → Nat → Nat → Bool) : Nat → Nat → Nat → Nat → Bool
  | 0, X, Y, Z => k X Y Z
  | i + 1, X, Y, Z =>
    jdbl N M a X Y Z fun X Y Z =>
      if m.testBit i then jadd N M x y X Y Z fun X Y Z => jmul N M a x y m k i X Y Z
      else jmul N M a x y m k i X Y Z

/-- `(q - 1) (x, y) = -(x, y)`; `q - 1` has `i + 1` bits. -/
def ecppCheck (N a x y q i : Nat) : Bool :=
  Nat.ble 2 N && Nat.beq ((q - 1) / 2 ^ i) 1 && Nat.ble 1 i && Nat.ble (4 * N + 1) ((q - 1) * (q - 1)) &&
  jmul N (N - 1) a x y (q - 1) (fun X Y Z =>
    Nat.beq (Nat.gcd Z N) 1 && Nat.beq ((X + (N - 1) * (x * (Z * Z))) % N) 0 &&
    Nat.beq ((Y + y * (Z * (Z * Z))) % N) 0) i x y 1

/-! ## Meaning in the curve modulo a prime factor -/

section
variable {l : Nat} [Fact l.Prime] {a b : ZMod l}

/-- The Jacobian coordinates denote the point. -/
def Jac (X Y Z : ZMod l) (P : (curve l a b).Point) : Prop :=
  ∃ h, P = Point.some (X / Z ^ 2) (Y / Z ^ 3) h

theorem jac_dbl {X Y Z X' Y' Z' : ZMod l} {P : (curve l a b).Point} (h : Jac X Y Z P) (hZ : Z' ≠ 0) (eZ : Z' = 2 * Y * Z)
    (eX : X' = (3 * X ^ 2 + a * Z ^ 4) ^ 2 - 8 * X * Y ^ 2)
    (eY : Y' = (3 * X ^ 2 + a * Z ^ 4) * (4 * X * Y ^ 2 - X') - 8 * Y ^ 4) : Jac X' Y' Z' (P + P) := by
  obtain ⟨hn, rfl⟩ := h
  have h2 : (2 : ZMod l) ≠ 0 := fun e => hZ (by rw [eZ, e]; ring)
  have hY : Y ≠ 0 := fun e => hZ (by rw [eZ, e]; ring)
  have hZ0 : Z ≠ 0 := fun e => hZ (by rw [eZ, e]; ring)
  obtain ⟨h', e⟩ := point_add_tangent hn (by positivity) _ (X' / Z' ^ 2) (Y' / Z' ^ 3) rfl
    (by rw [eZ, eX]; field_simp; ring) (by rw [eY, eX, eZ]; field_simp; ring)
  exact ⟨h', e⟩

theorem jac_add {X Y Z X' Y' Z' x y : ZMod l} {P : (curve l a b).Point} (h : Jac X Y Z P)
    (hg : (curve l a b).Nonsingular x y) (hZ : Z' ≠ 0) (eZ : Z' = Z * (x * Z ^ 2 - X))
    (eX : X' = (y * Z ^ 3 - Y) ^ 2 - (x * Z ^ 2 - X) ^ 3 - 2 * X * (x * Z ^ 2 - X) ^ 2)
    (eY : Y' = (y * Z ^ 3 - Y) * (X * (x * Z ^ 2 - X) ^ 2 - X') - Y * (x * Z ^ 2 - X) ^ 3) :
    Jac X' Y' Z' (P + Point.some x y hg) := by
  obtain ⟨hn, rfl⟩ := h
  have hZ0 : Z ≠ 0 := fun e => hZ (by rw [eZ, e]; ring)
  have hH : x * Z ^ 2 - X ≠ 0 := fun e => hZ (by rw [eZ, e]; ring)
  have e1 : x - X / Z ^ 2 = (x * Z ^ 2 - X) / Z ^ 2 := by field_simp
  have e2 : y - Y / Z ^ 3 = (y * Z ^ 3 - Y) / Z ^ 3 := by field_simp
  have hx : x = (x * Z ^ 2 - X) / Z ^ 2 + X / Z ^ 2 := by field_simp; ring
  obtain ⟨h', e⟩ := point_add_chord hn hg (by rw [e1]; positivity) _ (X' / Z' ^ 2) (Y' / Z' ^ 3) rfl
    (by rw [e1, e2]
        generalize hH' : x * Z ^ 2 - X = H at *
        generalize y * Z ^ 3 - Y = R at *
        rw [eX, eZ, hx]; field_simp; ring)
    (by rw [e1, e2]
        generalize hH' : x * Z ^ 2 - X = H at *
        generalize y * Z ^ 3 - Y = R at *
        rw [eY, eX, eZ]; field_simp)
  exact ⟨h', e⟩
end

/-! ## The computation follows the group -/

theorem cast_mod_of_dvd {l N : Nat} (h : l ∣ N) (n : Nat) : ((n % N : Nat) : ZMod l) = n := by
  rw [ZMod.natCast_eq_natCast_iff']
  exact Nat.mod_mod_of_dvd n h

theorem cast_pred {l N : Nat} (h : l ∣ N) (h0 : 0 < N) : ((N - 1 : Nat) : ZMod l) = -1 := by
  rw [Nat.cast_sub h0, (ZMod.natCast_eq_zero_iff N l).2 h]; simp

theorem jdbl_spec {l N : Nat} (hd : l ∣ N) (h0 : 0 < N) (a X Y Z : Nat) (k : Nat → Nat → Nat → Bool) :
    ∃ X' Y' Z', jdbl N (N - 1) a X Y Z k = k X' Y' Z' ∧ (Z' : ZMod l) = 2 * Y * Z ∧
      (X' : ZMod l) = (3 * X ^ 2 + a * Z ^ 4) ^ 2 - 8 * X * Y ^ 2 ∧
      (Y' : ZMod l) = (3 * X ^ 2 + a * Z ^ 4) * (4 * X * Y ^ 2 - X') - 8 * Y ^ 4 := by
  simp only [jdbl, force_eq]
  refine ⟨_, _, _, rfl, ?_, ?_, ?_⟩ <;>
  simp only [cast_mod_of_dvd hd, Nat.cast_add, Nat.cast_mul, cast_pred hd h0, Nat.cast_ofNat] <;> ring

theorem jadd_spec {l N : Nat} (hd : l ∣ N) (h0 : 0 < N) (x y X Y Z : Nat) (k : Nat → Nat → Nat → Bool) :
    ∃ X' Y' Z', jadd N (N - 1) x y X Y Z k = k X' Y' Z' ∧ (Z' : ZMod l) = Z * (x * Z ^ 2 - X) ∧
      (X' : ZMod l) = (y * Z ^ 3 - Y) ^ 2 - (x * Z ^ 2 - X) ^ 3 - 2 * X * (x * Z ^ 2 - X) ^ 2 ∧
      (Y' : ZMod l) = (y * Z ^ 3 - Y) * (X * (x * Z ^ 2 - X) ^ 2 - X') - Y * (x * Z ^ 2 - X) ^ 3 := by
  simp only [jadd, force_eq]
  refine ⟨_, _, _, rfl, ?_, ?_, ?_⟩ <;>
  simp only [cast_mod_of_dvd hd, Nat.cast_add, Nat.cast_mul, cast_pred hd h0, Nat.cast_ofNat] <;> ring

theorem div_pow_step (m i : Nat) : m / 2 ^ i = 2 * (m / 2 ^ (i + 1)) + (if m.testBit i then 1 else 0) := by
  rw [pow_succ, ← Nat.div_div_eq_div_mul]
  have h := Nat.testBit_eq_decide_div_mod_eq (x := m) (i := i)
  have h2 : m / 2 ^ i % 2 = if m.testBit i then 1 else 0 := by
    rw [h]; simp only [decide_eq_true_eq]; split_ifs <;> omega
  omega

theorem jmul_spec {l N : Nat} [Fact l.Prime] (hd : l ∣ N) (h0 : 0 < N) {a x y m : Nat} {b : ZMod l}
    {k : Nat → Nat → Nat → Bool} (hk : ∀ X Y Z, k X Y Z = true → (Z : ZMod l) ≠ 0) :
    ∀ (i X Y Z : Nat), jmul N (N - 1) a x y m k i X Y Z = true → (Z : ZMod l) ≠ 0 ∧ (0 < i → (2 * Y : ZMod l) ≠ 0) ∧
      ∀ hg : (curve l a b).Nonsingular x y, Jac X Y Z ((m / 2 ^ i) • Point.some (x : ZMod l) y hg) →
        ∃ X' Y' Z', k X' Y' Z' = true ∧ Jac X' Y' Z' (m • Point.some (x : ZMod l) y hg)
  | 0, X, Y, Z, h => by
    refine ⟨hk _ _ _ h, by simp, fun hg hj => ⟨X, Y, Z, h, ?_⟩⟩
    simpa using hj
  | i + 1, X, Y, Z, h => by
    rw [jmul] at h
    obtain ⟨X1, Y1, Z1, e, eZ, eX, eY⟩ := jdbl_spec hd h0 a X Y Z (fun X Y Z =>
      if m.testBit i then jadd N (N - 1) x y X Y Z fun X Y Z => jmul N (N - 1) a x y m k i X Y Z
      else jmul N (N - 1) a x y m k i X Y Z)
    rw [e] at h
    have fin : (Z1 : ZMod l) ≠ 0 → (Z : ZMod l) ≠ 0 ∧ (0 < i + 1 → (2 * Y : ZMod l) ≠ 0) := fun h1 =>
      ⟨fun e => h1 (by rw [eZ, e, mul_zero]), fun _ e => h1 (by rw [eZ, e, zero_mul])⟩
    have hs := div_pow_step m i
    by_cases hb : m.testBit i = true
    · simp only [hb, if_true] at h hs
      obtain ⟨X2, Y2, Z2, e', eZ', eX', eY'⟩ := jadd_spec hd h0 x y X1 Y1 Z1 (fun X Y Z =>
        jmul N (N - 1) a x y m k i X Y Z)
      rw [e'] at h
      obtain ⟨h1, -, h3⟩ := jmul_spec hd h0 (b := b) hk i X2 Y2 Z2 h
      have hZ1 : (Z1 : ZMod l) ≠ 0 := fun e => h1 (by rw [eZ', e, zero_mul])
      refine ⟨(fin hZ1).1, (fin hZ1).2, fun hg hj => h3 hg ?_⟩
      rw [hs, add_smul, one_smul, mul_smul, two_smul]
      exact jac_add (jac_dbl hj hZ1 eZ eX eY) hg h1 eZ' eX' eY'
    · simp only [hb] at h hs
      obtain ⟨h1, -, h3⟩ := jmul_spec hd h0 (b := b) hk i X1 Y1 Z1 h
      refine ⟨(fin h1).1, (fin h1).2, fun hg hj => h3 hg ?_⟩
      rw [hs, if_neg (by simp), add_zero, mul_smul, two_smul]
      exact jac_dbl hj h1 eZ eX eY

/-- A successful run: modulo every prime factor, `q` times the point is infinity. -/
theorem ecppCheck_spec {l N a x y q i : Nat} [Fact l.Prime] (hd : l ∣ N) (h : ecppCheck N a x y q i = true) (b : ZMod l)
    (hE : (curve l a b).Equation x y) :
    ∃ hg : (curve l a b).Nonsingular x y, q • Point.some (x : ZMod l) y hg = 0 := by
  simp only [ecppCheck, Bool.and_eq_true, Nat.ble_eq, Nat.beq_eq] at h
  obtain ⟨⟨⟨⟨h2, hi⟩, h1⟩, -⟩, h⟩ := h
  have h0 : 0 < N := by omega
  have hk : ∀ X Y Z, (Nat.beq (Nat.gcd Z N) 1 && Nat.beq ((X + (N - 1) * (x * (Z * Z))) % N) 0 &&
      Nat.beq ((Y + y * (Z * (Z * Z))) % N) 0) = true → (Z : ZMod l) ≠ 0 := by
    intro X Y Z hk
    simp only [Bool.and_eq_true, Nat.beq_eq] at hk
    rw [Ne, ZMod.natCast_eq_zero_iff]
    intro hz
    have := Nat.dvd_gcd hz hd
    rw [hk.1.1, Nat.dvd_one] at this
    exact (Fact.out : l.Prime).ne_one this
  obtain ⟨-, hy, hm⟩ := jmul_spec hd h0 (b := b) hk _ _ _ _ h
  have hg : (curve l a b).Nonsingular x y := by
    rw [nonsingular_iff]
    refine ⟨hE, Or.inr fun e => hy h1 ?_⟩
    simp only [zero_mul, sub_zero] at e
    rw [two_mul]; nth_rewrite 1 [e]; ring
  refine ⟨hg, ?_⟩
  obtain ⟨X, Y, Z, hc, hn, hJ⟩ := hm hg (by rw [hi, one_smul]; exact ⟨by simpa using hg, by simp⟩)
  have hZ := hk X Y Z hc
  simp only [Bool.and_eq_true, Nat.beq_eq] at hc
  have eX : (X : ZMod l) / Z ^ 2 = x := by
    have := congrArg (Nat.cast : Nat → ZMod l) hc.1.2
    simp only [cast_mod_of_dvd hd, Nat.cast_add, Nat.cast_mul, cast_pred hd h0, Nat.cast_zero] at this
    rw [div_eq_iff (pow_ne_zero 2 hZ)]
    linear_combination this
  have eY : (Y : ZMod l) / Z ^ 3 = -y := by
    have := congrArg (Nat.cast : Nat → ZMod l) hc.2
    simp only [cast_mod_of_dvd hd, Nat.cast_add, Nat.cast_mul, Nat.cast_zero] at this
    rw [div_eq_iff (pow_ne_zero 3 hZ)]
    linear_combination this
  have hq : q = (q - 1) + 1 := by
    rcases Nat.eq_zero_or_pos q with h | h
    · subst h; simp at hi
    · omega
  rw [hq, add_smul, one_smul, hJ]
  apply Point.add_of_Y_eq eX
  rw [curve_negY, eY]

/-- Points with the same abscissa are equal or opposite. -/
theorem point_x_inj {l : Nat} [Fact l.Prime] {a b : ZMod l} {x y y' : ZMod l} (h : (curve l a b).Nonsingular x y)
    (h' : (curve l a b).Nonsingular x y') : Point.some x y h = Point.some x y' h' ∨ Point.some x y h + Point.some x y' h' = 0 := by
  rcases Y_eq_of_X_eq h.1 h'.1 rfl with e | e
  · subst e; exact Or.inl rfl
  · exact Or.inr (Point.add_of_Y_eq rfl e)

/-- A point of prime order `q` needs a field of at least `(q - 1) / 2` elements. -/
theorem order_bound {l q : Nat} [Fact l.Prime] {a b : ZMod l} (hq : q.Prime) {P : (curve l a b).Point} (h0 : P ≠ 0)
    (hP : q • P = 0) : q ≤ 2 * l + 1 := by
  have : Fact q.Prime := ⟨hq⟩
  have ho : addOrderOf P = q := addOrderOf_eq_prime hP h0
  have hne : ∀ k, 0 < k → k < q → k • P ≠ 0 := fun k h1 h2 h =>
    absurd (Nat.le_of_dvd h1 (ho ▸ addOrderOf_dvd_of_nsmul_eq_zero h)) (by omega)
  have hinj : Function.Injective (fun k : Fin ((q - 1) / 2) => ((ptX ((k.1 + 1) • P) : Nat) : ZMod l)) := by
    rintro ⟨j, hj⟩ ⟨k, hk⟩ e
    simp only at e
    have nj := hne (j + 1) (by omega) (by omega)
    have nk := hne (k + 1) (by omega) (by omega)
    have key : (j + 1) • P = (k + 1) • P ∨ (j + 1) • P + (k + 1) • P = 0 := by
      cases hj' : (j + 1) • P with
      | zero => exact absurd hj' nj
      | some x1 y1 h1 =>
        cases hk' : (k + 1) • P with
        | zero => exact absurd hk' nk
        | some x2 y2 h2 =>
          rw [hj', hk'] at e
          simp only [ptX, ZMod.natCast_val, ZMod.cast_id', id_eq] at e
          subst e
          exact point_x_inj h1 h2
    rcases key with h | h
    · rw [Fin.mk.injEq]
      by_contra hne'
      rcases Nat.lt_or_ge j k with hlt | hge
      · refine hne (k - j) (by omega) (by omega) ?_
        have : (k + 1) • P = (j + 1) • P + (k - j) • P := by rw [← add_smul]; congr 1; omega
        rw [this] at h
        exact left_eq_add.1 h
      · refine hne (j - k) (by omega) (by omega) ?_
        have : (j + 1) • P = (k + 1) • P + (j - k) • P := by rw [← add_smul]; congr 1; omega
        rw [this] at h
        exact add_eq_left.1 h
    · rw [← add_smul] at h
      exact absurd h (hne _ (by omega) (by omega))
  have := Fintype.card_le_of_injective _ hinj
  rw [Fintype.card_fin, ZMod.card] at this
  have := hq.eq_two_or_odd
  have := (Fact.out : l.Prime).pos
  omega

/-- The equation holds for a suitable last coefficient. -/
theorem equation_of_b {l : Nat} [Fact l.Prime] (a x y : ZMod l) :
    (curve l a (y ^ 2 - x ^ 3 - a * x)).Equation x y := by
  rw [equation_iff]; ring

/-- The test is right. -/
theorem ecpp_prime {N a x y q i : Nat} (hq : q.Prime) (h : ecppCheck N a x y q i = true) : N.Prime := by
  have h' := h
  simp only [ecppCheck, Bool.and_eq_true, Nat.ble_eq] at h'
  obtain ⟨⟨⟨⟨h2, -⟩, -⟩, hb⟩, -⟩ := h'
  by_contra hN
  have hl : N.minFac.Prime := Nat.minFac_prime (by omega)
  have hsq := Nat.minFac_sq_le_self (by omega) hN
  have hd := Nat.minFac_dvd N
  generalize N.minFac = l at *
  have : Fact l.Prime := ⟨hl⟩
  obtain ⟨hg, e⟩ := ecppCheck_spec hd h _ (equation_of_b (a : ZMod l) x y)
  have := order_bound hq (Point.some_ne_zero _) e
  have h3 : q - 1 ≤ 2 * l := by omega
  have := Nat.mul_le_mul h3 h3
  have h4 : 2 * l * (2 * l) = 4 * l ^ 2 := by ring
  omega

end Verif.Ecp
