import Verif.Lemmas.Mpi.Comba
namespace Verif.Mpi

/-! ## schoolbook multiplication -/

theorem baseRow_spec {w x : Nat} (hx : x < 2 ^ w) : ∀ (ys ps : List Nat) (u : Nat) (zs : List Nat),
    Digits (2 ^ w) ys → Digits (2 ^ w) ps → ps.length = ys.length → u < 2 ^ w →
    ∃ rs u', baseRow w x ys (ps ++ 0 :: zs) u = rs ++ u' :: zs ∧ rs.length = ys.length ∧
      Digits (2 ^ w) rs ∧ u' < 2 ^ w ∧
      val (2 ^ w) rs + (2 ^ w) ^ ys.length * u' = val (2 ^ w) ps + x * val (2 ^ w) ys + u
  | [], [], u, zs, _, _, _, hu => ⟨[], u, by simp [baseRow], rfl, by simp, hu, by simp⟩
  | [], _ :: _, _, _, _, _, h, _ => by simp at h
  | _ :: _, [], _, _, _, _, h, _ => by simp at h
  | y :: ys, p :: ps, u, zs, hy, hp, hl, hu => by
    rw [digits_cons] at hy hp
    have hb : 0 < 2 ^ w := Nat.two_pow_pos w
    have e2 : 2 ^ (2 * w) = 2 ^ w * 2 ^ w := by rw [two_mul, pow_add]
    have hlt : p + x * y + u < 2 ^ w * 2 ^ w := by
      have hy1 := hy.1; have hp1 := hp.1
      obtain ⟨k, hk⟩ : ∃ k, 2 ^ w = k + 1 := ⟨2 ^ w - 1, by omega⟩
      rw [hk] at hx hu hy1 hp1 ⊢
      have : x * y ≤ k * k := Nat.mul_le_mul (by omega) (by omega)
      have e : (k + 1) * (k + 1) = k * k + 2 * k + 1 := by ring
      omega
    have hq : (p + x * y + u) / 2 ^ w < 2 ^ w := by rw [Nat.div_lt_iff_lt_mul hb]; exact hlt
    obtain ⟨rs, u', h1, h2, h3, h4, h5⟩ := baseRow_spec hx ys ps ((p + x * y + u) / 2 ^ w) zs hy.2 hp.2
      (by simpa using hl) hq
    refine ⟨(p + x * y + u) % 2 ^ w :: rs, u', ?_, by simp [h2], ?_, h4, ?_⟩
    · simp only [List.cons_append, baseRow]
      rw [e2, Nat.mod_eq_of_lt hlt, h1]
    · rw [digits_cons]; exact ⟨Nat.mod_lt _ hb, h3⟩
    · simp only [val_cons, List.length_cons]
      have hd := Nat.div_add_mod (p + x * y + u) (2 ^ w)
      generalize (p + x * y + u) / 2 ^ w = q at *
      generalize (p + x * y + u) % 2 ^ w = m at *
      generalize 2 ^ w = b at *
      have : m + b * val b rs + b ^ (ys.length + 1) * u' =
        m + b * (val b rs + b ^ ys.length * u') := by rw [pow_succ]; ring
      rw [this, h5]
      have : p + b * val b ps + x * (y + b * val b ys) + u =
        (p + x * y + u) + b * (val b ps + x * val b ys) := by ring
      rw [this, ← hd]; ring

theorem baseRows_spec {w : Nat} {ys : List Nat} (hy : Digits (2 ^ w) ys) (hy0 : ys ≠ []) :
    ∀ (xs ps : List Nat), Digits (2 ^ w) xs → Digits (2 ^ w) ps → ps.length = ys.length →
    val (2 ^ w) (baseRows w ys xs (ps ++ List.replicate xs.length 0)) =
      val (2 ^ w) ps + val (2 ^ w) xs * val (2 ^ w) ys ∧
    Digits (2 ^ w) (baseRows w ys xs (ps ++ List.replicate xs.length 0))
  | [], ps, _, hp, _ => by simp [baseRows, hp]
  | x :: xs, ps, hx, hp, hl => by
    rw [digits_cons] at hx
    have hb : 0 < 2 ^ w := Nat.two_pow_pos w
    obtain ⟨rs, u', h1, h2, h3, h4, h5⟩ := baseRow_spec hx.1 ys ps 0 (List.replicate xs.length 0)
      hy hp hl hb
    cases rs with
    | nil => exact absurd (List.length_eq_zero_iff.1 h2.symm) hy0
    | cons r rs =>
      rw [digits_cons] at h3
      have hp' : Digits (2 ^ w) (rs ++ [u']) := by simp [h3.2, h4]
      obtain ⟨g1, g2⟩ := baseRows_spec hy hy0 xs (rs ++ [u']) hx.2 hp' (by simpa using h2)
      have e : baseRows w ys (x :: xs) (ps ++ List.replicate (x :: xs).length 0) =
          r :: baseRows w ys xs ((rs ++ [u']) ++ List.replicate xs.length 0) := by
        simp only [baseRows, List.length_cons, List.replicate_succ]
        rw [h1]; simp
      rw [e]
      simp only [val_cons, digits_cons]
      refine ⟨?_, h3.1, g2⟩
      rw [g1, val_append]
      simp only [val_cons, val_nil]
      have hl2 : ys.length = rs.length + 1 := by simpa using h2.symm
      rw [hl2, val_cons] at h5
      generalize 2 ^ w = b at *
      have : r + b * (val b rs + b ^ rs.length * (u' + b * 0) + val b xs * val b ys) =
        (r + b * val b rs + b ^ (rs.length + 1) * u') + b * (val b xs * val b ys) := by
          rw [pow_succ]; ring
      rw [this, h5]; ring

theorem mulBaseline_spec {w : Nat} {x y : Mpi} (hx : Norm (2 ^ w) x) (hy : Norm (2 ^ w) y) :
    val (2 ^ w) (mulBaseline w x y).digs = val (2 ^ w) x.digs * val (2 ^ w) y.digs ∧
    Norm (2 ^ w) (mulBaseline w x y) ∧ (mulBaseline w x y).neg = false := by
  have hb : 0 < 2 ^ w := Nat.two_pow_pos w
  unfold mulBaseline
  split
  next h => rcases h with h | h <;> simp [h] <;> exact norm_zero _ _
  next h =>
    have hy0 : y.digs ≠ [] := fun e => h (Or.inr e)
    have := baseRows_spec hy.digits hy0 x.digs (List.replicate y.digs.length 0) hx.digits
      (digits_replicate_zero hb _) (by simp)
    rw [← List.replicate_add, Nat.add_comm] at this
    refine ⟨?_, ⟨digits_adjust this.2, topNZ_adjust _⟩, rfl⟩
    simp only [val_adjust]
    rw [this.1, val_replicate_zero, Nat.zero_add]

/-! ## representation of an integer (negative zero allowed) -/

/-- `z` is normalised and stands for `v`. -/
def Rep (w : Nat) (z : Mpi) (v : Int) : Prop := Norm (2 ^ w) z ∧ z.toInt (2 ^ w) = v

theorem natAbs_toInt (b : Nat) (x : Mpi) : (x.toInt b).natAbs = val b x.digs := by
  unfold Mpi.toInt; split <;> simp

theorem Rep.val_eq {w : Nat} {z : Mpi} {v : Int} (h : Rep w z v) :
    val (2 ^ w) z.digs = v.natAbs := by rw [← h.2, natAbs_toInt]

theorem Rep.nonneg {w : Nat} {z : Mpi} {v : Int} (h : Rep w z v) (hv : 0 < v) : z.neg = false := by
  cases hn : z.neg with
  | false => rfl
  | true =>
    have := h.2
    unfold Mpi.toInt at this
    rw [hn] at this
    simp at this
    omega

theorem length_le_of_lt {b k : Nat} (hb : 1 < b) {z : Mpi} (hz : Norm b z)
    (h : val b z.digs < b ^ k) : z.digs.length ≤ k := by
  by_cases h0 : z.digs = []
  · simp [h0]
  · have h1 := val_pos_of_top (b := b) (by omega) hz.top h0
    have h2 : b ^ (z.digs.length - 1) < b ^ k := by omega
    have := (Nat.pow_lt_pow_iff_right hb).1 h2
    omega

theorem add_rep {w : Nat} (hw : 0 < w) {x y : Mpi} {u v : Int} (hx : Rep w x u) (hy : Rep w y v) :
    ∃ z, add (2 ^ w) x y = some z ∧ Rep w z (u + v) := by
  obtain ⟨z, h1, h2, h3, -⟩ := add_norm (one_lt_two_pow hw) hx.1 hy.1
  exact ⟨z, h1, h3, by rw [h2, hx.2, hy.2]⟩

theorem sub_rep {w : Nat} (hw : 0 < w) {x y : Mpi} {u v : Int} (hx : Rep w x u) (hy : Rep w y v) :
    ∃ z, sub (2 ^ w) x y = some z ∧ Rep w z (u - v) := by
  obtain ⟨z, h1, h2, h3, -⟩ := sub_norm (one_lt_two_pow hw) hx.1 hy.1
  exact ⟨z, h1, h3, by rw [h2, hx.2, hy.2]⟩

theorem shld_rep {w : Nat} (hw : 0 < w) {x : Mpi} {u : Int} (hx : Rep w x u) (n : Nat) :
    Rep w (shld x n) (u * ((2 ^ w) ^ n : Nat)) := by
  obtain ⟨h1, h2, h3, -⟩ := shld_spec hw hx.1 n
  refine ⟨h2, ?_⟩
  rw [← hx.2]
  unfold Mpi.toInt
  rw [h1, h3]
  split <;> push_cast <;> ring

theorem shl_rep {w : Nat} (hw : 0 < w) {x : Mpi} {u : Int} (hx : Rep w x u) (n : Nat) :
    Rep w (shl w x n) (u * 2 ^ n) := by
  obtain ⟨h1, h2, h3⟩ := shl_spec hw hx.1 n
  refine ⟨h2, ?_⟩
  rw [← hx.2]
  unfold Mpi.toInt
  rw [h1, h3]
  split <;> push_cast <;> ring

/-- A number with the sign of `x` (or zero) and magnitude divided by `k`. -/
theorem toInt_tdiv {b : Nat} {x z : Mpi} (k : Nat)
    (hv : val b z.digs = val b x.digs / k) (hs : z.neg = x.neg ∨ z.digs = []) :
    z.toInt b = Int.tdiv (x.toInt b) k := by
  have e : ((val b x.digs / k : Nat) : Int) = Int.tdiv (val b x.digs : Int) (k : Int) :=
    Int.ofNat_tdiv _ _
  unfold Mpi.toInt
  rcases hs with h | h
  · rw [hv, h]; split
    · rw [e, Int.neg_tdiv]
    · rw [e]
  · rw [h] at hv ⊢
    simp only [val_nil] at hv ⊢
    rw [← hv] at e
    simp only [Nat.cast_zero, neg_zero, ite_self] at e ⊢
    split
    · rw [Int.neg_tdiv, ← e]; rfl
    · exact e

theorem shr_rep {w : Nat} (hw : 0 < w) {x : Mpi} {u : Int} (hx : Rep w x u) (n : Nat) :
    Rep w (shr w x n) (Int.tdiv u ((2 ^ n : Nat) : Int)) := by
  obtain ⟨h1, h2, h3⟩ := shr_spec hw hx.1 n
  exact ⟨h2, by rw [toInt_tdiv (2 ^ n) h1 h3, hx.2]⟩

theorem shrd_rep {w : Nat} {x : Mpi} {u : Int} (hx : Rep w x u) (n : Nat) :
    Rep w (shrd x n) (Int.tdiv u (((2 ^ w) ^ n : Nat) : Int)) := by
  obtain ⟨h1, h2, h3⟩ := shrd_spec hx.1 n
  exact ⟨h2, by rw [toInt_tdiv _ h1 h3, hx.2]⟩

theorem modDigits_rep {w : Nat} {x : Mpi} {u : Int} (hx : Rep w x u) (k : Nat) :
    Rep w (modDigits x k) (Int.tmod u (((2 ^ w) ^ k : Nat) : Int)) := by
  have key : ∀ z : Mpi, val (2 ^ w) z.digs = val (2 ^ w) x.digs % (2 ^ w) ^ k → z.neg = x.neg →
      z.toInt (2 ^ w) = Int.tmod u (((2 ^ w) ^ k : Nat) : Int) := by
    intro z h1 h2
    rw [← hx.2]
    unfold Mpi.toInt
    have e : ∀ m : Nat, ((m % (2 ^ w) ^ k : Nat) : Int) = Int.tmod (m : Int) (((2 ^ w) ^ k : Nat) : Int) :=
      fun m => Int.ofNat_tmod _ _
    rw [h1, h2, e]
    split
    · rw [Int.neg_tmod]
    · rfl
  unfold modDigits
  split
  next h =>
    subst h
    refine ⟨norm_zero _ _, ?_⟩
    simp [Mpi.toInt]
  next h =>
    split
    next h2 =>
      refine ⟨hx.1, key x ?_ rfl⟩
      rw [Nat.mod_eq_of_lt]
      calc val (2 ^ w) x.digs < (2 ^ w) ^ x.digs.length := val_lt hx.1.digits
        _ ≤ (2 ^ w) ^ k := Nat.pow_le_pow_right (Nat.two_pow_pos w) h2
    next h2 =>
      refine ⟨⟨digits_adjust (hx.1.digits.take k), topNZ_adjust _⟩, key _ ?_ rfl⟩
      simp only [val_adjust]
      have h3 := val_take_drop (2 ^ w) x.digs k (by omega)
      have h4 := val_lt (hx.1.digits.take k)
      rw [List.length_take, Nat.min_eq_left (by omega)] at h4
      rw [h3, Nat.add_mul_mod_self_left, Nat.mod_eq_of_lt h4]

/-! ## exact division by three -/

theorem div3Fix_spec : ∀ (r t : Nat), div3Fix t r = (t + r / 3, r % 3) := by
  intro r
  induction r using Nat.strongRecOn with
  | _ r ih =>
    intro t
    rw [div3Fix]
    split
    next h => rw [ih (r - 3) (by omega)]; simp only [Prod.mk.injEq]; omega
    next h => simp only [Prod.mk.injEq]; omega

theorem div3Loop_spec {w : Nat} (hw : 2 ≤ w) : ∀ (ds : List Nat), Digits (2 ^ w) ds →
    val (2 ^ w) ds = 3 * val (2 ^ w) (div3Loop w ds).1 + (div3Loop w ds).2 ∧
    (div3Loop w ds).2 < 3 ∧ Digits (2 ^ w) (div3Loop w ds).1
  | [], _ => by simp [div3Loop]
  | d :: ds, hd => by
    rw [digits_cons] at hd
    obtain ⟨h1, h2, h3⟩ := div3Loop_spec hw ds hd.2
    have hb : 4 ≤ 2 ^ w := by
      calc 4 = 2 ^ 2 := rfl
        _ ≤ 2 ^ w := Nat.pow_le_pow_right (by omega) hw
    have e2 : 2 ^ (2 * w) = 2 ^ w * 2 ^ w := by rw [two_mul, pow_add]
    have ev : (((div3Loop w ds).2 <<< w) % 2 ^ (2 * w)) ||| d = (div3Loop w ds).2 * 2 ^ w + d := by
      rw [Nat.shiftLeft_eq, Nat.mod_eq_of_lt, or_eq_add_mul hd.1]
      rw [e2]; exact Nat.mul_lt_mul_of_pos_right (by omega) (by omega)
    have hd1 := hd.1
    -- one digit: quotient t and remainder v
    have key : ∃ t v, div3Loop w (d :: ds) = (t :: (div3Loop w ds).1, v) ∧
        (div3Loop w ds).2 * 2 ^ w + d = 3 * t + v ∧ v < 3 ∧ t < 2 ^ w := by
      rw [div3Loop]
      simp only [ev]
      generalize (div3Loop w ds).2 = r at *
      have hV : r * 2 ^ w + d < 3 * 2 ^ w := by
        have : (r + 1) * 2 ^ w ≤ 3 * 2 ^ w := Nat.mul_le_mul_right _ (by omega)
        rw [Nat.add_mul] at this; omega
      generalize r * 2 ^ w + d = V at *
      split
      next hV3 =>
        have hlt : V * (2 ^ w / 3) < 2 ^ w * 2 ^ w := by
          calc V * (2 ^ w / 3) < 3 * 2 ^ w * (2 ^ w / 3) :=
                Nat.mul_lt_mul_of_pos_right hV (by omega)
            _ = 2 ^ w * (3 * (2 ^ w / 3)) := by ring
            _ ≤ 2 ^ w * 2 ^ w := Nat.mul_le_mul_left _ (by omega)
        rw [e2, Nat.mod_eq_of_lt hlt]
        have ht : 3 * (V * (2 ^ w / 3) / 2 ^ w) ≤ V := by
          have h4 : V * (2 ^ w / 3) / 2 ^ w * 2 ^ w ≤ V * (2 ^ w / 3) := Nat.div_mul_le_self _ _
          have h5 : 3 * (V * (2 ^ w / 3) / 2 ^ w) * 2 ^ w ≤ V * 2 ^ w := by
            calc 3 * (V * (2 ^ w / 3) / 2 ^ w) * 2 ^ w
                = 3 * (V * (2 ^ w / 3) / 2 ^ w * 2 ^ w) := by ring
              _ ≤ 3 * (V * (2 ^ w / 3)) := Nat.mul_le_mul_left _ h4
              _ = V * (3 * (2 ^ w / 3)) := by ring
              _ ≤ V * 2 ^ w := Nat.mul_le_mul_left _ (by omega)
          exact Nat.le_of_mul_le_mul_right h5 (by omega)
        generalize V * (2 ^ w / 3) / 2 ^ w = t at *
        rw [div3Fix_spec]
        simp only
        refine ⟨_, _, rfl, ?_, Nat.mod_lt _ (by omega), Nat.mod_lt _ (by omega)⟩
        have ht2 : t + (V - (t + t + t)) / 3 < 2 ^ w := by omega
        rw [Nat.mod_eq_of_lt ht2]
        omega
      next hV3 => exact ⟨0, V, rfl, by omega, by omega, by omega⟩
    obtain ⟨t, v, g1, g2, g3, g4⟩ := key
    rw [g1]
    simp only [val_cons, digits_cons]
    refine ⟨?_, g3, g4, h3⟩
    rw [h1]
    generalize (div3Loop w ds).2 = r at *
    generalize val (2 ^ w) (div3Loop w ds).1 = Q at *
    have : d + 2 ^ w * (3 * Q + r) = 3 * (2 ^ w * Q) + (r * 2 ^ w + d) := by ring
    rw [this, g2]; ring

theorem div3_rep {w : Nat} (hw : 2 ≤ w) {x : Mpi} {u : Int} (hx : Rep w x u) :
    Rep w (div3 w x) (Int.tdiv u 3) := by
  obtain ⟨h1, h2, h3⟩ := div3Loop_spec hw x.digs hx.1.digits
  refine ⟨⟨digits_adjust h3, topNZ_adjust _⟩, ?_⟩
  rw [← hx.2]
  refine toInt_tdiv (b := 2 ^ w) (x := x) (z := div3 w x) 3 ?_ (Or.inl rfl)
  unfold div3
  simp only [val_adjust]
  omega

/-! ## Comba -/

theorem mulComba_spec {w : Nat} (hw : 0 < w) (old : Bool) {x y : Mpi} (hx : Digits (2 ^ w) x.digs)
    (hy : Digits (2 ^ w) y.digs) (hN : min x.digs.length y.digs.length < 2 ^ w) :
    val (2 ^ w) (mulComba w old x y).digs = val (2 ^ w) x.digs * val (2 ^ w) y.digs ∧
    Norm (2 ^ w) (mulComba w old x y) ∧ ((mulComba w old x y).neg = true → old = true) := by
  unfold mulComba
  split
  next h =>
    refine ⟨?_, norm_zero _ _, by simp⟩
    rcases h with h | h <;> simp [h]
  next h =>
    have hy0 : y.digs ≠ [] := fun e => h (Or.inr e)
    obtain ⟨h1, h2⟩ := combaDigs_spec hw hx hy hy0 hN
    exact ⟨by simp only [val_adjust]; exact h1, ⟨digits_adjust h2, topNZ_adjust _⟩, fun h => h⟩

/-! ## Karatsuba -/

/-- What a magnitude multiplication must do on operands with fewer than `n` digits in the
shorter one. -/
def MulOK (w n : Nat) (f : Mpi → Mpi → Option Mpi) : Prop :=
  ∀ x y, Norm (2 ^ w) x → Norm (2 ^ w) y → min x.digs.length y.digs.length < n →
    ∃ z, f x y = some z ∧ val (2 ^ w) z.digs = val (2 ^ w) x.digs * val (2 ^ w) y.digs ∧
      Norm (2 ^ w) z ∧ (x.neg = false → y.neg = false → z.neg = false)

theorem wf_of_norm_false {b : Nat} {x : Mpi} (h : Norm b x) (hn : x.neg = false) : WF b x :=
  ⟨h, fun _ => hn⟩

theorem toInt_false {b : Nat} {x : Mpi} (h : x.neg = false) : x.toInt b = val b x.digs := by
  unfold Mpi.toInt; rw [h]; simp

/-- The parts of a split operand. -/
theorem split_low {w : Nat} {x : Mpi} (hx : Norm (2 ^ w) x) (k : Nat) (hk : k ≤ x.digs.length) :
    Norm (2 ^ w) ⟨false, adjust (x.digs.take k)⟩ ∧ Norm (2 ^ w) ⟨false, x.digs.drop k⟩ ∧
    val (2 ^ w) x.digs = val (2 ^ w) (adjust (x.digs.take k)) +
      (2 ^ w) ^ k * val (2 ^ w) (x.digs.drop k) ∧
    (adjust (x.digs.take k)).length ≤ k := by
  refine ⟨⟨digits_adjust (hx.digits.take k), topNZ_adjust _⟩, ⟨hx.digits.drop k, hx.top.drop k⟩, ?_, ?_⟩
  · rw [val_adjust]; exact val_take_drop _ _ _ hk
  · have := length_adjust_le (x.digs.take k)
    rw [List.length_take] at this; omega

/-- Sum of two non-negative numbers: sign and length. -/
theorem add_nonneg {w : Nat} (hw : 0 < w) {x y : Mpi} (hx : Norm (2 ^ w) x) (hy : Norm (2 ^ w) y)
    (hxn : x.neg = false) (hyn : y.neg = false) :
    ∃ z, add (2 ^ w) x y = some z ∧ val (2 ^ w) z.digs = val (2 ^ w) x.digs + val (2 ^ w) y.digs ∧
      Norm (2 ^ w) z ∧ z.neg = false ∧ z.digs.length ≤ max x.digs.length y.digs.length + 1 := by
  have hb := one_lt_two_pow hw
  obtain ⟨h1, h2, h3⟩ := addAbs_spec hb hx hy
  refine ⟨{ addAbs (2 ^ w) x y with neg := x.neg }, ?_, h1, norm_with_neg h2 _, hxn, ?_⟩
  · unfold add; rw [if_pos (by rw [hxn, hyn])]
  · apply length_le_of_lt hb (norm_with_neg h2 _)
    simp only
    rw [h1]
    have h4 := val_lt hx.digits
    have h5 := val_lt hy.digits
    have h6 : (2 ^ w) ^ x.digs.length ≤ (2 ^ w) ^ (max x.digs.length y.digs.length) :=
      Nat.pow_le_pow_right (by omega) (by omega)
    have h7 : (2 ^ w) ^ y.digs.length ≤ (2 ^ w) ^ (max x.digs.length y.digs.length) :=
      Nat.pow_le_pow_right (by omega) (by omega)
    rw [pow_succ]
    have h8 : (2 ^ w) ^ (max x.digs.length y.digs.length) * 2 ≤
      (2 ^ w) ^ (max x.digs.length y.digs.length) * 2 ^ w := Nat.mul_le_mul_left _ hb
    omega

theorem mulKaratsuba_spec {w : Nat} (hw : 0 < w) {f : Mpi → Mpi → Option Mpi} {x y : Mpi}
    (hx : Norm (2 ^ w) x) (hy : Norm (2 ^ w) y) (hn : 4 < min x.digs.length y.digs.length)
    (hf : MulOK w (min x.digs.length y.digs.length) f) :
    ∃ z, mulKaratsuba w f x y = some z ∧
      val (2 ^ w) z.digs = val (2 ^ w) x.digs * val (2 ^ w) y.digs ∧ Norm (2 ^ w) z ∧
      z.neg = false := by
  have hb := one_lt_two_pow hw
  unfold mulKaratsuba
  rw [if_neg (by
    rintro (h | h) <;> rw [h] at hn <;> simp at hn)]
  dsimp only
  generalize hhB : min x.digs.length y.digs.length / 2 = hB
  obtain ⟨nx0, nx1, vx, lx0⟩ := split_low hx hB (by omega)
  obtain ⟨ny0, ny1, vy, ly0⟩ := split_low hy hB (by omega)
  have lx1 : (x.digs.drop hB).length = x.digs.length - hB := List.length_drop
  have ly1 : (y.digs.drop hB).length = y.digs.length - hB := List.length_drop
  generalize hX0 : adjust (x.digs.take hB) = X0 at *
  generalize hY0 : adjust (y.digs.take hB) = Y0 at *
  generalize hX1 : x.digs.drop hB = X1 at *
  generalize hY1 : y.digs.drop hB = Y1 at *
  obtain ⟨z0, e0, v0, n0, s0⟩ := hf ⟨false, X0⟩ ⟨false, Y0⟩ nx0 ny0 (by simp only; omega)
  obtain ⟨z2, e2, v2, n2, s2⟩ := hf ⟨false, X1⟩ ⟨false, Y1⟩ nx1 ny1 (by simp only; omega)
  have s0 := s0 rfl rfl
  have s2 := s2 rfl rfl
  obtain ⟨z1, e1, v1, n1, s1, l1⟩ := add_nonneg hw nx1 nx0 rfl rfl
  obtain ⟨x0, ex, vx0, nx0', sx0, lx0'⟩ := add_nonneg hw ny1 ny0 rfl rfl
  obtain ⟨z1', e1', v1', n1', s1'⟩ := hf z1 x0 n1 nx0' (by simp only at l1 lx0'; omega)
  have s1' := s1' s1 sx0
  obtain ⟨x0', ex', vx0', nx0'', sx0', -⟩ := add_nonneg hw n0 n2 s0 s2
  obtain ⟨z1'', e1'', r1''⟩ := sub_rep hw (x := z1') (y := x0') (u := val (2 ^ w) z1'.digs)
    (v := val (2 ^ w) x0'.digs) ⟨n1', toInt_false s1'⟩ ⟨nx0'', toInt_false sx0'⟩
  have r1s := shld_rep hw r1'' hB
  have r2s := shld_rep hw (x := z2) (u := val (2 ^ w) z2.digs) ⟨n2, toInt_false s2⟩ (2 * hB)
  obtain ⟨z1f, e1f, r1f⟩ := add_rep hw (x := z0) (u := val (2 ^ w) z0.digs) ⟨n0, toInt_false s0⟩ r1s
  obtain ⟨r, er, rr⟩ := add_rep hw r1f r2s
  refine ⟨r, ?_, ?_⟩
  · simp only [e0, e2, e1, ex, e1', ex', e1'', e1f, er, Option.bind_eq_bind, Option.bind_some]
  · have hval : ((val (2 ^ w) z0.digs : Int) + ((val (2 ^ w) z1'.digs : Int) -
        (val (2 ^ w) x0'.digs : Int)) * ((2 ^ w) ^ hB : Nat)) +
        (val (2 ^ w) z2.digs : Int) * ((2 ^ w) ^ (2 * hB) : Nat) =
        ((val (2 ^ w) x.digs * val (2 ^ w) y.digs : Nat) : Int) := by
      rw [v1', v1, vx0, vx0', v0, v2, vx, vy]
      simp only
      have e : (2 ^ w) ^ (2 * hB) = (2 ^ w) ^ hB * (2 ^ w) ^ hB := by rw [two_mul, pow_add]
      rw [e]
      push_cast
      ring
    rw [hval] at rr
    have hpos : 0 < val (2 ^ w) x.digs * val (2 ^ w) y.digs := by
      apply Nat.mul_pos
      · apply Nat.pos_of_ne_zero
        intro h
        rw [val_eq_zero_iff (by omega) hx.top] at h
        rw [h] at hn; simp at hn
      · apply Nat.pos_of_ne_zero
        intro h
        rw [val_eq_zero_iff (by omega) hy.top] at h
        rw [h] at hn; simp at hn
    refine ⟨?_, rr.1, rr.nonneg (by exact_mod_cast hpos)⟩
    rw [rr.val_eq, Int.natAbs_natCast]

/-! ## Toom-3 -/

theorem bind_step {α β : Type} {o : Option α} {a : α} {f : α → Option β} {r : Option β}
    (h : o = some a) (h2 : f a = r) : (o >>= f) = r := by subst h; exact h2


theorem mulWith_rep {w n : Nat} {f : Mpi → Mpi → Option Mpi} (hf : MulOK w n f) {x y : Mpi}
    {u v : Int} (hx : Rep w x u) (hy : Rep w y v)
    (hl : x.digs.length < n ∨ y.digs.length < n) :
    ∃ z, mulWith f x y = some z ∧ Rep w z (u * v) := by
  obtain ⟨z, h1, h2, h3, h4⟩ := hf x y hx.1 hy.1 (by omega)
  unfold mulWith
  rw [h1]
  refine ⟨_, rfl, ?_⟩
  rw [← hx.2, ← hy.2]
  have hb : 0 < 2 ^ w := Nat.two_pow_pos w
  by_cases hz : z.digs = []
  · simp only [hz]
    refine ⟨by simpa using h3, ?_⟩
    have h0 : val (2 ^ w) x.digs * val (2 ^ w) y.digs = 0 := by rw [← h2, hz]; rfl
    have e1 := natAbs_toInt (2 ^ w) x
    have e2 := natAbs_toInt (2 ^ w) y
    have : x.toInt (2 ^ w) * y.toInt (2 ^ w) = 0 := by
      rw [← Int.natAbs_eq_zero, Int.natAbs_mul, e1, e2, h0]
    rw [this, if_neg (by simp), toInt_eq_zero_iff hb h3]
    exact hz
  · dsimp only
    rw [if_pos hz]
    refine ⟨norm_with_neg h3 _, ?_⟩
    unfold Mpi.toInt
    simp only [h2]
    cases x.neg <;> cases y.neg <;> simp

theorem tdiv_tdiv_nat (u : Int) (p q : Nat) : (u.tdiv p).tdiv q = u.tdiv (p * q) := by
  have key : ∀ n : Nat, ((n : Int).tdiv p).tdiv q = (n : Int).tdiv (p * q) := by
    intro n
    rw [← Int.ofNat_tdiv, ← Int.ofNat_tdiv, Nat.div_div_eq_div_mul, Int.ofNat_tdiv]
    push_cast; rfl
  rcases Int.eq_nat_or_neg u with ⟨n, rfl | rfl⟩
  · exact key n
  · rw [Int.neg_tdiv, Int.neg_tdiv, Int.neg_tdiv, key]

/-- The three parts of an operand: their values and sizes. -/
theorem toom_split {w : Nat} {x : Mpi} {u : Int} (hx : Rep w x u) (B : Nat) :
    ∃ a0 a1 a2 : Int, Rep w (modDigits x B) a0 ∧ Rep w (modDigits (shrd x B) B) a1 ∧
      Rep w (shrd x (B * 2)) a2 ∧
      u = a0 + a1 * ((2 ^ w) ^ B : Nat) + a2 * (((2 ^ w) ^ B : Nat) * ((2 ^ w) ^ B : Nat)) ∧
      a0.natAbs < (2 ^ w) ^ B ∧ a1.natAbs < (2 ^ w) ^ B ∧
      a2.natAbs < (2 ^ w) ^ (x.digs.length - 2 * B) := by
  have hp : 0 < (2 ^ w) ^ B := Nat.pow_pos (Nat.two_pow_pos w)
  have r0 := modDigits_rep hx B
  have r1 := modDigits_rep (shrd_rep hx B) B
  have r2 := shrd_rep hx (B * 2)
  refine ⟨_, _, _, r0, r1, r2, ?_, ?_, ?_, ?_⟩
  · have e : (2 ^ w) ^ (B * 2) = (2 ^ w) ^ B * (2 ^ w) ^ B := by rw [mul_two, pow_add]
    rw [e]
    generalize (2 ^ w) ^ B = p at *
    have h1 := Int.mul_tdiv_add_tmod u p
    have h2 := Int.mul_tdiv_add_tmod (u.tdiv p) p
    have h3 : (u.tdiv p).tdiv p = u.tdiv (p * p) := by
      exact tdiv_tdiv_nat u p p
    push_cast
    rw [← h3]
    generalize (u.tdiv p).tdiv p = q2 at *
    generalize (u.tdiv p).tmod p = m2 at *
    generalize u.tdiv p = q at *
    generalize u.tmod p = m at *
    rw [← h1, ← h2]; ring
  · rw [Int.natAbs_tmod]; exact Nat.mod_lt _ (by simpa using hp)
  · rw [Int.natAbs_tmod]; exact Nat.mod_lt _ (by simpa using hp)
  · rw [← r2.val_eq]
    have h1 := val_lt r2.1.digits
    have h2 : (shrd x (B * 2)).digs.length = x.digs.length - 2 * B := by
      unfold shrd
      split
      next h => rcases h with h | h
                · have : B = 0 := by omega
                  subst this; simp
                · simp [h]
      next h =>
        split
        · simp only [List.length_nil]; omega
        · simp only [List.length_drop]; omega
    rwa [h2] at h1

theorem rep_length {w k : Nat} (hw : 0 < w) {z : Mpi} {v : Int} (hz : Rep w z v)
    (h : v.natAbs < (2 ^ w) ^ k) : z.digs.length ≤ k :=
  length_le_of_lt (one_lt_two_pow hw) hz.1 (by rw [hz.val_eq]; exact h)

set_option maxHeartbeats 1000000 in
theorem mulToom3_spec {w : Nat} (hw : 2 ≤ w) {f : Mpi → Mpi → Option Mpi} {x y : Mpi}
    (hx : Norm (2 ^ w) x) (hy : Norm (2 ^ w) y) (hn : 6 < min x.digs.length y.digs.length)
    (hf : MulOK w (min x.digs.length y.digs.length) f) :
    ∃ z, mulToom3 w (mulWith f) x y = some z ∧
      Rep w z (x.toInt (2 ^ w) * y.toInt (2 ^ w)) := by
  have hw0 : 0 < w := by omega
  have hb := one_lt_two_pow hw0
  unfold mulToom3
  rw [if_neg (by
    rintro (h | h) <;> rw [h] at hn <;> simp at hn)]
  dsimp only
  generalize hB : min x.digs.length y.digs.length / 3 = B
  generalize hN : min x.digs.length y.digs.length = N at *
  obtain ⟨a0, a1, a2, ra0, ra1, ra2, hu, ba0, ba1, ba2⟩ := toom_split (x := x) ⟨hx, rfl⟩ B
  obtain ⟨b0, b1, b2, rb0, rb1, rb2, hv, bb0, bb1, bb2⟩ := toom_split (x := y) ⟨hy, rfl⟩ B
  rw [hu, hv]
  -- bound for everything derived from the shorter operand
  have key : ∀ (L : Nat) (c0 c1 c2 : Int), L = N → c0.natAbs < (2 ^ w) ^ B →
      c1.natAbs < (2 ^ w) ^ B → c2.natAbs < (2 ^ w) ^ (L - 2 * B) →
      ∀ (z : Mpi) (v : Int), Rep w z v →
        v.natAbs ≤ c0.natAbs + 2 * c1.natAbs + 4 * c2.natAbs → z.digs.length < N := by
    intro L c0 c1 c2 hL h0 h1 h2 z v hz hle
    have h3 : (2 ^ w) ^ B ≤ (2 ^ w) ^ (L - 2 * B) := Nat.pow_le_pow_right (by omega) (by omega)
    have h4 : 2 ^ 3 ≤ (2 ^ w) ^ 2 := by
      rw [← pow_mul]; exact Nat.pow_le_pow_right (by omega) (by omega)
    have h5 : (2 ^ w) ^ (L - 2 * B) * 2 ^ 3 ≤ (2 ^ w) ^ (L - 2 * B) * (2 ^ w) ^ 2 :=
      Nat.mul_le_mul_left _ h4
    rw [← pow_add] at h5
    have := rep_length hw0 hz (k := L - 2 * B + 2) (by omega)
    omega
  have keyx : ∀ (z : Mpi) (v : Int), Rep w z v →
      v.natAbs ≤ a0.natAbs + 2 * a1.natAbs + 4 * a2.natAbs →
      x.digs.length = N → z.digs.length < N := fun z v hz hle h =>
    key _ a0 a1 a2 h ba0 ba1 ba2 z v hz hle
  have keyy : ∀ (z : Mpi) (v : Int), Rep w z v →
      v.natAbs ≤ b0.natAbs + 2 * b1.natAbs + 4 * b2.natAbs →
      y.digs.length = N → z.digs.length < N := fun z v hz hle h =>
    key _ b0 b1 b2 h bb0 bb1 bb2 z v hz hle
  have hside : x.digs.length = N ∨ y.digs.length = N := by omega
  have hmul : ∀ (p q : Mpi) (s t : Int), Rep w p s → Rep w q t →
      s.natAbs ≤ a0.natAbs + 2 * a1.natAbs + 4 * a2.natAbs →
      t.natAbs ≤ b0.natAbs + 2 * b1.natAbs + 4 * b2.natAbs →
      ∃ z, mulWith f p q = some z ∧ Rep w z (s * t) := by
    intro p q s t hp hq hs ht
    apply mulWith_rep hf hp hq
    rcases hside with h | h
    · left; exact keyx p s hp hs h
    · right; exact keyy q t hq ht h
  clear key keyx keyy
  generalize modDigits x B = A0 at *
  generalize modDigits (shrd x B) B = A1 at *
  generalize shrd x (B * 2) = A2 at *
  generalize modDigits y B = B0 at *
  generalize modDigits (shrd y B) B = B1 at *
  generalize shrd y (B * 2) = B2 at *
  obtain ⟨t1, et1, rt1⟩ := add_rep hw0 ra0 ra2
  obtain ⟨t2, et2, rt2⟩ := add_rep hw0 rb0 rb2
  obtain ⟨p1, ep1, rp1⟩ := add_rep hw0 rt1 ra1
  obtain ⟨p2, ep2, rp2⟩ := add_rep hw0 rt2 rb1
  obtain ⟨w1, ew1, rw1⟩ := hmul p1 p2 _ _ rp1 rp2 (by omega) (by omega)
  obtain ⟨t3, et3, rt3⟩ := sub_rep hw0 rt1 ra1
  obtain ⟨t4, et4, rt4⟩ := sub_rep hw0 rt2 rb1
  obtain ⟨w2, ew2, rw2⟩ := hmul t3 t4 _ _ rt3 rt4 (by omega) (by omega)
  obtain ⟨t5, et5, rt5⟩ := add_rep hw0 rt3 ra2
  have rt5s := shl_rep hw0 rt5 1
  obtain ⟨t6, et6, rt6⟩ := sub_rep hw0 rt5s ra0
  obtain ⟨t7, et7, rt7⟩ := add_rep hw0 rt4 rb2
  have rt7s := shl_rep hw0 rt7 1
  obtain ⟨t8, et8, rt8⟩ := sub_rep hw0 rt7s rb0
  obtain ⟨w3, ew3, rw3⟩ := hmul t6 t8 _ _ rt6 rt8 (by omega) (by omega)
  obtain ⟨w0, ew0, rw0⟩ := hmul A0 B0 _ _ ra0 rb0 (by omega) (by omega)
  obtain ⟨w4, ew4, rw4⟩ := hmul A2 B2 _ _ ra2 rb2 (by omega) (by omega)
  obtain ⟨w3a, ew3a, rw3a⟩ := sub_rep hw0 rw3 rw1
  have rw3b := div3_rep hw rw3a
  obtain ⟨w1a, ew1a, rw1a⟩ := sub_rep hw0 rw1 rw2
  have rw1b := shr_rep hw0 rw1a 1
  obtain ⟨w2a, ew2a, rw2a⟩ := sub_rep hw0 rw2 rw0
  -- exactness of the two divisions
  have d3 : Int.tdiv (((a0 + a2 - a1 + a2) * 2 ^ 1 - a0) * ((b0 + b2 - b1 + b2) * 2 ^ 1 - b0) -
      (a0 + a2 + a1) * (b0 + b2 + b1)) 3 =
      -(a0 * b1 + a1 * b0) + (a0 * b2 + a1 * b1 + a2 * b0) - 3 * (a1 * b2 + a2 * b1) +
        5 * (a2 * b2) := by
    apply Int.tdiv_eq_of_eq_mul_right (by omega); ring
  have d2 : Int.tdiv ((a0 + a2 + a1) * (b0 + b2 + b1) - (a0 + a2 - a1) * (b0 + b2 - b1))
      ((2 ^ 1 : Nat) : Int) = (a0 * b1 + a1 * b0) + (a1 * b2 + a2 * b1) := by
    apply Int.tdiv_eq_of_eq_mul_right (by norm_num); push_cast; ring
  rw [d3] at rw3b
  rw [d2] at rw1b
  obtain ⟨w3c, ew3c, rw3c⟩ := sub_rep hw0 rw2a rw3b
  have rw3d := shr_rep hw0 rw3c 1
  have d2' : Int.tdiv ((a0 + a2 - a1) * (b0 + b2 - b1) - a0 * b0 -
      (-(a0 * b1 + a1 * b0) + (a0 * b2 + a1 * b1 + a2 * b0) - 3 * (a1 * b2 + a2 * b1) +
        5 * (a2 * b2))) ((2 ^ 1 : Nat) : Int) = (a1 * b2 + a2 * b1) - 2 * (a2 * b2) := by
    apply Int.tdiv_eq_of_eq_mul_right (by norm_num); push_cast; ring
  rw [d2'] at rw3d
  have rt9 := shl_rep hw0 rw4 1
  obtain ⟨w3e, ew3e, rw3e⟩ := add_rep hw0 rw3d rt9
  obtain ⟨w2b, ew2b, rw2b⟩ := add_rep hw0 rw2a rw1b
  obtain ⟨w2c, ew2c, rw2c⟩ := sub_rep hw0 rw2b rw4
  obtain ⟨w1c, ew1c, rw1c⟩ := sub_rep hw0 rw1b rw3e
  have q1 := shld_rep hw0 rw1c (1 * B)
  have q2 := shld_rep hw0 rw2c (2 * B)
  have q3 := shld_rep hw0 rw3e (3 * B)
  have q4 := shld_rep hw0 rw4 (4 * B)
  obtain ⟨r, er, rr⟩ := add_rep hw0 rw0 q1
  obtain ⟨s1, es1, rs1⟩ := add_rep hw0 q2 q3
  obtain ⟨s2, es2, rs2⟩ := add_rep hw0 q4 rs1
  obtain ⟨z, ez, rz⟩ := add_rep hw0 rs2 rr
  refine ⟨z, ?_, rz.1, ?_⟩
  · refine bind_step et1 ?_
    refine bind_step et2 ?_
    refine bind_step ep1 ?_
    refine bind_step ep2 ?_
    refine bind_step ew1 ?_
    refine bind_step et3 ?_
    refine bind_step et4 ?_
    refine bind_step ew2 ?_
    refine bind_step et5 ?_
    refine bind_step et6 ?_
    refine bind_step et7 ?_
    refine bind_step et8 ?_
    refine bind_step ew3 ?_
    refine bind_step ew0 ?_
    refine bind_step ew4 ?_
    refine bind_step ew3a ?_
    refine bind_step ew1a ?_
    refine bind_step ew2a ?_
    refine bind_step ew3c ?_
    refine bind_step ew3e ?_
    refine bind_step ew2b ?_
    refine bind_step ew2c ?_
    refine bind_step ew1c ?_
    refine bind_step er ?_
    refine bind_step es1 ?_
    refine bind_step es2 ?_
    exact ez
  · rw [rz.2]
    have e1 : (2 ^ w) ^ (1 * B) = (2 ^ w) ^ B := by rw [one_mul]
    have e2 : (2 ^ w) ^ (2 * B) = (2 ^ w) ^ B * (2 ^ w) ^ B := by rw [two_mul, pow_add]
    have e3 : (2 ^ w) ^ (3 * B) = (2 ^ w) ^ B * (2 ^ w) ^ B * (2 ^ w) ^ B := by
      rw [← pow_add, ← pow_add]; congr 1; omega
    have e4 : (2 ^ w) ^ (4 * B) = (2 ^ w) ^ B * (2 ^ w) ^ B * (2 ^ w) ^ B * (2 ^ w) ^ B := by
      rw [← pow_add, ← pow_add, ← pow_add]; congr 1; omega
    rw [e1, e2, e3, e4]
    generalize (2 ^ w) ^ B = p
    push_cast
    ring

/-! ## the dispatcher -/

theorem mulAbs_spec {w : Nat} (hw : 8 ≤ w) : ∀ (fuel : Nat) (old : Bool) (x y : Mpi),
    Norm (2 ^ w) x → Norm (2 ^ w) y → min x.digs.length y.digs.length < fuel →
    ∃ z, mulAbs w fuel old x y = some z ∧
      val (2 ^ w) z.digs = val (2 ^ w) x.digs * val (2 ^ w) y.digs ∧ Norm (2 ^ w) z ∧
      (x.neg = false → y.neg = false → z.neg = true → old = true) ∧
      (z.neg = true → z.digs = [] → False)
  | 0, _, _, _, _, _, h => by omega
  | fuel + 1, old, x, y, hx, hy, hlt => by
    have hw0 : 0 < w := by omega
    have hb := one_lt_two_pow hw0
    have hpos : 0 < min x.digs.length y.digs.length →
        0 < val (2 ^ w) x.digs ∧ 0 < val (2 ^ w) y.digs := by
      intro hn
      constructor
      · apply Nat.pos_of_ne_zero
        intro h
        rw [val_eq_zero_iff (by omega) hx.top] at h
        rw [h] at hn; simp at hn
      · apply Nat.pos_of_ne_zero
        intro h
        rw [val_eq_zero_iff (by omega) hy.top] at h
        rw [h] at hn; simp at hn
    have hrec : ∀ n, n ≤ fuel → MulOK w n (mulAbs w fuel false) := by
      intro n hn a b ha hbn hmin
      obtain ⟨z, h1, h2, h3, h4, -⟩ := mulAbs_spec hw fuel false a b ha hbn (by omega)
      refine ⟨z, h1, h2, h3, fun ha hb => ?_⟩
      cases hz : z.neg with
      | false => rfl
      | true => exact absurd (h4 ha hb hz) (by simp)
    unfold mulAbs
    split
    next h =>
      obtain ⟨z, h1, h2⟩ := mulToom3_spec (by omega) hx hy (by omega) (hrec _ (by omega))
      obtain ⟨px, py⟩ := hpos (by omega)
      have hv : val (2 ^ w) z.digs = val (2 ^ w) x.digs * val (2 ^ w) y.digs := by
        rw [h2.val_eq, Int.natAbs_mul, natAbs_toInt, natAbs_toInt]
      refine ⟨z, h1, hv, h2.1, ?_, ?_⟩
      · intro hxn hyn hzn
        have := h2.nonneg (by
          rw [toInt_false hxn, toInt_false hyn]
          exact_mod_cast Nat.mul_pos px py)
        rw [this] at hzn; simp at hzn
      · intro _ h0
        rw [h0] at hv
        have := Nat.mul_pos px py
        simp only [val_nil] at hv
        omega
    next h =>
      split
      next h' =>
        obtain ⟨z, h1, h2, h3, h4⟩ := mulKaratsuba_spec hw0 hx hy (by omega) (hrec _ (by omega))
        refine ⟨z, h1, h2, h3, ?_, ?_⟩
        · intro _ _ hzn; rw [h4] at hzn; simp at hzn
        · intro hzn; rw [h4] at hzn; simp at hzn
      next h' =>
        have h64 : 64 < 2 ^ w := by
          calc 64 < 2 ^ 8 := by norm_num
            _ ≤ 2 ^ w := Nat.pow_le_pow_right (by omega) hw
        obtain ⟨h1, h2, h3⟩ := mulComba_spec hw0 old hx.digits hy.digits (by omega)
        refine ⟨_, rfl, h1, h2, fun _ _ => h3, ?_⟩
        intro hzn h0
        -- a product that is zero comes from the early exit, with sign 0
        rw [h0, val_nil] at h1
        unfold mulComba at hzn
        split at hzn
        next hz => simp at hzn
        next hz =>
          have hlen : 0 < min x.digs.length y.digs.length := by
            have : x.digs ≠ [] := fun e => hz (Or.inl e)
            have : y.digs ≠ [] := fun e => hz (Or.inr e)
            have := List.length_pos_iff.2 ‹x.digs ≠ []›
            have := List.length_pos_iff.2 ‹y.digs ≠ []›
            omega
          obtain ⟨px, py⟩ := hpos hlen
          have := Nat.mul_pos px py
          omega

theorem mul_spec {w : Nat} (hw : 8 ≤ w) (old : Bool) {x y : Mpi} (hx : Norm (2 ^ w) x)
    (hy : Norm (2 ^ w) y) :
    ∃ z, mul w old x y = some z ∧ z.toInt (2 ^ w) = x.toInt (2 ^ w) * y.toInt (2 ^ w) ∧
      WF (2 ^ w) z := by
  obtain ⟨z, h1, h2, h3, -, h5⟩ := mulAbs_spec hw _ old x y hx hy (Nat.lt_succ_self _)
  unfold mul mulWith
  rw [h1]
  refine ⟨_, rfl, ?_, ?_⟩ <;> dsimp only
  · by_cases hz : z.digs = []
    · rw [if_neg (by simpa using hz)]
      have hzn : z.neg = false := by
        cases hn : z.neg with
        | false => rfl
        | true => exact absurd hz (fun e => h5 hn e)
      rw [toInt_false hzn, hz]
      have h0 : val (2 ^ w) x.digs * val (2 ^ w) y.digs = 0 := by rw [← h2, hz]; rfl
      have e1 := natAbs_toInt (2 ^ w) x
      have e2 := natAbs_toInt (2 ^ w) y
      symm
      simp only [val_nil, Nat.cast_zero]
      rw [← Int.natAbs_eq_zero, Int.natAbs_mul, e1, e2, h0]
    · rw [if_pos hz]
      unfold Mpi.toInt
      simp only [h2]
      cases x.neg <;> cases y.neg <;> simp
  · by_cases hz : z.digs = []
    · rw [if_neg (by simpa using hz)]
      refine ⟨h3, fun h0 => ?_⟩
      cases hn : z.neg with
      | false => rfl
      | true => exact absurd hz (fun e => h5 hn e)
    · rw [if_pos hz]
      exact ⟨norm_with_neg h3 _, fun h0 => absurd h0 hz⟩

theorem mul_rep {w : Nat} (hw : 8 ≤ w) (old : Bool) {x y : Mpi} {u v : Int} (hx : Rep w x u)
    (hy : Rep w y v) : ∃ z, mul w old x y = some z ∧ Rep w z (u * v) ∧ WF (2 ^ w) z := by
  obtain ⟨z, h1, h2, h3⟩ := mul_spec hw old hx.1 hy.1
  exact ⟨z, h1, ⟨h3.toNorm, by rw [h2, hx.2, hy.2]⟩, h3⟩

/-- Multiplication by a digit, zero included. -/
theorem mulDig_spec {w : Nat} (hw : 8 ≤ w) (old : Bool) {x : Mpi} (hx : Norm (2 ^ w) x) {d : Nat}
    (hd : d < 2 ^ w) :
    ∃ z, mulDig w old x d = some z ∧ Norm (2 ^ w) z ∧
      z.toInt (2 ^ w) = x.toInt (2 ^ w) * d ∧
      (z.neg = true → z.digs = [] → old = true) := by
  have hw0 : 0 < w := by omega
  have hb := one_lt_two_pow hw0
  have hc := mulComba_spec hw0 old (x := x) (y := ⟨false, [d]⟩) hx.digits (by simpa using hd)
    (by simp only [List.length_singleton]; omega)
  unfold mulDig mul mulWith
  have e : mulAbs w (min x.digs.length [d].length + 1) old x ⟨false, [d]⟩ =
      some (mulComba w old x ⟨false, [d]⟩) := by
    unfold mulAbs
    simp only [List.length_singleton]
    rw [if_neg (by omega), if_neg (by omega)]
  simp only [e, Option.map_some]
  obtain ⟨h1, h2, h3⟩ := hc
  simp only [val_cons, val_nil, Nat.mul_zero, Nat.add_zero] at h1
  generalize mulComba w old x ⟨false, [d]⟩ = z at *
  refine ⟨_, rfl, ?_⟩
  by_cases hz : z.digs = []
  · rw [if_neg (by simpa using hz)]
    refine ⟨h2, ?_, fun hn _ => h3 hn⟩
    have h0 : val (2 ^ w) x.digs * d = 0 := by rw [← h1, hz]; rfl
    rw [(toInt_eq_zero_iff (by omega) h2).2 hz]
    symm
    rw [← Int.natAbs_eq_zero, Int.natAbs_mul, natAbs_toInt]
    simpa using h0
  · rw [if_pos hz]
    refine ⟨norm_with_neg h2 _, ?_, fun _ h0 => absurd h0 hz⟩
    unfold Mpi.toInt
    simp only [h1]
    cases x.neg <;> simp

/-! ## squaring -/

theorem sqrComba_spec {w : Nat} (hw : 0 < w) (old : Bool) {x : Mpi} (hx : Norm (2 ^ w) x)
    (hN : x.digs.length < 2 ^ w) :
    val (2 ^ w) (sqrComba w old x).digs = val (2 ^ w) x.digs * val (2 ^ w) x.digs ∧
    Norm (2 ^ w) (sqrComba w old x) ∧
    (sqrComba w old x).neg = (if x.digs = [] then false else old) := by
  unfold sqrComba
  split
  next h => simp [h]; exact norm_zero _ _
  next h =>
    obtain ⟨h1, h2⟩ := sqrCombaDigs_spec hw hx.digits h hN
    exact ⟨by simp only [val_adjust]; exact h1, ⟨digits_adjust h2, topNZ_adjust _⟩, rfl⟩

theorem sqrKaratsuba_spec {w : Nat} (hw : 0 < w) {f : Mpi → Option Mpi} {x : Mpi}
    (hx : Norm (2 ^ w) x) (hn : 4 < x.digs.length)
    (hf : ∀ y, Norm (2 ^ w) y → y.digs.length < x.digs.length →
      ∃ z, f y = some z ∧ val (2 ^ w) z.digs = val (2 ^ w) y.digs * val (2 ^ w) y.digs ∧
        Norm (2 ^ w) z ∧ z.neg = false) :
    ∃ z, sqrKaratsuba w f x = some z ∧
      val (2 ^ w) z.digs = val (2 ^ w) x.digs * val (2 ^ w) x.digs ∧ Norm (2 ^ w) z ∧
      z.neg = false := by
  have hb := one_lt_two_pow hw
  unfold sqrKaratsuba
  rw [if_neg (by intro h; rw [h] at hn; simp at hn)]
  dsimp only
  generalize hhB : x.digs.length / 2 = hB
  obtain ⟨nx0, nx1, vx, lx0⟩ := split_low hx hB (by omega)
  have lx1 : (x.digs.drop hB).length = x.digs.length - hB := List.length_drop
  generalize hX0 : adjust (x.digs.take hB) = X0 at *
  generalize hX1 : x.digs.drop hB = X1 at *
  obtain ⟨z0, e0, v0, n0, s0⟩ := hf ⟨false, X0⟩ nx0 (by simp only; omega)
  obtain ⟨z2, e2, v2, n2, s2⟩ := hf ⟨false, X1⟩ nx1 (by simp only; omega)
  obtain ⟨z1, e1, v1, n1, s1, l1⟩ := add_nonneg hw nx1 nx0 rfl rfl
  obtain ⟨z1', e1', v1', n1', s1'⟩ := hf z1 n1 (by simp only at l1; omega)
  obtain ⟨x0', ex', vx0', nx0'', sx0', -⟩ := add_nonneg hw n0 n2 s0 s2
  obtain ⟨z1'', e1'', r1''⟩ := sub_rep hw (x := z1') (y := x0') (u := val (2 ^ w) z1'.digs)
    (v := val (2 ^ w) x0'.digs) ⟨n1', toInt_false s1'⟩ ⟨nx0'', toInt_false sx0'⟩
  have r1s := shld_rep hw r1'' hB
  have r2s := shld_rep hw (x := z2) (u := val (2 ^ w) z2.digs) ⟨n2, toInt_false s2⟩ (2 * hB)
  obtain ⟨z1f, e1f, r1f⟩ := add_rep hw (x := z0) (u := val (2 ^ w) z0.digs) ⟨n0, toInt_false s0⟩ r1s
  obtain ⟨r, er, rr⟩ := add_rep hw r1f r2s
  refine ⟨r, ?_, ?_⟩
  · simp only [e0, e2, e1, e1', ex', e1'', e1f, er, Option.bind_eq_bind, Option.bind_some]
  · have hval : ((val (2 ^ w) z0.digs : Int) + ((val (2 ^ w) z1'.digs : Int) -
        (val (2 ^ w) x0'.digs : Int)) * ((2 ^ w) ^ hB : Nat)) +
        (val (2 ^ w) z2.digs : Int) * ((2 ^ w) ^ (2 * hB) : Nat) =
        ((val (2 ^ w) x.digs * val (2 ^ w) x.digs : Nat) : Int) := by
      rw [v1', v1, vx0', v0, v2, vx]
      simp only
      have e : (2 ^ w) ^ (2 * hB) = (2 ^ w) ^ hB * (2 ^ w) ^ hB := by rw [two_mul, pow_add]
      rw [e]
      push_cast
      ring
    rw [hval] at rr
    have hpos : 0 < val (2 ^ w) x.digs * val (2 ^ w) x.digs := by
      have : 0 < val (2 ^ w) x.digs := by
        apply Nat.pos_of_ne_zero
        intro h
        rw [val_eq_zero_iff (by omega) hx.top] at h
        rw [h] at hn; simp at hn
      exact Nat.mul_pos this this
    refine ⟨?_, rr.1, rr.nonneg (by exact_mod_cast hpos)⟩
    rw [rr.val_eq, Int.natAbs_natCast]

theorem sqrFuel_spec {w : Nat} (hw : 8 ≤ w) : ∀ (fuel : Nat) (old : Bool) (x : Mpi),
    Norm (2 ^ w) x → x.digs.length < fuel →
    ∃ z, sqrFuel w fuel old x = some z ∧
      val (2 ^ w) z.digs = val (2 ^ w) x.digs * val (2 ^ w) x.digs ∧ Norm (2 ^ w) z ∧
      z.neg = (if x.digs = [] ∨ x.digs.length > 64 then false else old)
  | 0, _, _, _, h => by omega
  | fuel + 1, old, x, hx, hlt => by
    have hw0 : 0 < w := by omega
    have h64 : 64 < 2 ^ w := by
      calc 64 < 2 ^ 8 := by norm_num
        _ ≤ 2 ^ w := Nat.pow_le_pow_right (by omega) hw
    unfold sqrFuel
    split
    next h =>
      obtain ⟨z, h1, h2, h3, h4⟩ := sqrKaratsuba_spec hw0 (f := sqrFuel w fuel false) hx (by omega)
        (by
          intro y hy hl
          obtain ⟨z, g1, g2, g3, g4⟩ := sqrFuel_spec hw fuel false y hy (by omega)
          exact ⟨z, g1, g2, g3, by rw [g4]; simp⟩)
      exact ⟨z, h1, h2, h3, by rw [h4, if_pos (Or.inr h)]⟩
    next h =>
      obtain ⟨h1, h2, h3⟩ := sqrComba_spec hw0 old hx (by omega)
      refine ⟨_, rfl, h1, h2, ?_⟩
      rw [h3]
      by_cases hz : x.digs = [] <;> simp [hz]; omega

theorem sqr_spec {w : Nat} (hw : 8 ≤ w) (old : Bool) {x : Mpi} (hx : Norm (2 ^ w) x) :
    ∃ z, sqr w old x = some z ∧
      val (2 ^ w) z.digs = val (2 ^ w) x.digs * val (2 ^ w) x.digs ∧ Norm (2 ^ w) z ∧
      z.neg = (if x.digs = [] ∨ x.digs.length > 64 then false else old) :=
  sqrFuel_spec hw _ old x hx (Nat.lt_succ_self _)

end Verif.Mpi
