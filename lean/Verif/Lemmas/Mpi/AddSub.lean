import Verif.Model.Mpi.AddSub
import Mathlib.Tactic.Ring
import Mathlib.Tactic.Linarith
namespace Verif.Mpi

/-! ## Values and digits -/

@[simp] theorem val_nil (b : Nat) : val b [] = 0 := rfl
@[simp] theorem val_cons (b d : Nat) (ds : List Nat) : val b (d :: ds) = d + b * val b ds := rfl

theorem val_append (b : Nat) (xs ys : List Nat) :
    val b (xs ++ ys) = val b xs + b ^ xs.length * val b ys := by
  induction xs with
  | nil => simp
  | cons d ds ih => simp [ih, pow_succ]; ring

@[simp] theorem digits_nil (b : Nat) : Digits b [] := by intro d h; simp at h
@[simp] theorem digits_cons {b d : Nat} {ds : List Nat} :
    Digits b (d :: ds) ↔ d < b ∧ Digits b ds := by simp [Digits]
@[simp] theorem digits_append {b : Nat} {xs ys : List Nat} :
    Digits b (xs ++ ys) ↔ Digits b xs ∧ Digits b ys := by
  simp only [Digits, List.mem_append]
  constructor
  · intro h; exact ⟨fun d hd => h d (Or.inl hd), fun d hd => h d (Or.inr hd)⟩
  · rintro ⟨h1, h2⟩ d (hd | hd)
    · exact h1 d hd
    · exact h2 d hd

theorem Digits.take {b : Nat} {xs : List Nat} (h : Digits b xs) (n : Nat) :
    Digits b (xs.take n) := fun d hd => h d (List.mem_of_mem_take hd)
theorem Digits.drop {b : Nat} {xs : List Nat} (h : Digits b xs) (n : Nat) :
    Digits b (xs.drop n) := fun d hd => h d (List.mem_of_mem_drop hd)
theorem digits_replicate_zero {b : Nat} (hb : 0 < b) (n : Nat) :
    Digits b (List.replicate n 0) := by
  intro d hd; rw [List.mem_replicate] at hd; omega

theorem val_replicate_zero (b n : Nat) : val b (List.replicate n 0) = 0 := by
  induction n with
  | zero => rfl
  | succ n ih => simp [List.replicate_succ, ih]

theorem val_take_drop (b : Nat) (xs : List Nat) (n : Nat) (hn : n ≤ xs.length) :
    val b xs = val b (xs.take n) + b ^ n * val b (xs.drop n) := by
  conv_lhs => rw [← List.take_append_drop n xs]
  rw [val_append, List.length_take, Nat.min_eq_left hn]

theorem val_lt {b : Nat} {ds : List Nat} (h : Digits b ds) : val b ds < b ^ ds.length := by
  induction ds with
  | nil => simp
  | cons d ds ih =>
    rw [digits_cons] at h
    have := ih h.2
    simp only [val_cons, List.length_cons, pow_succ]
    have h1 : b * (val b ds + 1) ≤ b * b ^ ds.length := Nat.mul_le_mul_left _ this
    have h2 : b ^ ds.length * b = b * b ^ ds.length := Nat.mul_comm _ _
    rw [h2]
    have h3 := h.1
    rw [Nat.mul_add] at h1
    omega

@[simp] theorem topNZ_nil : TopNZ [] := by simp [TopNZ]
theorem topNZ_cons {d : Nat} {ds : List Nat} :
    TopNZ (d :: ds) ↔ (ds = [] ∧ d ≠ 0) ∨ (ds ≠ [] ∧ TopNZ ds) := by
  cases ds with
  | nil => simp [TopNZ]
  | cons e es => simp [TopNZ, List.getLast?_cons_cons]

theorem TopNZ.append {xs ys : List Nat} (h : TopNZ ys) (hne : ys ≠ []) : TopNZ (xs ++ ys) := by
  cases ys with
  | nil => exact absurd rfl hne
  | cons y ys => unfold TopNZ at *; rw [List.getLast?_append]; simpa using h

theorem TopNZ.drop {xs : List Nat} (h : TopNZ xs) (n : Nat) : TopNZ (xs.drop n) := by
  by_cases hn : n < xs.length
  · unfold TopNZ at *
    rwa [List.getLast?_drop, if_neg (by omega)]
  · rw [List.drop_of_length_le (by omega)]; simp

theorem val_pos_of_top {b : Nat} (hb : 0 < b) {ds : List Nat} (h : TopNZ ds) (hne : ds ≠ []) :
    b ^ (ds.length - 1) ≤ val b ds := by
  induction ds with
  | nil => exact absurd rfl hne
  | cons d ds ih =>
    rcases topNZ_cons.1 h with ⟨rfl, hd⟩ | ⟨hne', ht⟩
    · simp; omega
    · have := ih ht hne'
      have hl : 0 < ds.length := List.length_pos_iff.2 hne'
      simp only [List.length_cons, Nat.add_sub_cancel, val_cons]
      have : b * b ^ (ds.length - 1) ≤ b * val b ds := Nat.mul_le_mul_left _ this
      have h2 : b ^ ds.length = b * b ^ (ds.length - 1) := by
        conv_lhs => rw [show ds.length = (ds.length - 1) + 1 by omega, pow_succ]
        ring
      omega

theorem val_eq_zero_iff {b : Nat} (hb : 0 < b) {ds : List Nat} (h : TopNZ ds) :
    val b ds = 0 ↔ ds = [] := by
  constructor
  · intro h0
    by_contra hne
    have := val_pos_of_top hb h hne
    have : 0 < b ^ (ds.length - 1) := Nat.pow_pos hb
    omega
  · rintro rfl; rfl

/-- Two digit lists of the same length with the same value are equal. -/
theorem val_inj_len {b : Nat} : ∀ {xs ys : List Nat}, Digits b xs → Digits b ys →
    xs.length = ys.length → val b xs = val b ys → xs = ys
  | [], [], _, _, _, _ => rfl
  | [], _ :: _, _, _, hl, _ => by simp at hl
  | _ :: _, [], _, _, hl, _ => by simp at hl
  | x :: xs, y :: ys, hx, hy, hl, hv => by
    rw [digits_cons] at hx hy
    simp only [val_cons] at hv
    have hb : 0 < b := by have := hx.1; omega
    have h1 : x = y := by
      have := congrArg (· % b) hv
      simpa [Nat.mod_eq_of_lt hx.1, Nat.mod_eq_of_lt hy.1] using this
    subst h1
    have h2 : b * val b xs = b * val b ys := by omega
    have h3 := Nat.eq_of_mul_eq_mul_left hb h2
    rw [val_inj_len hx.2 hy.2 (by simpa using hl) h3]

theorem val_lt_of_len {b : Nat} (hb : 0 < b) {xs ys : List Nat} (hx : Digits b xs)
    (hty : TopNZ ys) (hl : xs.length < ys.length) : val b xs < val b ys := by
  have h1 := val_lt hx
  have h2 := val_pos_of_top hb hty (by intro h; rw [h] at hl; simp at hl)
  have h3 : b ^ xs.length ≤ b ^ (ys.length - 1) := Nat.pow_le_pow_right hb (by omega)
  omega

/-- Normalised representations are unique. -/
theorem val_inj {b : Nat} (hb : 0 < b) {xs ys : List Nat} (hx : Digits b xs) (hy : Digits b ys)
    (htx : TopNZ xs) (hty : TopNZ ys) (hv : val b xs = val b ys) : xs = ys := by
  rcases lt_trichotomy xs.length ys.length with h | h | h
  · have := val_lt_of_len hb hx hty h; omega
  · exact val_inj_len hx hy h hv
  · have := val_lt_of_len hb hy htx h; omega

/-! ## adjust -/

theorem val_adjust (b : Nat) (ds : List Nat) : val b (adjust ds) = val b ds := by
  induction ds with
  | nil => rfl
  | cons d ds ih =>
    rw [adjust]
    split
    next h =>
      rw [h, val_nil] at ih
      split
      next h0 => simp [h0, ← ih]
      next h0 => simp [← ih]
    next e es h => rw [h] at ih; simp only [val_cons] at ih ⊢; rw [ih]

theorem digits_adjust {b : Nat} {ds : List Nat} (h : Digits b ds) : Digits b (adjust ds) := by
  induction ds with
  | nil => exact h
  | cons d ds ih =>
    rw [digits_cons] at h
    have := ih h.2
    rw [adjust]
    split
    next => split <;> simp [h.1]
    next e es h' => rw [h'] at this; simp_all

theorem topNZ_adjust (ds : List Nat) : TopNZ (adjust ds) := by
  induction ds with
  | nil => simp [adjust]
  | cons d ds ih =>
    rw [adjust]
    split
    next => split <;> simp [TopNZ]; assumption
    next e es h' => rw [h'] at ih; rw [topNZ_cons]; right; exact ⟨by simp, ih⟩

theorem adjust_of_top {ds : List Nat} (h : TopNZ ds) : adjust ds = ds := by
  induction ds with
  | nil => rfl
  | cons d ds ih =>
    rcases topNZ_cons.1 h with ⟨rfl, hd⟩ | ⟨hne, ht⟩
    · simp [adjust, hd]
    · rw [adjust, ih ht]
      cases ds with
      | nil => exact absurd rfl hne
      | cons e es => rfl

theorem length_adjust_le (ds : List Nat) : (adjust ds).length ≤ ds.length := by
  induction ds with
  | nil => exact Nat.le_refl _
  | cons d ds ih =>
    rw [adjust]
    split
    next h => split <;> simp
    next e es h => rw [h] at ih; simp at ih ⊢; omega

/-! ## comparison -/

theorem cmpDigs_spec {b : Nat} : ∀ {xs ys : List Nat}, Digits b xs → Digits b ys →
    xs.length = ys.length →
    (cmpDigs xs ys = -1 ∧ val b xs < val b ys) ∨ (cmpDigs xs ys = 0 ∧ val b xs = val b ys) ∨
      (cmpDigs xs ys = 1 ∧ val b xs > val b ys)
  | [], [], _, _, _ => by simp [cmpDigs]
  | [], _ :: _, _, _, h => by simp at h
  | _ :: _, [], _, _, h => by simp at h
  | x :: xs, y :: ys, hx, hy, h => by
    rw [digits_cons] at hx hy
    have ih := cmpDigs_spec hx.2 hy.2 (by simpa using h)
    simp only [cmpDigs, val_cons]
    rcases ih with ⟨h1, h2⟩ | ⟨h1, h2⟩ | ⟨h1, h2⟩
    · left
      have h3 : b * (val b xs + 1) ≤ b * val b ys := Nat.mul_le_mul_left _ h2
      rw [Nat.mul_add] at h3
      rw [h1]; refine ⟨by simp, by omega⟩
    · rw [h1, h2]
      rcases lt_trichotomy x y with h4 | h4 | h4
      · left; simp [h4]
      · right; left; simp [h4]
      · right; right; refine ⟨?_, by omega⟩
        simp [h4, Nat.not_lt.2 (Nat.le_of_lt h4)]
    · right; right
      have h3 : b * (val b ys + 1) ≤ b * val b xs := Nat.mul_le_mul_left _ h2
      rw [Nat.mul_add] at h3
      rw [h1]; refine ⟨by simp, by omega⟩

theorem cmpAbs_spec {b : Nat} (hb : 0 < b) {x y : Mpi} (hx : Norm b x) (hy : Norm b y) :
    (cmpAbs x y = -1 ∧ val b x.digs < val b y.digs) ∨
    (cmpAbs x y = 0 ∧ val b x.digs = val b y.digs) ∨
    (cmpAbs x y = 1 ∧ val b x.digs > val b y.digs) := by
  unfold cmpAbs
  split
  next h => left; exact ⟨rfl, val_lt_of_len hb hx.digits hy.top h⟩
  next h =>
    split
    next h2 => right; right; exact ⟨rfl, val_lt_of_len hb hy.digits hx.top h2⟩
    next h2 => exact cmpDigs_spec hx.digits hy.digits (by omega)

/-! ## addition -/

theorem addCarry_val {b : Nat} (hb : 1 < b) : ∀ (xs : List Nat) (c : Nat), Digits b xs → c ≤ 1 →
    val b (addCarry b xs c) = val b xs + c
  | [], c, _, hc => by
    unfold addCarry; split <;> simp <;> omega
  | x :: xs, c, hx, hc => by
    rw [digits_cons] at hx
    unfold addCarry
    split
    next h =>
      have hc1 : c = 1 := by omega
      simp only [val_cons]
      have hx1 := hx.1
      by_cases hw : x + 1 = b
      · rw [hw, Nat.mod_self, if_pos rfl, addCarry_val hb xs 1 hx.2 (by omega), Nat.mul_add]
        omega
      · rw [Nat.mod_eq_of_lt (by omega : x + 1 < b), if_neg (by omega),
          addCarry_val hb xs 0 hx.2 (by omega)]
        simp only [Nat.add_zero]
        omega
    next h => have : c = 0 := by omega
              simp [this]

theorem addCarry_digits {b : Nat} (hb : 1 < b) : ∀ (xs : List Nat) (c : Nat), Digits b xs →
    Digits b (addCarry b xs c)
  | [], c, _ => by unfold addCarry; split <;> simp; omega
  | x :: xs, c, hx => by
    rw [digits_cons] at hx
    unfold addCarry
    split
    · simp only [digits_cons]
      exact ⟨Nat.mod_lt _ (by omega), addCarry_digits hb xs _ hx.2⟩
    · simp [hx.1, hx.2]

theorem addLoop_val {b : Nat} (hb : 1 < b) : ∀ (xs ys : List Nat) (c : Nat), Digits b xs →
    Digits b ys → ys.length ≤ xs.length → c ≤ 1 →
    val b (addLoop b xs ys c) = val b xs + val b ys + c
  | [], [], c, hx, _, _, hc => by simp [addLoop, addCarry_val hb [] c hx hc]
  | x :: xs, [], c, hx, _, _, hc => by
    simp only [addLoop]; rw [addCarry_val hb _ c hx hc]; simp
  | [], y :: ys, c, _, _, h, _ => by simp at h
  | x :: xs, y :: ys, c, hx, hy, h, hc => by
    rw [digits_cons] at hx hy
    have hx1 := hx.1
    have hy1 := hy.1
    simp only [addLoop, val_cons]
    have key : ∀ c2, c2 ≤ 1 → ∀ l, l + b * c2 = x + c + y →
        l + b * val b (addLoop b xs ys c2) = x + b * val b xs + (y + b * val b ys) + c := by
      intro c2 hc2 l hl
      rw [addLoop_val hb xs ys c2 hx.2 hy.2 (by simpa using h) hc2, Nat.mul_add, Nat.mul_add]
      omega
    -- the two wrap tests compute the carry of x + c + y
    by_cases hw : x + c = b
    · have hc1 : c = 1 := by omega
      subst hc1
      rw [hw, Nat.mod_self, Nat.zero_add, Nat.mod_eq_of_lt hy1, if_pos (by omega),
        if_neg (by omega)]
      exact key _ (by omega) _ (by omega)
    · have hlt : x + c < b := by omega
      rw [Nat.mod_eq_of_lt hlt, if_neg (by omega)]
      by_cases hw2 : x + c + y < b
      · rw [Nat.mod_eq_of_lt hw2, if_neg (by omega)]
        exact key _ (by omega) _ (by omega)
      · rw [Nat.mod_eq_sub_mod (by omega), Nat.mod_eq_of_lt (by omega), if_pos (by omega)]
        exact key _ (by omega) _ (by omega)

theorem addLoop_digits {b : Nat} (hb : 1 < b) : ∀ (xs ys : List Nat) (c : Nat), Digits b xs →
    Digits b (addLoop b xs ys c)
  | [], _, c, hx => by simp only [addLoop]; exact addCarry_digits hb _ c hx
  | x :: xs, [], c, hx => by simp only [addLoop]; exact addCarry_digits hb _ c hx
  | x :: xs, y :: ys, c, hx => by
    rw [digits_cons] at hx
    simp only [addLoop, digits_cons]
    exact ⟨Nat.mod_lt _ (by omega), addLoop_digits hb xs ys _ hx.2⟩

theorem addCarry_length {b : Nat} : ∀ (xs : List Nat) (c : Nat),
    xs.length ≤ (addCarry b xs c).length ∧ (addCarry b xs c).length ≤ xs.length + 1
  | [], c => by unfold addCarry; split <;> simp
  | x :: xs, c => by
    unfold addCarry
    split
    · have := @addCarry_length b xs (if (x + 1) % b = 0 then 1 else 0)
      simp only [List.length_cons]; omega
    · simp

theorem addLoop_length {b : Nat} : ∀ (xs ys : List Nat) (c : Nat),
    xs.length ≤ (addLoop b xs ys c).length ∧ (addLoop b xs ys c).length ≤ xs.length + 1
  | [], _, c => by simp only [addLoop]; exact addCarry_length _ _
  | x :: xs, [], c => by simp only [addLoop]; exact addCarry_length _ _
  | x :: xs, y :: ys, c => by
    simp only [addLoop, List.length_cons]
    have := fun c => @addLoop_length b xs ys c
    constructor
    · exact Nat.succ_le_succ (this _).1
    · exact Nat.succ_le_succ (this _).2

/-- A list at least as long as a normalised list and of at least its value, with exactly the
digits allowed, is normalised provided its value fills its length. -/
theorem topNZ_of_val {b : Nat} (hb : 0 < b) {ds : List Nat} (hd : Digits b ds)
    (h : ds ≠ [] → b ^ (ds.length - 1) ≤ val b ds) : TopNZ ds := by
  rcases List.eq_nil_or_concat ds with rfl | ⟨init, last, rfl⟩
  · simp
  · intro h0
    rw [List.concat_eq_append] at *
    rw [List.getLast?_append, List.getLast?_singleton] at h0
    simp at h0
    subst h0
    have := h (by simp)
    rw [val_append] at this
    have h2 := val_lt (digits_append.1 hd).1
    simp at this
    omega

theorem addAbs_spec {b : Nat} (hb : 1 < b) {x y : Mpi} (hx : Norm b x) (hy : Norm b y) :
    val b (addAbs b x y).digs = val b x.digs + val b y.digs ∧ Norm b (addAbs b x y) ∧
    (addAbs b x y).neg = false := by
  have main : ∀ xs ys : List Nat, Digits b xs → Digits b ys → TopNZ xs → ys.length ≤ xs.length →
      val b (addLoop b xs ys 0) = val b xs + val b ys ∧ Digits b (addLoop b xs ys 0) ∧
      TopNZ (addLoop b xs ys 0) := by
    intro xs ys hx hy htx hl
    have hv := addLoop_val hb xs ys 0 hx hy hl (by omega)
    have hd := addLoop_digits hb xs ys 0 hx
    refine ⟨by simpa using hv, hd, ?_⟩
    have hlen := @addLoop_length b xs ys 0
    apply topNZ_of_val (by omega) hd
    intro hne
    rcases Nat.lt_or_ge xs.length (addLoop b xs ys 0).length with h | h
    · -- a carry digit was appended: it is the digit 1 because the last digit is a carry
      have : (addLoop b xs ys 0).length = xs.length + 1 := by omega
      rw [this]
      -- the value cannot be below b^|xs| when a digit was appended
      have key : ∀ (xs ys : List Nat) c, (addLoop b xs ys c).length = xs.length + 1 →
          (addLoop b xs ys c).getLast? = some 1 := by
        have kc : ∀ (xs : List Nat) c, (addCarry b xs c).length = xs.length + 1 →
            (addCarry b xs c).getLast? = some 1 := by
          intro xs
          induction xs with
          | nil => intro c h; unfold addCarry at h ⊢; split at h <;> simp_all
          | cons x xs ih =>
            intro c h
            unfold addCarry at h ⊢
            split at h
            next hc =>
              rw [if_pos hc]
              simp only [List.length_cons, Nat.add_right_cancel_iff] at h
              rw [List.getLast?_cons, ih _ h]; rfl
            next hc => simp at h
        intro xs
        induction xs with
        | nil => intro ys c h; simp only [addLoop] at h ⊢; exact kc _ _ h
        | cons x xs ih =>
          intro ys c h
          cases ys with
          | nil => simp only [addLoop] at h ⊢; exact kc _ _ h
          | cons y ys =>
            simp only [addLoop, List.length_cons, Nat.add_right_cancel_iff] at h ⊢
            rw [List.getLast?_cons, ih _ _ h]; rfl
      have ht : TopNZ (addLoop b xs ys 0) := by
        unfold TopNZ; rw [key xs ys 0 this]; simp
      have := val_pos_of_top (b := b) (by omega) ht hne
      rwa [show xs.length + 1 - 1 = (addLoop b xs ys 0).length - 1 by omega]
    · have hle : (addLoop b xs ys 0).length = xs.length := by omega
      rw [hle, hv]
      have hxne : xs ≠ [] := by
        intro h0; exact hne (List.length_eq_zero_iff.1 (by rw [hle, h0]; rfl))
      have := val_pos_of_top (b := b) (by omega) htx hxne
      omega
  unfold addAbs
  split
  next h =>
    obtain ⟨h1, h2, h3⟩ := main y.digs x.digs hy.digits hx.digits hy.top (by omega)
    exact ⟨by simpa [Nat.add_comm] using h1, ⟨h2, h3⟩, rfl⟩
  next h =>
    obtain ⟨h1, h2, h3⟩ := main x.digs y.digs hx.digits hy.digits hx.top (by omega)
    exact ⟨h1, ⟨h2, h3⟩, rfl⟩

/-! ## subtraction -/

theorem subBorrow_spec {b : Nat} (hb : 1 < b) : ∀ (xs : List Nat) (c : Nat), Digits b xs → c ≤ 1 →
    c ≤ val b xs → ∃ r, subBorrow b xs c = some r ∧ val b r + c = val b xs ∧ Digits b r ∧
      r.length = xs.length
  | [], c, _, hc, hle => by
    have : c = 0 := by simpa using hle
    exact ⟨[], by simp [subBorrow, this]⟩
  | x :: xs, c, hx, hc, hle => by
    rw [digits_cons] at hx
    have hx1 := hx.1
    unfold subBorrow
    split
    next h =>
      have hc1 : c = 1 := by omega
      subst hc1
      by_cases hx0 : x = 0
      · subst hx0
        have : 1 ≤ val b xs := by
          simp only [val_cons, Nat.zero_add] at hle
          rcases Nat.eq_zero_or_pos (val b xs) with h0 | h0
          · rw [h0] at hle; simp at hle
          · exact h0
        obtain ⟨r, h1, h2, h3, h4⟩ := subBorrow_spec hb xs 1 hx.2 (by omega) this
        refine ⟨_, by rw [if_pos rfl, h1]; rfl, ?_, ?_, by simp [h4]⟩
        · rw [Nat.zero_add, Nat.mod_eq_of_lt (by omega)]
          simp only [val_cons]
          rw [← h2, Nat.mul_add]; omega
        · rw [digits_cons]; exact ⟨Nat.mod_lt _ (by omega), h3⟩
      · obtain ⟨r, h1, h2, h3, h4⟩ := subBorrow_spec hb xs 0 hx.2 (by omega) (by omega)
        refine ⟨_, by rw [if_neg hx0, h1]; rfl, ?_, ?_, by simp [h4]⟩
        · rw [Nat.mod_eq_sub_mod (by omega), Nat.mod_eq_of_lt (by omega)]
          simp only [val_cons]
          rw [← h2]; simp only [Nat.add_zero]; omega
        · rw [digits_cons]; exact ⟨Nat.mod_lt _ (by omega), h3⟩
    next h =>
      have : c = 0 := by omega
      subst this
      exact ⟨_, rfl, by simp, by simp [hx1, hx.2], rfl⟩

theorem subLoop_spec {b : Nat} (hb : 1 < b) : ∀ (xs ys : List Nat) (c : Nat), Digits b xs →
    Digits b ys → c ≤ 1 → val b ys + c ≤ val b xs → ys.length ≤ xs.length →
    ∃ r, subLoop b xs ys c = some r ∧ val b r + val b ys + c = val b xs ∧ Digits b r ∧
      r.length = xs.length
  | xs, [], c, hx, _, hc, hle, _ => by
    obtain ⟨r, h1, h2, h3, h4⟩ := subBorrow_spec hb xs c hx hc (by simpa using hle)
    exact ⟨r, by cases xs <;> exact h1, by simpa using h2, h3, h4⟩
  | [], y :: ys, c, _, _, _, _, hl => by simp at hl
  | x :: xs, y :: ys, c, hx, hy, hc, hle, hl => by
    rw [digits_cons] at hx hy
    have hx1 := hx.1
    have hy1 := hy.1
    simp only [val_cons] at hle
    have key : ∀ c', c' ≤ 1 → ∀ d, d < b → d + y + c = x + b * c' →
        ∃ r, (subLoop b xs ys c').map (d :: ·) = some r ∧
          val b r + val b (y :: ys) + c = val b (x :: xs) ∧ Digits b r ∧
          r.length = (x :: xs).length := by
      intro c' hc' d hd he
      have hle' : val b ys + c' ≤ val b xs := by
        by_contra hcon
        have h1 : b * (val b xs + 1) ≤ b * (val b ys + c') := Nat.mul_le_mul_left _ (by omega)
        rw [Nat.mul_add, Nat.mul_add] at h1
        omega
      obtain ⟨r, h1, h2, h3, h4⟩ := subLoop_spec hb xs ys c' hx.2 hy.2 hc' hle' (by simpa using hl)
      refine ⟨_, by rw [h1]; rfl, ?_, by rw [digits_cons]; exact ⟨hd, h3⟩, by simp [h4]⟩
      simp only [val_cons]
      rw [← h2, Nat.mul_add, Nat.mul_add]
      omega
    simp only [subLoop]
    by_cases hxy : x = y
    · subst hxy
      rw [if_neg (by simp)]
      by_cases hc0 : c = 0
      · subst hc0
        refine key 0 (by omega) _ (Nat.mod_lt _ (by omega)) ?_
        rw [show x + 2 * b - x - 0 = 0 + b + b by omega]; simp
      · have : c = 1 := by omega
        subst this
        refine key 1 (by omega) _ (Nat.mod_lt _ (by omega)) ?_
        rw [show x + 2 * b - x - 1 = (b - 1) + b by omega, Nat.add_mod_right,
          Nat.mod_eq_of_lt (by omega)]
        omega
    · rw [if_pos hxy]
      by_cases hlt : x < y
      · rw [if_pos hlt]
        refine key 1 (by omega) _ (Nat.mod_lt _ (by omega)) ?_
        rw [show x + 2 * b - y - c = (x + b - y - c) + b by omega, Nat.add_mod_right,
          Nat.mod_eq_of_lt (by omega)]
        omega
      · rw [if_neg hlt]
        refine key 0 (by omega) _ (Nat.mod_lt _ (by omega)) ?_
        rw [show x + 2 * b - y - c = (x - y - c) + b + b by omega, Nat.add_mod_right,
          Nat.add_mod_right, Nat.mod_eq_of_lt (by omega)]
        omega

theorem subAbs_spec {b : Nat} (hb : 1 < b) {x y : Mpi} (hx : Norm b x) (hy : Norm b y)
    (hle : val b y.digs ≤ val b x.digs) :
    ∃ z, subAbs b x y = some z ∧ val b z.digs + val b y.digs = val b x.digs ∧ Norm b z ∧
      z.neg = false := by
  have hc := cmpAbs_spec (by omega) hx hy
  have hlen : y.digs.length ≤ x.digs.length := by
    by_contra h
    have := val_lt_of_len (by omega) hx.digits hy.top (Nat.lt_of_not_le h)
    omega
  obtain ⟨r, h1, h2, h3, h4⟩ := subLoop_spec hb x.digs y.digs 0 hx.digits hy.digits (by omega)
    (by omega) hlen
  refine ⟨⟨false, adjust r⟩, ?_, ?_, ⟨digits_adjust h3, topNZ_adjust r⟩, rfl⟩
  · unfold subAbs
    rw [if_neg (by omega), h1]; rfl
  · rw [val_adjust]; omega

theorem subAbs_none {b : Nat} (hb : 1 < b) {x y : Mpi} (hx : Norm b x) (hy : Norm b y)
    (hlt : val b x.digs < val b y.digs) : subAbs b x y = none := by
  have hc := cmpAbs_spec (by omega) hx hy
  unfold subAbs
  rw [if_pos (by omega)]

/-! ## signed operations -/

theorem norm_with_neg {b : Nat} {x : Mpi} (h : Norm b x) (s : Bool) : Norm b { x with neg := s } :=
  ⟨h.digits, h.top⟩

theorem norm_zero (b : Nat) (s : Bool) : Norm b ⟨s, []⟩ := ⟨by simp, by simp⟩

theorem toInt_eq_zero_iff {b : Nat} (hb : 0 < b) {x : Mpi} (hx : Norm b x) :
    x.toInt b = 0 ↔ x.digs = [] := by
  rw [← val_eq_zero_iff hb hx.top]
  unfold Mpi.toInt
  split <;> omega

/-- Addition on normalised numbers (negative zeros allowed). -/
theorem add_norm {b : Nat} (hb : 1 < b) {x y : Mpi} (hx : Norm b x) (hy : Norm b y) :
    ∃ z, add b x y = some z ∧ z.toInt b = x.toInt b + y.toInt b ∧ Norm b z ∧
      (z.digs = [] → z.neg = true → x.neg = true ∧ x.digs = [] ∧ y.digs = []) := by
  have hb0 : 0 < b := by omega
  unfold add
  split
  next hs =>
    obtain ⟨h1, h2, h3⟩ := addAbs_spec hb hx hy
    refine ⟨_, rfl, ?_, norm_with_neg h2 _, ?_⟩
    · simp only [Mpi.toInt, h1, ← hs]
      split <;> push_cast <;> ring
    · intro h0 hn
      simp only at h0 hn
      rw [h0] at h1
      simp only [val_nil] at h1
      exact ⟨hn, (val_eq_zero_iff hb0 hx.top).1 (by omega), (val_eq_zero_iff hb0 hy.top).1 (by omega)⟩
  next hs =>
    have hc := cmpAbs_spec (by omega) hx hy
    rcases hc with ⟨h1, h2⟩ | ⟨h1, h2⟩ | ⟨h1, h2⟩
    · obtain ⟨z, hz1, hz2, hz3, hz4⟩ := subAbs_spec hb hy hx (by omega)
      refine ⟨{ z with neg := y.neg }, by simp [h1, hz1], ?_, norm_with_neg hz3 _, ?_⟩
      · simp only [Mpi.toInt]
        cases hxn : x.neg <;> cases hyn : y.neg <;> simp [hxn, hyn] at hs ⊢ <;> omega
      · intro h0; simp only at h0; rw [h0] at hz2; simp only [val_nil] at hz2; omega
    · refine ⟨⟨false, []⟩, by simp [h1], ?_, norm_zero _ _, by simp⟩
      simp only [Mpi.toInt]
      cases hxn : x.neg <;> cases hyn : y.neg <;> simp [hxn, hyn] at hs ⊢ <;> omega
    · obtain ⟨z, hz1, hz2, hz3, hz4⟩ := subAbs_spec hb hx hy (by omega)
      refine ⟨{ z with neg := x.neg }, by simp [h1, hz1], ?_, norm_with_neg hz3 _, ?_⟩
      · simp only [Mpi.toInt]
        cases hxn : x.neg <;> cases hyn : y.neg <;> simp [hxn, hyn] at hs ⊢ <;> omega
      · intro h0; simp only at h0; rw [h0] at hz2; simp only [val_nil] at hz2; omega

/-- Subtraction on normalised numbers (negative zeros allowed). -/
theorem sub_norm {b : Nat} (hb : 1 < b) {x y : Mpi} (hx : Norm b x) (hy : Norm b y) :
    ∃ z, sub b x y = some z ∧ z.toInt b = x.toInt b - y.toInt b ∧ Norm b z ∧
      (z.digs = [] → z.neg = true → x.neg = true ∧ x.digs = [] ∧ y.digs = []) := by
  have hb0 : 0 < b := by omega
  unfold sub
  split
  next hs =>
    obtain ⟨h1, h2, h3⟩ := addAbs_spec hb hx hy
    refine ⟨_, rfl, ?_, norm_with_neg h2 _, ?_⟩
    · simp only [Mpi.toInt, h1]
      cases hxn : x.neg <;> cases hyn : y.neg <;> simp [hxn, hyn] at hs ⊢ <;> omega
    · intro h0 hn
      simp only at h0 hn
      rw [h0] at h1
      simp only [val_nil] at h1
      exact ⟨hn, (val_eq_zero_iff hb0 hx.top).1 (by omega), (val_eq_zero_iff hb0 hy.top).1 (by omega)⟩
  next hs =>
    have hc := cmpAbs_spec (by omega) hx hy
    rcases hc with ⟨h1, h2⟩ | ⟨h1, h2⟩ | ⟨h1, h2⟩
    · obtain ⟨z, hz1, hz2, hz3, hz4⟩ := subAbs_spec hb hy hx (by omega)
      refine ⟨{ z with neg := !y.neg }, by simp [h1, hz1], ?_, norm_with_neg hz3 _, ?_⟩
      · simp only [Mpi.toInt]
        cases hxn : x.neg <;> cases hyn : y.neg <;> simp [hxn, hyn] at hs ⊢ <;> omega
      · intro h0; simp only at h0; rw [h0] at hz2; simp only [val_nil] at hz2; omega
    · refine ⟨⟨false, []⟩, by simp [h1], ?_, norm_zero _ _, by simp⟩
      simp only [Mpi.toInt]
      cases hxn : x.neg <;> cases hyn : y.neg <;> simp [hxn, hyn] at hs ⊢ <;> omega
    · obtain ⟨z, hz1, hz2, hz3, hz4⟩ := subAbs_spec hb hx hy (by omega)
      refine ⟨{ z with neg := x.neg }, by simp [h1, hz1], ?_, norm_with_neg hz3 _, ?_⟩
      · simp only [Mpi.toInt]
        cases hxn : x.neg <;> cases hyn : y.neg <;> simp [hxn, hyn] at hs ⊢ <;> omega
      · intro h0; simp only at h0; rw [h0] at hz2; simp only [val_nil] at hz2; omega

end Verif.Mpi
