import Verif.Model.Mpi.Shift
import Verif.Lemmas.Mpi.AddSubStore
import Mathlib.Data.Nat.Size
namespace Verif.Mpi

theorem one_lt_two_pow {w : Nat} (hw : 0 < w) : 1 < 2 ^ w := Nat.one_lt_two_pow (by omega)

/-! ## shld, shl -/

theorem shld_spec {w : Nat} (hw : 0 < w) {x : Mpi} (hx : Norm (2 ^ w) x) (n : Nat) :
    val (2 ^ w) (shld x n).digs = val (2 ^ w) x.digs * (2 ^ w) ^ n ∧ Norm (2 ^ w) (shld x n) ∧
    (shld x n).neg = x.neg ∧ ((shld x n).digs = [] ↔ x.digs = []) := by
  have hB := one_lt_two_pow hw
  unfold shld
  split
  next h =>
    rcases h with h | h
    · subst h; simp [hx]
    · simp [h]; exact ⟨hx.digits, hx.top⟩
  next h =>
    have hne : x.digs ≠ [] := fun h0 => h (Or.inr h0)
    refine ⟨?_, ⟨?_, ?_⟩, rfl, by simp [hne]⟩
    · simp only [val_append, val_replicate_zero, List.length_replicate]; ring
    · simp only [digits_append]
      exact ⟨digits_replicate_zero (by omega) n, hx.digits⟩
    · exact hx.top.append hne

theorem or_eq_add_mul {r q k : Nat} (h : r < 2 ^ k) : (q * 2 ^ k) ||| r = q * 2 ^ k + r := by
  have := Nat.shiftLeft_add_eq_or_of_lt h q
  rw [Nat.shiftLeft_eq] at this
  exact this.symm

/-- One digit of the left shift. -/
theorem shl_digit {w d x r : Nat} (hd : 0 < d) (hdw : d < w) (hx : x < 2 ^ w) (hr : r < 2 ^ d) :
    (((x <<< d) % 2 ^ w) ||| r) + 2 ^ w * ((x >>> (w - d)) &&& (1 <<< d - 1)) = x * 2 ^ d + r ∧
    (((x <<< d) % 2 ^ w) ||| r) < 2 ^ w ∧ ((x >>> (w - d)) &&& (1 <<< d - 1)) < 2 ^ d := by
  have hpow : 2 ^ w = 2 ^ (w - d) * 2 ^ d := by rw [← pow_add]; congr 1; omega
  have hpd : 0 < 2 ^ d := Nat.two_pow_pos d
  have hpwd : 0 < 2 ^ (w - d) := Nat.two_pow_pos _
  have e1 : (x >>> (w - d)) &&& (1 <<< d - 1) = x / 2 ^ (w - d) := by
    rw [Nat.one_shiftLeft, Nat.and_two_pow_sub_one_eq_mod, Nat.shiftRight_eq_div_pow]
    apply Nat.mod_eq_of_lt
    rw [Nat.div_lt_iff_lt_mul hpwd, Nat.mul_comm, ← hpow]; exact hx
  have e2 : (x <<< d) % 2 ^ w = (x % 2 ^ (w - d)) * 2 ^ d := by
    rw [Nat.shiftLeft_eq, hpow, Nat.mul_mod_mul_right]
  have e3 : ((x <<< d) % 2 ^ w) ||| r = (x % 2 ^ (w - d)) * 2 ^ d + r := by
    rw [e2, or_eq_add_mul hr]
  have hm : x % 2 ^ (w - d) < 2 ^ (w - d) := Nat.mod_lt _ hpwd
  rw [e1, e3]
  refine ⟨?_, ?_, ?_⟩
  · have := Nat.div_add_mod x (2 ^ (w - d))
    generalize x / 2 ^ (w - d) = q at *
    generalize x % 2 ^ (w - d) = m at *
    rw [← this, hpow]; ring
  · rw [hpow]
    have : (x % 2 ^ (w - d) + 1) * 2 ^ d ≤ 2 ^ (w - d) * 2 ^ d := Nat.mul_le_mul_right _ hm
    rw [Nat.add_mul] at this
    omega
  · rw [Nat.div_lt_iff_lt_mul hpwd, Nat.mul_comm, ← hpow]; exact hx

theorem shlBits_spec {w d : Nat} (hd : 0 < d) (hdw : d < w) : ∀ (xs : List Nat) (r : Nat),
    Digits (2 ^ w) xs → r < 2 ^ d →
    val (2 ^ w) (shlBits w d xs r) = val (2 ^ w) xs * 2 ^ d + r ∧ Digits (2 ^ w) (shlBits w d xs r)
  | [], r, _, hr => by
    have : 2 ^ d < 2 ^ w := Nat.pow_lt_pow_right (by omega) hdw
    unfold shlBits
    split <;> simp <;> omega
  | x :: xs, r, hx, hr => by
    rw [digits_cons] at hx
    obtain ⟨h1, h2, h3⟩ := shl_digit hd hdw hx.1 hr
    obtain ⟨h4, h5⟩ := shlBits_spec hd hdw xs _ hx.2 h3
    simp only [shlBits, val_cons, digits_cons]
    refine ⟨?_, h2, h5⟩
    rw [h4]
    generalize (((x <<< d) % 2 ^ w) ||| r) = A at *
    generalize ((x >>> (w - d)) &&& (1 <<< d - 1)) = C at *
    have : A + 2 ^ w * (val (2 ^ w) xs * 2 ^ d + C) =
      (A + 2 ^ w * C) + 2 ^ w * val (2 ^ w) xs * 2 ^ d := by ring
    rw [this, h1]; ring

theorem shl_spec {w : Nat} (hw : 0 < w) {x : Mpi} (hx : Norm (2 ^ w) x) (n : Nat) :
    val (2 ^ w) (shl w x n).digs = val (2 ^ w) x.digs * 2 ^ n ∧ Norm (2 ^ w) (shl w x n) ∧
    (shl w x n).neg = x.neg := by
  unfold shl
  split
  next h =>
    rcases h with h | h
    · subst h; simp [hx]
    · simp [h]; exact ⟨hx.digits, hx.top⟩
  next h =>
    have hc : ∃ c : Mpi, (if n ≥ w then shld x (n / w) else x) = c ∧ Norm (2 ^ w) c ∧
        c.neg = x.neg ∧ val (2 ^ w) c.digs = val (2 ^ w) x.digs * 2 ^ (w * (n / w)) := by
      refine ⟨_, rfl, ?_⟩
      split
      next hn =>
        obtain ⟨h1, h2, h3, -⟩ := shld_spec hw hx (n / w)
        exact ⟨h2, h3, by rw [h1, ← pow_mul]⟩
      next hn =>
        rw [Nat.div_eq_of_lt (by omega)]; exact ⟨hx, rfl, by simp⟩
    obtain ⟨c, hc1, hc2, hc3, hc4⟩ := hc
    simp only [hc1]
    split
    next hd =>
      obtain ⟨h1, h2⟩ := shlBits_spec (by omega : 0 < n % w) (Nat.mod_lt _ hw) c.digs 0 hc2.digits
        (Nat.two_pow_pos _)
      refine ⟨?_, ⟨digits_adjust h2, topNZ_adjust _⟩, hc3⟩
      simp only [val_adjust]
      rw [h1, hc4]
      conv_rhs => rw [← Nat.div_add_mod n w, pow_add]
      ring
    next hd =>
      refine ⟨?_, ⟨digits_adjust hc2.digits, topNZ_adjust _⟩, hc3⟩
      simp only [val_adjust]
      rw [hc4]
      conv_rhs => rw [← Nat.div_add_mod n w]
      simp at hd
      rw [hd]; simp

/-! ## shrd, shr -/

theorem val_drop (b : Nat) {xs : List Nat} (hx : Digits b xs) (n : Nat) :
    val b (xs.drop n) = val b xs / b ^ n := by
  by_cases hn : n ≤ xs.length
  · have h1 := val_take_drop b xs n hn
    have h2 := val_lt (hx.take n)
    rw [List.length_take, Nat.min_eq_left hn] at h2
    have hp : 0 < b ^ n := by omega
    rw [h1, Nat.add_mul_div_left _ _ hp, Nat.div_eq_of_lt h2, Nat.zero_add]
  · rw [List.drop_of_length_le (by omega)]
    symm
    rw [val_nil]
    cases xs with
    | nil => simp
    | cons y ys =>
      have hb : 0 < b := by have := (digits_cons.1 hx).1; omega
      apply Nat.div_eq_of_lt
      calc val b (y :: ys) < b ^ (y :: ys).length := val_lt hx
        _ ≤ b ^ n := Nat.pow_le_pow_right hb (by omega)

theorem shrd_spec {w : Nat} {x : Mpi} (hx : Norm (2 ^ w) x) (n : Nat) :
    val (2 ^ w) (shrd x n).digs = val (2 ^ w) x.digs / (2 ^ w) ^ n ∧ Norm (2 ^ w) (shrd x n) ∧
    ((shrd x n).neg = x.neg ∨ (shrd x n).digs = []) := by
  unfold shrd
  split
  next h =>
    rcases h with h | h
    · subst h; simp [hx]
    · simp [h]; exact ⟨hx.digits, hx.top⟩
  next h =>
    split
    next h2 =>
      have := val_drop _ hx.digits n
      rw [List.drop_of_length_le h2] at this
      exact ⟨this, norm_zero _ _, Or.inr rfl⟩
    next h2 =>
      exact ⟨val_drop _ hx.digits n, ⟨hx.digits.drop n, hx.top.drop n⟩, Or.inl rfl⟩

theorem shr_digit {w d x r : Nat} (hdw : d < w) (hx : x < 2 ^ w) (hr : r < 2 ^ d) :
    ((x >>> d) ||| ((r <<< (w - d)) % 2 ^ w)) * 2 ^ d + (x &&& (1 <<< d - 1)) = x + 2 ^ w * r ∧
    ((x >>> d) ||| ((r <<< (w - d)) % 2 ^ w)) < 2 ^ w ∧ (x &&& (1 <<< d - 1)) < 2 ^ d := by
  have hpow : 2 ^ w = 2 ^ d * 2 ^ (w - d) := by rw [← pow_add]; congr 1; omega
  have hpd : 0 < 2 ^ d := Nat.two_pow_pos d
  have hpwd : 0 < 2 ^ (w - d) := Nat.two_pow_pos _
  have e1 : x &&& (1 <<< d - 1) = x % 2 ^ d := by
    rw [Nat.one_shiftLeft, Nat.and_two_pow_sub_one_eq_mod]
  have e2 : (r <<< (w - d)) % 2 ^ w = r * 2 ^ (w - d) := by
    rw [Nat.shiftLeft_eq]
    apply Nat.mod_eq_of_lt
    rw [hpow]; exact Nat.mul_lt_mul_of_pos_right hr hpwd
  have hlt : x / 2 ^ d < 2 ^ (w - d) := by
    rw [Nat.div_lt_iff_lt_mul hpd, Nat.mul_comm, ← hpow]; exact hx
  have e3 : ((x >>> d) ||| ((r <<< (w - d)) % 2 ^ w)) = r * 2 ^ (w - d) + x / 2 ^ d := by
    rw [e2, Nat.shiftRight_eq_div_pow, Nat.or_comm, or_eq_add_mul hlt]
  rw [e1, e3]
  refine ⟨?_, ?_, Nat.mod_lt _ hpd⟩
  · have := Nat.div_add_mod x (2 ^ d)
    generalize x / 2 ^ d = q at *
    generalize x % 2 ^ d = m at *
    rw [← this, hpow]; ring
  · rw [hpow]
    have : (r + 1) * 2 ^ (w - d) ≤ 2 ^ d * 2 ^ (w - d) := Nat.mul_le_mul_right _ hr
    rw [Nat.add_mul] at this
    omega

theorem shrBits_spec {w d : Nat} (hdw : d < w) : ∀ (xs : List Nat), Digits (2 ^ w) xs →
    val (2 ^ w) (shrBits w d xs).1 * 2 ^ d + (shrBits w d xs).2 = val (2 ^ w) xs ∧
    (shrBits w d xs).2 < 2 ^ d ∧ Digits (2 ^ w) (shrBits w d xs).1
  | [], _ => by simp [shrBits]
  | x :: xs, hx => by
    rw [digits_cons] at hx
    obtain ⟨h1, h2, h3⟩ := shrBits_spec hdw xs hx.2
    obtain ⟨h4, h5, h6⟩ := shr_digit hdw hx.1 h2
    simp only [shrBits, val_cons, digits_cons]
    refine ⟨?_, h6, h5, h3⟩
    generalize ((x >>> d) ||| (((shrBits w d xs).2 <<< (w - d)) % 2 ^ w)) = A at *
    generalize (x &&& (1 <<< d - 1)) = C at *
    have : (A + 2 ^ w * val (2 ^ w) (shrBits w d xs).1) * 2 ^ d + C =
      (A * 2 ^ d + C) + 2 ^ w * (val (2 ^ w) (shrBits w d xs).1 * 2 ^ d) := by ring
    rw [this, h4, ← h1]; ring

theorem shr_spec {w : Nat} (hw : 0 < w) {x : Mpi} (hx : Norm (2 ^ w) x) (n : Nat) :
    val (2 ^ w) (shr w x n).digs = val (2 ^ w) x.digs / 2 ^ n ∧ Norm (2 ^ w) (shr w x n) ∧
    ((shr w x n).neg = x.neg ∨ (shr w x n).digs = []) := by
  unfold shr
  split
  next h =>
    rcases h with h | h
    · subst h; simp [hx]
    · simp [h]; exact ⟨hx.digits, hx.top⟩
  next h =>
    have hc : ∃ c : Mpi, (if n ≥ w then shrd x (n / w) else x) = c ∧ Norm (2 ^ w) c ∧
        (c.neg = x.neg ∨ c.digs = []) ∧
        val (2 ^ w) c.digs = val (2 ^ w) x.digs / 2 ^ (w * (n / w)) := by
      refine ⟨_, rfl, ?_⟩
      split
      next hn =>
        obtain ⟨h1, h2, h3⟩ := shrd_spec hx (n / w)
        exact ⟨h2, h3, by rw [h1, ← pow_mul]⟩
      next hn =>
        have h0 : n / w = 0 := Nat.div_eq_of_lt (by omega)
        rw [h0]; exact ⟨hx, Or.inl rfl, by simp⟩
    obtain ⟨c, hc1, hc2, hc3, hc4⟩ := hc
    simp only [hc1]
    have hsplit : val (2 ^ w) x.digs / 2 ^ n = val (2 ^ w) c.digs / 2 ^ (n % w) := by
      conv_lhs => rw [← Nat.div_add_mod n w, pow_add, ← Nat.div_div_eq_div_mul]
      rw [hc4]
    split
    next hd =>
      obtain ⟨h1, h2, h3⟩ := shrBits_spec (Nat.mod_lt n hw) c.digs hc2.digits
      refine ⟨?_, ⟨digits_adjust h3, topNZ_adjust _⟩, ?_⟩
      · simp only [val_adjust]
        rw [hsplit, ← h1, Nat.mul_comm, Nat.mul_add_div (Nat.two_pow_pos _), Nat.div_eq_of_lt h2]
        rfl
      · rcases hc3 with h | h
        · exact Or.inl h
        · right; simp [h, shrBits, adjust]
    next hd =>
      refine ⟨?_, ⟨digits_adjust hc2.digits, topNZ_adjust _⟩, ?_⟩
      · simp only [val_adjust]
        simp at hd
        rw [hsplit, hd]; simp
      · rcases hc3 with h | h
        · exact Or.inl h
        · right; simp [h, adjust]

/-! ## count_bits -/

/-- The digit widths the library can be configured for. -/
def DigitWidth (w : Nat) : Prop := w = 8 ∨ w = 16 ∨ w = 32 ∨ w = 64

theorem DigitWidth.pos {w : Nat} (h : DigitWidth w) : 8 ≤ w := by
  unfold DigitWidth at h; omega

theorem bitsAt_spec : ∀ i, i < 256 → bitsAt i = Nat.size i := by decide +kernel

theorem and_mask_eq_zero {d n k : Nat} (h : d < 2 ^ (n + k)) :
    d &&& ((2 ^ k - 1) <<< n) = 0 ↔ d < 2 ^ n := by
  have e : d &&& ((2 ^ k - 1) <<< n) = ((d >>> n) &&& (2 ^ k - 1)) <<< n := by
    apply Nat.eq_of_testBit_eq
    intro i
    simp only [Nat.testBit_and, Nat.testBit_shiftLeft, Nat.testBit_shiftRight]
    by_cases hi : n ≤ i
    · simp [hi]
    · simp [hi]
  have h2 : (d >>> n) < 2 ^ k := by
    rw [Nat.shiftRight_eq_div_pow, Nat.div_lt_iff_lt_mul (Nat.two_pow_pos _), ← pow_add, Nat.add_comm]
    exact h
  rw [e, Nat.and_two_pow_sub_one_eq_mod, Nat.mod_eq_of_lt h2, Nat.shiftRight_eq_div_pow,
    Nat.shiftLeft_eq, Nat.mul_eq_zero, Nat.div_eq_zero_iff]
  have := Nat.two_pow_pos n
  omega

theorem size_shift {d k : Nat} (h : 2 ^ k ≤ d) : Nat.size d = Nat.size (d >>> k) + k := by
  have hq : d >>> k ≠ 0 := by
    rw [Nat.shiftRight_eq_div_pow]
    have := Nat.div_pos h (Nat.two_pow_pos k)
    omega
  apply Nat.le_antisymm
  · rw [Nat.size_le, pow_add]
    have h1 : d >>> k < 2 ^ (d >>> k).size := Nat.lt_size_self _
    rw [Nat.shiftRight_eq_div_pow] at h1 ⊢
    exact (Nat.div_lt_iff_lt_mul (Nat.two_pow_pos k)).1 h1
  · have h1 : 0 < (d >>> k).size := Nat.size_pos.2 (Nat.pos_of_ne_zero hq)
    have h2 : 2 ^ ((d >>> k).size - 1) ≤ d >>> k := Nat.lt_size.1 (by omega)
    have h3 : (d >>> k).size - 1 + k < d.size := by
      rw [Nat.lt_size, pow_add]
      rw [Nat.shiftRight_eq_div_pow] at h2 ⊢
      exact (Nat.le_div_iff_mul_le (Nat.two_pow_pos k)).1 h2
    omega

theorem bitsAt_shift {d k : Nat} (h1 : 2 ^ k ≤ d) (h2 : d < 2 ^ (k + 8)) :
    bitsAt (d >>> k) + k = Nat.size d := by
  rw [size_shift h1, bitsAt_spec]
  rw [Nat.shiftRight_eq_div_pow, Nat.div_lt_iff_lt_mul (Nat.two_pow_pos _)]
  rw [pow_add] at h2; omega

theorem digitBits_spec {w d : Nat} (hw : DigitWidth w) (hd : d < 2 ^ w) :
    digitBits w d = Nat.size d := by
  have m1 : d < 2 ^ 64 → (d &&& 0xFFFFFFFF00000000 = 0 ↔ d < 2 ^ 32) := fun h =>
    and_mask_eq_zero (n := 32) (k := 32) h
  have m2 : d < 2 ^ 64 → (d &&& 0xFFFF000000000000 = 0 ↔ d < 2 ^ 48) := fun h =>
    and_mask_eq_zero (n := 48) (k := 16) h
  have m3 : d < 2 ^ 64 → (d &&& 0xFF00000000000000 = 0 ↔ d < 2 ^ 56) := fun h =>
    and_mask_eq_zero (n := 56) (k := 8) h
  have m4 : d < 2 ^ 48 → (d &&& 0x0000FF0000000000 = 0 ↔ d < 2 ^ 40) := fun h =>
    and_mask_eq_zero (n := 40) (k := 8) h
  have m5 : d < 2 ^ 32 → (d &&& 0xFFFF0000 = 0 ↔ d < 2 ^ 16) := fun h =>
    and_mask_eq_zero (n := 16) (k := 16) h
  have m6 : d < 2 ^ 32 → (d &&& 0xFF000000 = 0 ↔ d < 2 ^ 24) := fun h =>
    and_mask_eq_zero (n := 24) (k := 8) h
  have m7 : d < 2 ^ 16 → (d &&& 0xFF00 = 0 ↔ d < 2 ^ 8) := fun h =>
    and_mask_eq_zero (n := 8) (k := 8) h
  have hlow : d < 2 ^ 16 → w ≥ 16 →
      (if w ≥ 16 ∧ d &&& 0xFF00 ≠ 0 then bitsAt (d >>> 8) + 8 else bitsAt d) = Nat.size d := by
    intro h1 h2
    have := m7 h1
    split
    · exact bitsAt_shift (by omega) (by omega)
    · exact bitsAt_spec d (by omega)
  have hmid : d < 2 ^ 32 → w ≥ 32 →
      (if w ≥ 32 ∧ d &&& 0xFFFF0000 ≠ 0 then
        if d &&& 0xFF000000 ≠ 0 then bitsAt (d >>> 24) + 24 else bitsAt (d >>> 16) + 16
      else if w ≥ 16 ∧ d &&& 0xFF00 ≠ 0 then bitsAt (d >>> 8) + 8 else bitsAt d) = Nat.size d := by
    intro h1 h2
    have := m5 h1
    have := m6 h1
    split
    · split
      · exact bitsAt_shift (by omega) (by omega)
      · exact bitsAt_shift (by omega) (by omega)
    · exact hlow (by omega) (by omega)
  unfold digitBits
  rcases hw with rfl | rfl | rfl | rfl
  · rw [if_neg (by omega), if_neg (by omega), if_neg (by omega)]
    exact bitsAt_spec d (by omega)
  · rw [if_neg (by omega), if_neg (by omega)]
    exact hlow hd (by omega)
  · rw [if_neg (by omega)]
    exact hmid hd (by omega)
  · have := m1 hd
    have := m2 hd
    have := m3 hd
    split
    · split
      · split
        · exact bitsAt_shift (by omega) (by omega)
        · exact bitsAt_shift (by omega) (by omega)
      · have := m4 (by omega)
        split
        · exact bitsAt_shift (by omega) (by omega)
        · exact bitsAt_shift (by omega) (by omega)
    · exact hmid (by omega) (by omega)

theorem countBits_spec {w : Nat} (hw : DigitWidth w) {x : Mpi} (hx : Norm (2 ^ w) x) :
    countBits w x = Nat.size (val (2 ^ w) x.digs) := by
  unfold countBits
  rcases List.eq_nil_or_concat x.digs with h | ⟨init, top, h⟩
  · simp [h]
  · rw [List.concat_eq_append] at h
    have hd := hx.digits
    have ht := hx.top
    rw [h] at hd ht ⊢
    simp only [List.getLast?_append, List.getLast?_singleton, Option.some_or]
    rw [digits_append, digits_cons] at hd
    have htop : top ≠ 0 := by
      intro h0; apply ht; simp [h0]
    have hlow := val_lt hd.1
    rw [digitBits_spec hw hd.2.1, val_append]
    simp only [List.length_append, List.length_singleton, Nat.add_sub_cancel, val_cons, val_nil,
      Nat.mul_zero, Nat.add_zero]
    rw [← pow_mul, Nat.mul_comm init.length w] at *
    rw [Nat.add_comm]
    symm
    have hlow' : val (2 ^ w) init < 2 ^ (w * init.length) := hlow
    have hle : 2 ^ (w * init.length) ≤ val (2 ^ w) init + 2 ^ (w * init.length) * top := by
      have : 2 ^ (w * init.length) * 1 ≤ 2 ^ (w * init.length) * top :=
        Nat.mul_le_mul_left _ (by omega)
      omega
    rw [size_shift hle, Nat.shiftRight_eq_div_pow,
      Nat.add_mul_div_left _ _ (Nat.two_pow_pos _), Nat.div_eq_of_lt hlow', Nat.zero_add]

/-! ## the in-place loops compute the list operations -/

theorem zeroFrom_spec : ∀ (k x : Nat) (f : Nat → Nat) (j : Nat),
    zeroFrom x k f j = if x ≤ j ∧ j < x + k then 0 else f j
  | 0, x, f, j => by rw [zeroFrom, if_neg (by omega)]
  | k + 1, x, f, j => by
    rw [zeroFrom, zeroFrom_spec k (x + 1), upd]
    by_cases h : j = x
    · subst h; rw [if_neg (by omega), if_pos rfl, if_pos (by omega)]
    · rw [if_neg h]
      split
      · rw [if_pos (by omega)]
      · rw [if_neg (by omega)]

theorem shldMove_spec (n : Nat) (hn : 0 < n) : ∀ (k : Nat) (f : Nat → Nat) (j : Nat),
    shldMove n k f j = if n ≤ j ∧ j < n + k then f (j - n) else f j
  | 0, f, j => by rw [shldMove, if_neg (by omega)]
  | k + 1, f, j => by
    rw [shldMove, shldMove_spec n hn k]
    by_cases h : n ≤ j ∧ j < n + k
    · rw [if_pos h, if_pos (by omega), upd, if_neg (by omega)]
    · rw [if_neg h, upd]
      split
      next hj => rw [if_pos (by omega)]; congr 1; omega
      next hj => rw [if_neg (by omega)]

theorem shrdMove_spec (n : Nat) (hn : 0 < n) : ∀ (k x : Nat) (f : Nat → Nat) (j : Nat),
    shrdMove n x k f j = if x ≤ j ∧ j < x + k then f (n + j) else f j
  | 0, x, f, j => by rw [shrdMove, if_neg (by omega)]
  | k + 1, x, f, j => by
    rw [shrdMove, shrdMove_spec n hn k]
    by_cases h : x + 1 ≤ j ∧ j < x + 1 + k
    · rw [if_pos h, if_pos (by omega), upd, if_neg (by omega)]
    · rw [if_neg h, upd]
      split
      next hj => subst hj; rw [if_pos (by omega)]
      next hj => rw [if_neg (by omega)]

theorem seg_getElem? (f : Nat → Nat) : ∀ (n i k : Nat),
    (seg f i n)[k]? = if k < n then some (f (i + k)) else none
  | 0, i, k => by simp [seg]
  | n + 1, i, 0 => by simp [seg]
  | n + 1, i, k + 1 => by
    simp only [seg, List.getElem?_cons_succ]
    rw [seg_getElem? f n (i + 1) k, show i + 1 + k = i + (k + 1) by omega]
    split
    · rw [if_pos (by omega)]
    · rw [if_neg (by omega)]

theorem shldObj_spec (o : Obj) (n : Nat) : (shldObj o n).mpi = shld o.mpi n := by
  have hz : o.mpi.digs = [] ↔ o.used = 0 := by
    rw [← List.length_eq_zero_iff]; simp [Obj.mpi]
  unfold shldObj shld
  simp only [hz]
  split
  · rfl
  next h =>
    simp only [Obj.mpi, Mpi.mk.injEq, true_and]
    apply List.ext_getElem?
    intro k
    rw [seg_getElem?, Nat.zero_add, zeroFrom_spec, shldMove_spec n (by omega)]
    by_cases hk : k < n
    · rw [List.getElem?_append_left (by simpa using hk), List.getElem?_replicate, if_pos hk,
        if_pos (by omega), if_pos (by omega)]
    · rw [List.getElem?_append_right (by simp; omega), seg_getElem?, List.length_replicate,
        if_neg (by omega : ¬ (0 ≤ k ∧ k < 0 + n))]
      by_cases hk2 : k < o.used + n
      · rw [if_pos hk2, if_pos (by omega), if_pos (by omega), Nat.zero_add]
      · rw [if_neg hk2, if_neg (by omega)]

theorem shrdObj_spec (o : Obj) (n : Nat) : (shrdObj o n).mpi = shrd o.mpi n := by
  have hz : o.mpi.digs = [] ↔ o.used = 0 := by
    rw [← List.length_eq_zero_iff]; simp [Obj.mpi]
  have hl : o.mpi.digs.length = o.used := by simp [Obj.mpi]
  unfold shrdObj shrd
  simp only [hz, hl]
  split
  · rfl
  next h =>
    split
    next => simp [Obj.mpi, seg]
    next h2 =>
      simp only [Obj.mpi, Mpi.mk.injEq, true_and]
      apply List.ext_getElem?
      intro k
      rw [seg_getElem?, Nat.zero_add, zeroFrom_spec, shrdMove_spec n (by omega), List.getElem?_drop,
        seg_getElem?]
      by_cases hk : k < o.used - n
      · rw [if_pos hk, if_neg (by omega), if_pos (by omega), if_pos (by omega), Nat.zero_add]
      · rw [if_neg hk, if_neg (by omega)]

end Verif.Mpi
