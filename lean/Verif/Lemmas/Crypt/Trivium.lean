import Verif.Model.Crypt.Trivium
import Verif.Spec.Trivium
import Verif.Lemmas.Bytes
import Mathlib.Tactic.IntervalCases
/-! Trivium: 32 steps at a time. -/
namespace Verif.Trivium
open Verif.TriviumS

theorem getLsbD_ofBits : ∀ (n : Nat) (f : Nat → Bool) (i : Nat), (ofBits n f).getLsbD i = (decide (i < n) && f i)
  | 0, f, i => by simp [ofBits]
  | n + 1, f, 0 => by simp [ofBits]
  | n + 1, f, i + 1 => by
    rw [ofBits, BitVec.getLsbD_concat_succ, getLsbD_ofBits n]
    simp

/-- The serial state held in the words. -/
def abs (w : W) : St :=
  ⟨(w.s13 ++ w.s12 ++ w.s11).setWidth 93, (w.s23 ++ w.s22 ++ w.s21).setWidth 84,
    (w.s34 ++ w.s33 ++ w.s32 ++ w.s31).setWidth 111⟩

theorem abs_a (w : W) (p : Nat) (h : p < 93) : (abs w).a.getLsbD p =
    if p < 32 then w.s11.getLsbD p else if p < 64 then w.s12.getLsbD (p - 32) else w.s13.getLsbD (p - 64) := by
  simp only [abs, BitVec.getLsbD_setWidth, BitVec.getLsbD_append]
  rw [decide_eq_true h, Bool.true_and]
  split_ifs <;> first | rfl | omega | (congr 1; omega)

theorem abs_b (w : W) (p : Nat) (h : p < 84) : (abs w).b.getLsbD p =
    if p < 32 then w.s21.getLsbD p else if p < 64 then w.s22.getLsbD (p - 32) else w.s23.getLsbD (p - 64) := by
  simp only [abs, BitVec.getLsbD_setWidth, BitVec.getLsbD_append]
  rw [decide_eq_true h, Bool.true_and]
  split_ifs <;> first | rfl | omega | (congr 1; omega)

theorem abs_c (w : W) (p : Nat) (h : p < 111) : (abs w).c.getLsbD p =
    if p < 32 then w.s31.getLsbD p else if p < 64 then w.s32.getLsbD (p - 32)
    else if p < 96 then w.s33.getLsbD (p - 64) else w.s34.getLsbD (p - 96) := by
  simp only [abs, BitVec.getLsbD_setWidth, BitVec.getLsbD_append]
  rw [decide_eq_true h, Bool.true_and]
  split_ifs <;> first | rfl | omega | (congr 1; omega)

theorem s64_bit (s3 s2 : BitVec 32) (b i : Nat) (hb : 64 < b) (hb2 : b ≤ 96) (hi : i < 32) :
    (s64 s3 s2 b).getLsbD i = if b - 32 + i < 64 then s2.getLsbD (b - 32 + i - 32) else s3.getLsbD (b - 32 + i - 64) := by
  rw [s64, BitVec.getLsbD_or, BitVec.getLsbD_shiftLeft, BitVec.getLsbD_ushiftRight, decide_eq_true hi, Bool.true_and]
  by_cases h : b - 32 + i < 64
  · rw [if_pos h, decide_eq_true (by omega : i < 96 - b), show b - 64 + i = b - 32 + i - 32 by omega]; simp
  · rw [if_neg h, decide_eq_false (by omega : ¬ i < 96 - b), BitVec.getLsbD_of_ge s2 _ (by omega),
      show i - (96 - b) = b - 32 + i - 64 by omega]
    simp

theorem s96_bit (s4 s3 : BitVec 32) (b i : Nat) (hb : 96 < b) (hb2 : b ≤ 128) (hi : i < 32) :
    (s96 s4 s3 b).getLsbD i = if b - 32 + i < 96 then s3.getLsbD (b - 32 + i - 64) else s4.getLsbD (b - 32 + i - 96) := by
  rw [s96, BitVec.getLsbD_or, BitVec.getLsbD_shiftLeft, BitVec.getLsbD_ushiftRight, decide_eq_true hi, Bool.true_and]
  by_cases h : b - 32 + i < 96
  · rw [if_pos h, decide_eq_true (by omega : i < 128 - b), show b - 96 + i = b - 32 + i - 64 by omega]; simp
  · rw [if_neg h, decide_eq_false (by omega : ¬ i < 128 - b), BitVec.getLsbD_of_ge s3 _ (by omega),
      show i - (128 - b) = b - 32 + i - 96 by omega]
    simp

theorem tap_a (w : W) (b i : Nat) (hb : 64 < b) (hb2 : b ≤ 93) (hi : i < 32) :
    (s64 w.s13 w.s12 b).getLsbD i = (abs w).a.getLsbD (b - 1 - (31 - i)) := by
  rw [s64_bit _ _ _ _ hb (by omega) hi, show b - 1 - (31 - i) = b - 32 + i by omega, abs_a _ _ (by omega),
    if_neg (c := b - 32 + i < 32) (by omega)]

theorem tap_b (w : W) (b i : Nat) (hb : 64 < b) (hb2 : b ≤ 84) (hi : i < 32) :
    (s64 w.s23 w.s22 b).getLsbD i = (abs w).b.getLsbD (b - 1 - (31 - i)) := by
  rw [s64_bit _ _ _ _ hb (by omega) hi, show b - 1 - (31 - i) = b - 32 + i by omega, abs_b _ _ (by omega),
    if_neg (c := b - 32 + i < 32) (by omega)]

theorem tap_c (w : W) (b i : Nat) (hb : 64 < b) (hb2 : b ≤ 96) (hi : i < 32) :
    (s64 w.s33 w.s32 b).getLsbD i = (abs w).c.getLsbD (b - 1 - (31 - i)) := by
  rw [s64_bit _ _ _ _ hb (by omega) hi, show b - 1 - (31 - i) = b - 32 + i by omega, abs_c _ _ (by omega),
    if_neg (c := b - 32 + i < 32) (by omega), if_pos (c := b - 32 + i < 96) (by omega)]

theorem tap_d (w : W) (b i : Nat) (hb : 96 < b) (hb2 : b ≤ 111) (hi : i < 32) :
    (s96 w.s34 w.s33 b).getLsbD i = (abs w).c.getLsbD (b - 1 - (31 - i)) := by
  rw [s96_bit _ _ _ _ hb (by omega) hi, show b - 1 - (31 - i) = b - 32 + i by omega, abs_c _ _ (by omega),
    if_neg (c := b - 32 + i < 32) (by omega), if_neg (c := b - 32 + i < 64) (by omega)]

/-- The bits fed to the registers at step `i`, from the state 32 or fewer steps before. -/
def x1 (t : St) (i : Nat) : Bool := t.a.getLsbD (65 - i) ^^ (t.a.getLsbD (90 - i) && t.a.getLsbD (91 - i)) ^^ t.a.getLsbD (92 - i) ^^
  t.b.getLsbD (77 - i)
def x2 (t : St) (i : Nat) : Bool := t.b.getLsbD (68 - i) ^^ (t.b.getLsbD (81 - i) && t.b.getLsbD (82 - i)) ^^ t.b.getLsbD (83 - i) ^^
  t.c.getLsbD (86 - i)
def x3 (t : St) (i : Nat) : Bool := t.c.getLsbD (65 - i) ^^ (t.c.getLsbD (108 - i) && t.c.getLsbD (109 - i)) ^^ t.c.getLsbD (110 - i) ^^
  t.a.getLsbD (68 - i)

theorem step_a (t : St) (p : Nat) (h : p < 93) : t.step.a.getLsbD p = if p = 0 then x3 t 0 else t.a.getLsbD (p - 1) := by
  have : t.step.a = (t.a.concat (x3 t 0)).setWidth 93 := rfl
  rw [this, BitVec.getLsbD_setWidth, decide_eq_true h, Bool.true_and, BitVec.getLsbD_concat]

theorem step_b (t : St) (p : Nat) (h : p < 84) : t.step.b.getLsbD p = if p = 0 then x1 t 0 else t.b.getLsbD (p - 1) := by
  have : t.step.b = (t.b.concat (x1 t 0)).setWidth 84 := rfl
  rw [this, BitVec.getLsbD_setWidth, decide_eq_true h, Bool.true_and, BitVec.getLsbD_concat]

theorem step_c (t : St) (p : Nat) (h : p < 111) : t.step.c.getLsbD p = if p = 0 then x2 t 0 else t.c.getLsbD (p - 1) := by
  have : t.step.c = (t.c.concat (x2 t 0)).setWidth 111 := rfl
  rw [this, BitVec.getLsbD_setWidth, decide_eq_true h, Bool.true_and, BitVec.getLsbD_concat]

theorem steps_bits (t : St) : ∀ j, j ≤ 32 →
    (∀ p, p < 93 → (t.steps j).a.getLsbD p = if p < j then x3 t (j - 1 - p) else t.a.getLsbD (p - j)) ∧
    (∀ p, p < 84 → (t.steps j).b.getLsbD p = if p < j then x1 t (j - 1 - p) else t.b.getLsbD (p - j)) ∧
    (∀ p, p < 111 → (t.steps j).c.getLsbD p = if p < j then x2 t (j - 1 - p) else t.c.getLsbD (p - j)) := by
  intro j
  induction j with
  | zero => intro _; exact ⟨fun _ _ => rfl, fun _ _ => rfl, fun _ _ => rfl⟩
  | succ j ih =>
    intro hj
    obtain ⟨ha, hb, hc⟩ := ih (by omega)
    have hA : ∀ p, j ≤ p → p < 93 → (t.steps j).a.getLsbD p = t.a.getLsbD (p - j) := by
      intro p h1 h2; rw [ha p h2, if_neg (by omega)]
    have hB : ∀ p, j ≤ p → p < 84 → (t.steps j).b.getLsbD p = t.b.getLsbD (p - j) := by
      intro p h1 h2; rw [hb p h2, if_neg (by omega)]
    have hC : ∀ p, j ≤ p → p < 111 → (t.steps j).c.getLsbD p = t.c.getLsbD (p - j) := by
      intro p h1 h2; rw [hc p h2, if_neg (by omega)]
    refine ⟨fun p hp => ?_, fun p hp => ?_, fun p hp => ?_⟩
    · rw [St.steps, step_a _ _ hp]
      by_cases h0 : p = 0
      · rw [if_pos h0, if_pos (by omega)]
        subst h0
        simp only [x3, Nat.sub_zero, Nat.add_sub_cancel]
        rw [hC 65 (by omega) (by omega), hC 108 (by omega) (by omega), hC 109 (by omega) (by omega),
          hC 110 (by omega) (by omega), hA 68 (by omega) (by omega)]
      · rw [if_neg h0, ha _ (by omega)]
        by_cases h1 : p < j + 1
        · rw [if_pos h1, if_pos (by omega), show j - 1 - (p - 1) = j + 1 - 1 - p by omega]
        · rw [if_neg h1, if_neg (by omega), show p - 1 - j = p - (j + 1) by omega]
    · rw [St.steps, step_b _ _ hp]
      by_cases h0 : p = 0
      · rw [if_pos h0, if_pos (by omega)]
        subst h0
        simp only [x1, Nat.sub_zero, Nat.add_sub_cancel]
        rw [hA 65 (by omega) (by omega), hA 90 (by omega) (by omega), hA 91 (by omega) (by omega),
          hA 92 (by omega) (by omega), hB 77 (by omega) (by omega)]
      · rw [if_neg h0, hb _ (by omega)]
        by_cases h1 : p < j + 1
        · rw [if_pos h1, if_pos (by omega), show j - 1 - (p - 1) = j + 1 - 1 - p by omega]
        · rw [if_neg h1, if_neg (by omega), show p - 1 - j = p - (j + 1) by omega]
    · rw [St.steps, step_c _ _ hp]
      by_cases h0 : p = 0
      · rw [if_pos h0, if_pos (by omega)]
        subst h0
        simp only [x2, Nat.sub_zero, Nat.add_sub_cancel]
        rw [hB 68 (by omega) (by omega), hB 81 (by omega) (by omega), hB 82 (by omega) (by omega),
          hB 83 (by omega) (by omega), hC 86 (by omega) (by omega)]
      · rw [if_neg h0, hc _ (by omega)]
        by_cases h1 : p < j + 1
        · rw [if_pos h1, if_pos (by omega), show j - 1 - (p - 1) = j + 1 - 1 - p by omega]
        · rw [if_neg h1, if_neg (by omega), show p - 1 - j = p - (j + 1) by omega]

theorem z_eq (t : St) (j : Nat) (hj : j < 32) : (t.steps j).z =
    ((t.a.getLsbD (65 - j) ^^ t.a.getLsbD (92 - j)) ^^ (t.b.getLsbD (68 - j) ^^ t.b.getLsbD (83 - j)) ^^
      (t.c.getLsbD (65 - j) ^^ t.c.getLsbD (110 - j))) := by
  obtain ⟨ha, hb, hc⟩ := steps_bits t j (by omega)
  have : ∀ u : St, u.z = ((u.a.getLsbD 65 ^^ u.a.getLsbD 92) ^^ (u.b.getLsbD 68 ^^ u.b.getLsbD 83) ^^
      (u.c.getLsbD 65 ^^ u.c.getLsbD 110)) := fun u => rfl
  rw [this, ha _ (by omega), ha _ (by omega), hb _ (by omega), hb _ (by omega), hc _ (by omega), hc _ (by omega),
    if_neg (by omega), if_neg (by omega), if_neg (by omega), if_neg (by omega), if_neg (by omega), if_neg (by omega)]

/-- The output word: bit `31 - j` is the key stream bit of step `j`. -/
theorem out_bit (w : W) (i : Nat) (hi : i < 32) : (out w).getLsbD i = ((abs w).steps (31 - i)).z := by
  rw [z_eq _ _ (by omega), out, taps]
  simp only [BitVec.getLsbD_xor]
  rw [tap_a _ _ _ (by omega) (by omega) hi, tap_a _ _ _ (by omega) (by omega) hi, tap_b _ _ _ (by omega) (by omega) hi,
    tap_b _ _ _ (by omega) (by omega) hi, tap_c _ _ _ (by omega) (by omega) hi, tap_d _ _ _ (by omega) (by omega) hi]

theorem xor4 (a b c d : Bool) : ((a ^^ b) ^^ c ^^ d) = (a ^^ c ^^ b ^^ d) := by
  cases a <;> cases b <;> cases c <;> cases d <;> rfl

/-- One update of the words is 32 steps of the registers. -/
theorem abs_update (w : W) : abs (update w) = (abs w).steps 32 := by
  obtain ⟨ha, hb, hc⟩ := steps_bits (abs w) 32 (le_refl _)
  have hA : (abs (update w)).a = ((abs w).steps 32).a := by
    apply BitVec.eq_of_getLsbD_eq
    intro p hp
    rw [ha p hp, abs_a _ _ hp]
    by_cases h : p < 32
    · rw [if_pos h, if_pos h]
      simp only [update, taps, BitVec.getLsbD_xor, BitVec.getLsbD_and, x3]
      rw [tap_c _ _ _ (by omega) (by omega) h, tap_d _ _ _ (by omega) (by omega) h, tap_d _ _ _ (by omega) (by omega) h,
        tap_d _ _ _ (by omega) (by omega) h, tap_a _ _ _ (by omega) (by omega) h]
      exact xor4 _ _ _ _
    · rw [if_neg h, if_neg h, abs_a _ _ (by omega)]
      simp only [update]
      split_ifs <;> first | omega | (congr 1 <;> omega)
  have hB : (abs (update w)).b = ((abs w).steps 32).b := by
    apply BitVec.eq_of_getLsbD_eq
    intro p hp
    rw [hb p hp, abs_b _ _ hp]
    by_cases h : p < 32
    · rw [if_pos h, if_pos h]
      simp only [update, taps, BitVec.getLsbD_xor, BitVec.getLsbD_and, x1]
      rw [tap_a _ _ _ (by omega) (by omega) h, tap_a _ _ _ (by omega) (by omega) h, tap_a _ _ _ (by omega) (by omega) h,
        tap_a _ _ _ (by omega) (by omega) h, tap_b _ _ _ (by omega) (by omega) h]
      exact xor4 _ _ _ _
    · rw [if_neg h, if_neg h, abs_b _ _ (by omega)]
      simp only [update]
      split_ifs <;> first | omega | (congr 1 <;> omega)
  have hC : (abs (update w)).c = ((abs w).steps 32).c := by
    apply BitVec.eq_of_getLsbD_eq
    intro p hp
    rw [hc p hp, abs_c _ _ hp]
    by_cases h : p < 32
    · rw [if_pos h, if_pos h]
      simp only [update, taps, BitVec.getLsbD_xor, BitVec.getLsbD_and, x2]
      rw [tap_b _ _ _ (by omega) (by omega) h, tap_b _ _ _ (by omega) (by omega) h, tap_b _ _ _ (by omega) (by omega) h,
        tap_b _ _ _ (by omega) (by omega) h, tap_c _ _ _ (by omega) (by omega) h]
      exact xor4 _ _ _ _
    · rw [if_neg h, if_neg h, abs_c _ _ (by omega)]
      simp only [update]
      split_ifs <;> first | omega | (congr 1 <;> omega)
  generalize abs (update w) = x at *
  generalize (abs w).steps 32 = y at *
  cases x; cases y
  simp_all

theorem steps_add (t : St) (m : Nat) : ∀ n, (t.steps m).steps n = t.steps (m + n)
  | 0 => rfl
  | n + 1 => by rw [St.steps, steps_add t m n, ← Nat.add_assoc]; rfl

theorem abs_updates (w : W) (n : Nat) : abs (updates w n) = (abs w).steps (32 * n) := by
  induction n with
  | zero => rfl
  | succ n ih => rw [updates, abs_update, ih, steps_add]; rfl

theorem read_bit (a b c d : Byte) (p : Nat) (hp : p < 32) :
    (read32le a b c d).getLsbD p = ([a, b, c, d].getD (p / 8) 0).getLsbD (p % 8) := by
  rw [read32le_eq, read32be_eq]
  simp only [BitVec.getLsbD_append]
  interval_cases p <;> rfl

theorem word_bit (s : List Byte) (i p : Nat) (hp : p < 32) : (word s (4 * i)).getLsbD p = bit s (32 * i + p) := by
  rw [word, bit, read_bit _ _ _ _ _ hp, show (32 * i + p) / 8 = 4 * i + p / 8 by omega,
    show (32 * i + p) % 8 = p % 8 by omega]
  congr 1
  have : p / 8 < 4 := by omega
  generalize p / 8 = k at this
  interval_cases k <;> rfl

theorem write_read (a b c d : Byte) : write32le (read32le a b c d) = [a, b, c, d] := by
  rw [write32le_eq, read32le_eq, write32be_read32be]; rfl

theorem exists_write (v : BitVec 32) : ∃ a b c d, write32le v = [a, b, c, d] ∧ read32le a b c d = v := by
  obtain ⟨a, b, c, d, h1, h2⟩ := exists_write32be v
  exact ⟨d, c, b, a, by rw [write32le_eq, h1]; rfl, by rw [read32le_eq, h2]⟩

theorem load_store (w : W) : load (store w) = w := by
  obtain ⟨s11, s12, s13, s21, s22, s23, s31, s32, s33, s34⟩ := w
  obtain ⟨_, _, _, _, h1, g1⟩ := exists_write s11
  obtain ⟨_, _, _, _, h2, g2⟩ := exists_write s12
  obtain ⟨_, _, _, _, h3, g3⟩ := exists_write s13
  obtain ⟨_, _, _, _, h4, g4⟩ := exists_write s21
  obtain ⟨_, _, _, _, h5, g5⟩ := exists_write s22
  obtain ⟨_, _, _, _, h6, g6⟩ := exists_write s23
  obtain ⟨_, _, _, _, h7, g7⟩ := exists_write s31
  obtain ⟨_, _, _, _, h8, g8⟩ := exists_write s32
  obtain ⟨_, _, _, _, h9, g9⟩ := exists_write s33
  obtain ⟨_, _, _, _, h10, g10⟩ := exists_write s34
  rw [store, h1, h2, h3, h4, h5, h6, h7, h8, h9, h10, ← g1, ← g2, ← g3, ← g4, ← g5, ← g6, ← g7, ← g8, ← g9, ← g10]
  rfl

/-! ### The key stream -/

theorem write_bit (v : BitVec 32) (k i : Nat) (hk : k < 4) (hi : i < 8) :
    ((write32le v).getD k 0).getLsbD i = v.getLsbD (8 * k + i) := by
  interval_cases k <;> interval_cases i <;> simp [write32le]

/-- The first four bytes of key stream. -/
theorem write_out (w : W) (k : Nat) (hk : k < 4) : (write32le (out w)).getD k 0 = byte (abs w) k := by
  apply BitVec.eq_of_getLsbD_eq
  intro i hi
  rw [write_bit _ _ _ hk hi, out_bit _ _ (by omega), byte, getLsbD_ofBits, decide_eq_true hi, Bool.true_and]
  congr 2
  omega

/-- Key stream bytes `0 .. n-1` of a state. -/
def stream (t : St) (n : Nat) : List Byte := (List.range n).map (byte t)

theorem write_stream (w : W) : write32le (out w) = stream (abs w) 4 := by
  have h : ∀ k, k < 4 → _ := fun k hk => write_out w k hk
  have h0 := h 0 (by omega)
  have h1 := h 1 (by omega)
  have h2 := h 2 (by omega)
  have h3 := h 3 (by omega)
  rw [show stream (abs w) 4 = [byte (abs w) 0, byte (abs w) 1, byte (abs w) 2, byte (abs w) 3] from rfl, ← h0, ← h1, ← h2, ← h3]
  rfl

theorem byte_add (t : St) (m q : Nat) : byte t (4 * q + m) = byte (t.steps (32 * q)) m := by
  rw [byte, byte]
  congr 1
  funext i
  rw [steps_add]
  congr 2
  omega

theorem stream_add (t : St) (q n : Nat) : stream t (4 * q + n) = stream t (4 * q) ++ stream (t.steps (32 * q)) n := by
  rw [stream, stream, stream, List.range_add, List.map_append, List.map_map]
  congr 1
  apply List.map_congr_left
  intro m _
  exact byte_add t m q

theorem xor_write (a b c d : Byte) (v : BitVec 32) :
    write32le (read32le a b c d ^^^ v) = List.zipWith (· ^^^ ·) [a, b, c, d] (write32le v) := by
  obtain ⟨e, f, g, h, h1, h2⟩ := exists_write v
  rw [h1, ← h2]
  have : read32le a b c d ^^^ read32le e f g h = read32le (a ^^^ e) (b ^^^ f) (c ^^^ g) (d ^^^ h) := by
    rw [read32le_eq, read32le_eq, read32le_eq, read32be_eq, read32be_eq, read32be_eq]
    apply BitVec.eq_of_getLsbD_eq
    intro i hi
    simp only [BitVec.getLsbD_xor, BitVec.getLsbD_append]
    split_ifs <;> rfl
  rw [this, write_read]
  rfl

theorem tail_eq (v : BitVec 32) (l : List Byte) (h : l.length ≤ 4) : tail v l = List.zipWith (· ^^^ ·) l (write32le v) := by
  have e0 : v.setWidth 8 = (v &&& 0xff#32).setWidth 8 := by
    apply BitVec.eq_of_getLsbD_eq; intro i hi; interval_cases i <;> simp
  have e1 : (v >>> 8).setWidth 8 = (v >>> 8 &&& 0xff#32).setWidth 8 := by
    apply BitVec.eq_of_getLsbD_eq; intro i hi; interval_cases i <;> simp
  have e2 : (v >>> 8 >>> 8).setWidth 8 = (v >>> 16 &&& 0xff#32).setWidth 8 := by
    apply BitVec.eq_of_getLsbD_eq; intro i hi; interval_cases i <;> simp
  have e3 : (v >>> 8 >>> 8 >>> 8).setWidth 8 = (v >>> 24 &&& 0xff#32).setWidth 8 := by
    apply BitVec.eq_of_getLsbD_eq; intro i hi; interval_cases i <;> simp
  match l, h with
  | [], _ => rfl
  | [a], _ => simp only [tail, e0]; rfl
  | [a, b], _ => simp only [tail, e0, e1]; rfl
  | [a, b, c], _ => simp only [tail, e0, e1, e2]; rfl
  | [a, b, c, d], _ => simp only [tail, e0, e1, e2, e3]; rfl

theorem zipWith_append_right {f : Byte → Byte → Byte} {l : List Byte} (n : Nat) {x y : List Byte} (h : l.length ≤ x.length) :
    List.zipWith f l (x ++ y) = List.zipWith f l x := by
  induction l generalizing x with
  | nil => rfl
  | cons a l ih =>
    cases x with
    | nil => simp at h
    | cons b x => rw [List.cons_append, List.zipWith_cons_cons, List.zipWith_cons_cons, ih (by simpa using h)]

theorem loop_eq : ∀ (n : Nat) (w : W) (src : List Byte), src.length ≤ n →
    (loop w src).1 = List.zipWith (· ^^^ ·) src (stream (abs w) src.length) ∧
    abs (loop w src).2 = (abs w).steps (32 * ((src.length + 3) / 4)) := by
  intro n
  induction n with
  | zero =>
    intro w src h
    rw [List.length_eq_zero_iff.mp (Nat.le_zero.mp h)]
    exact ⟨rfl, rfl⟩
  | succ n ih =>
    intro w src h
    have ht : ∀ l : List Byte, l.length < 4 → loop w l = if l = [] then ([], w) else (tail (out w) l, update w) := by
      intro l hl
      match l, hl with
      | [], _ => rfl
      | [a], _ => rfl
      | [a, b], _ => rfl
      | [a, b, c], _ => rfl
    by_cases h4 : src.length < 4
    · rw [ht src h4]
      by_cases h0 : src = []
      · subst h0; exact ⟨rfl, rfl⟩
      · rw [if_neg h0]
        dsimp only
        have hp : 0 < src.length := List.length_pos_iff.mpr h0
        refine ⟨?_, ?_⟩
        · rw [tail_eq _ _ (by omega), write_stream]
          have hs : stream (abs w) 4 = stream (abs w) src.length ++ (stream (abs w) 4).drop src.length := by
            conv_lhs => rw [← List.take_append_drop src.length (stream (abs w) 4)]
            congr 1
            rw [stream, stream, ← List.map_take, List.take_range, Nat.min_eq_left (by omega)]
          rw [hs, zipWith_append_right 0 (by simp [stream])]
        · rw [abs_update, show (src.length + 3) / 4 = 1 by omega]
    · match src, h, h4 with
      | a :: b :: c :: d :: l, h, _ =>
        obtain ⟨h1, h2⟩ := ih (update w) l (by simp only [List.length_cons] at h; omega)
        have hl : (a :: b :: c :: d :: l).length = 4 * 1 + l.length := by simp only [List.length_cons]; omega
        rw [show loop w (a :: b :: c :: d :: l) = (write32le (read32le a b c d ^^^ out w) ++ (loop (update w) l).1,
          (loop (update w) l).2) by rw [loop]]
        dsimp only
        refine ⟨?_, ?_⟩
        · rw [h1, hl, stream_add, xor_write, write_stream, abs_update,
            show a :: b :: c :: d :: l = [a, b, c, d] ++ l from rfl, List.zipWith_append]
          simp [stream]
        · rw [h2, hl, abs_update, steps_add]
          congr 1
          omega
      | [], _, h4 => simp at h4
      | [a], _, h4 => simp at h4
      | [a, b], _, h4 => simp at h4
      | [a, b, c], _, h4 => simp at h4

end Verif.Trivium
