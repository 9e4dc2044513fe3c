import Verif.Model.Mpi.Bin
import Verif.Spec.Bytes
import Verif.Lemmas.Mpi.Div
/-! Lemmas about binary import/export. -/
namespace Verif

theorem beVal_lt : ∀ bs : List Byte, beVal bs < 256 ^ bs.length
  | [] => by simp [beVal]
  | b :: bs => by
    have := beVal_lt bs
    have h2 : b.toNat < 256 := b.isLt
    simp only [beVal, List.length_cons, pow_succ]
    generalize 256 ^ bs.length = t at *
    nlinarith

theorem beVal_append : ∀ xs ys : List Byte, beVal (xs ++ ys) = beVal xs * 256 ^ ys.length + beVal ys
  | [], ys => by simp [beVal]
  | x :: xs, ys => by
    simp only [List.cons_append, beVal, beVal_append xs ys, List.length_append, pow_add]
    ring

theorem beVal_replicate_zero (n : Nat) : beVal (List.replicate n 0#8) = 0 := by
  induction n with
  | zero => rfl
  | succ n ih => rw [List.replicate_succ]; simp [beVal, ih]

theorem beVal_dropWhile : ∀ bs : List Byte, beVal (bs.dropWhile (· == 0#8)) = beVal bs
  | [] => rfl
  | b :: bs => by
    rw [List.dropWhile_cons]
    split
    · next h =>
      rw [beVal_dropWhile bs]
      simp only [beq_iff_eq] at h
      subst h
      simp [beVal]
    · rfl

theorem beVal_inj : ∀ {xs ys : List Byte}, xs.length = ys.length → beVal xs = beVal ys → xs = ys
  | [], [], _, _ => rfl
  | [], _ :: _, h, _ => by simp at h
  | _ :: _, [], h, _ => by simp at h
  | x :: xs, y :: ys, h, e => by
    simp only [List.length_cons, Nat.add_right_cancel_iff] at h
    have hx := beVal_lt xs
    have hy := beVal_lt ys
    simp only [beVal] at e
    rw [h] at e hx
    have h1 : x.toNat = y.toNat := by
      have a := congrArg (· / 256 ^ ys.length) e
      rw [Nat.mul_comm, Nat.mul_comm y.toNat] at a
      rwa [Nat.mul_add_div (Nat.pow_pos (by norm_num)), Nat.mul_add_div (Nat.pow_pos (by norm_num)),
        Nat.div_eq_of_lt hx, Nat.div_eq_of_lt hy] at a
    rw [BitVec.eq_of_toNat_eq h1, beVal_inj h (by rw [h1] at e; omega)]

end Verif

namespace Verif.Mpi

theorem DigitWidth.bytes {w : Nat} (h : DigitWidth w) : ∃ B, 0 < B ∧ w = 8 * B := by
  rcases h with h | h | h | h
  · exact ⟨1, by omega, by omega⟩
  · exact ⟨2, by omega, by omega⟩
  · exact ⟨4, by omega, by omega⟩
  · exact ⟨8, by omega, by omega⟩

theorem two_pow_eight_mul (B : Nat) : 2 ^ (8 * B) = 256 ^ B := by rw [pow_mul]; rfl

theorem load_digit {B d m : Nat} (p : Byte) (hB : 0 < B) (hm : m < B) (hd : d < 256 ^ (B - 1 - m)) :
    (if 8 * B > 8 then (d <<< 8) % 2 ^ (8 * B) else d) ||| p.toNat = d * 256 + p.toNat := by
  have hp : p.toNat < 2 ^ 8 := p.isLt
  split
  · next h =>
    have h1 : d <<< 8 < 2 ^ (8 * B) := by
      rw [two_pow_eight_mul, Nat.shiftLeft_eq]
      calc d * 256 < 256 ^ (B - 1 - m) * 256 := by omega
        _ = 256 ^ (B - 1 - m + 1) := (pow_succ _ _).symm
        _ ≤ 256 ^ B := Nat.pow_le_pow_right (by norm_num) (by omega)
    rw [Nat.mod_eq_of_lt h1, Nat.shiftLeft_eq, or_eq_add_mul hp]
    rfl
  · next h =>
    have : B - 1 - m = 0 := by omega
    rw [this, pow_zero] at hd
    have : d = 0 := by omega
    subst this
    simp

theorem loadLoop_spec {B : Nat} (hB : 0 < B) : ∀ (ps : List Byte) (d m k : Nat) (acc : List Nat),
    ps.length = m + 1 + B * k → m < B → d < 256 ^ (B - 1 - m) → Digits (256 ^ B) acc →
    Digits (256 ^ B) (loadLoop (8 * B) ps d m acc) ∧
    (loadLoop (8 * B) ps d m acc).length = acc.length + k + 1 ∧
    val (256 ^ B) (loadLoop (8 * B) ps d m acc) =
      beVal ps + 256 ^ ps.length * d + (256 ^ B) ^ (k + 1) * val (256 ^ B) acc
  | [], _, m, k, _, h, _, _, _ => by
    rw [List.length_nil, Nat.add_right_comm] at h; omega
  | p :: ps, d, m, k, acc, h, hm, hd, hacc => by
    have hp : p.toNat < 256 := p.isLt
    rw [loadLoop]
    rw [load_digit p hB hm hd]
    have h8 : 8 * B / 8 = B := by omega
    rw [h8]
    rw [List.length_cons] at h
    have hl : ps.length = m + B * k := by omega
    split
    · next h0 =>
      subst h0
      have hd' : d * 256 + p.toNat < 256 ^ B := by
        have e : 256 ^ B = 256 ^ (B - 1 - 0) * 256 := by
          rw [← pow_succ]; congr 1; omega
        rw [e]
        generalize 256 ^ (B - 1 - 0) = t at *
        omega
      cases k with
      | zero =>
        have : ps = [] := List.eq_nil_of_length_eq_zero (by rw [hl]; omega)
        subst this
        rw [loadLoop]
        refine ⟨by rw [digits_cons]; exact ⟨hd', hacc⟩, by simp, ?_⟩
        simp only [val_cons, beVal, List.length_cons, List.length_nil]
        ring
      | succ k =>
        rw [Nat.mul_add, Nat.mul_one] at hl
        obtain ⟨i1, i2, i3⟩ := loadLoop_spec hB ps 0 (B - 1) k ((d * 256 + p.toNat) :: acc) (by omega)
          (by omega) (Nat.pow_pos (by norm_num)) (by rw [digits_cons]; exact ⟨hd', hacc⟩)
        refine ⟨i1, by rw [i2, List.length_cons]; omega, ?_⟩
        rw [i3]
        simp only [val_cons, beVal, List.length_cons]
        have e : (256 : Nat) ^ ps.length = (256 ^ B) ^ (k + 1) := by
          rw [← pow_mul]; congr 1; rw [hl, Nat.mul_add]; omega
        rw [pow_succ 256 ps.length, e]
        ring
    · next h0 =>
      obtain ⟨i1, i2, i3⟩ := loadLoop_spec hB ps (d * 256 + p.toNat) (m - 1) k acc (by omega)
        (by omega) (by
          have e : 256 ^ (B - 1 - (m - 1)) = 256 ^ (B - 1 - m) * 256 := by
            rw [← pow_succ]; congr 1; omega
          rw [e]
          generalize 256 ^ (B - 1 - m) = t at *
          omega) hacc
      refine ⟨i1, i2, ?_⟩
      rw [i3]
      simp only [beVal, List.length_cons]
      rw [pow_succ 256 ps.length]
      ring

theorem dropWhile_head {bs : List Byte} {p : Byte} {ps : List Byte}
    (h : bs.dropWhile (· == 0#8) = p :: ps) : p ≠ 0#8 := by
  have := List.head?_dropWhile_not (· == 0#8) bs
  rw [h] at this
  simpa using this

/-- Everything about `cry_mpi_load_bin`. -/
theorem loadBin_spec {w : Nat} (hw : DigitWidth w) (old : Bool) (bs : List Byte) :
    Norm (2 ^ w) (loadBin w old bs) ∧ val (2 ^ w) (loadBin w old bs).digs = beVal bs ∧
    (loadBin w old bs).neg = (old && beVal bs != 0) ∧
    ((loadBin w old bs).digs = [] ↔ beVal bs = 0) := by
  obtain ⟨B, hB, rfl⟩ := hw.bytes
  unfold loadBin
  have hv := beVal_dropWhile bs
  have h8 : 8 * B / 8 = B := by omega
  rw [h8]
  split
  · next h =>
    rw [h] at hv
    have : beVal bs = 0 := by rw [← hv]; rfl
    simp [this, norm_zero]
  · next p ps h =>
    have hp := dropWhile_head h
    rw [h] at hv
    rw [two_pow_eight_mul]
    have hdm := Nat.div_add_mod ps.length B
    have hlt := Nat.mod_lt ps.length hB
    obtain ⟨i1, i2, i3⟩ := loadLoop_spec hB (p :: ps) 0 (ps.length % B) (ps.length / B) []
      (by rw [List.length_cons]; omega) hlt (Nat.pow_pos (by norm_num)) (by simp)
    rw [hv] at i3
    simp only [Nat.mul_zero, val_nil, Nat.add_zero] at i3
    have hp' : 0 < p.toNat := by
      rcases Nat.eq_zero_or_pos p.toNat with h0 | h0
      · exact absurd (BitVec.eq_of_toNat_eq (by simpa using h0)) hp
      · exact h0
    have hge : 256 ^ ps.length ≤ beVal bs := by
      rw [← hv]; simp only [beVal]
      exact Nat.le_trans (Nat.le_mul_of_pos_left _ hp') (Nat.le_add_right _ _)
    have hpos : beVal bs ≠ 0 := by
      have := Nat.pow_pos (n := ps.length) (show 0 < 256 by norm_num); omega
    refine ⟨⟨i1, ?_⟩, i3, ?_, ?_⟩
    · refine topNZ_of_val (Nat.pow_pos (by norm_num)) i1 ?_
      intro _
      rw [i3, i2, List.length_nil, ← pow_mul]
      refine Nat.le_trans (Nat.pow_le_pow_right (by norm_num) ?_) hge
      simp only [Nat.zero_add, Nat.add_sub_cancel]
      omega
    · simp [hpos]
    · simp only [hpos, iff_false]
      intro e
      rw [e] at i2
      simp at i2

theorem store_byte {B i : Nat} (hB : 0 < B) {x : Mpi} (hx : Digits (256 ^ B) x.digs) :
    (dig x.digs (i / B) >>> (8 * (i % B))) &&& 0xff = val (256 ^ B) x.digs / 256 ^ i % 256 := by
  rw [dig_eq (Nat.pow_pos (by norm_num)) hx, Nat.shiftRight_eq_div_pow, two_pow_eight_mul]
  have h255 : ∀ t : Nat, t &&& 0xff = t % 256 := fun t => Nat.and_two_pow_sub_one_eq_mod t 8
  rw [h255]
  have hlt := Nat.mod_lt i hB
  generalize val (256 ^ B) x.digs = V
  have e1 : (256 : Nat) ^ B = 256 ^ (i % B) * (256 * 256 ^ (B - 1 - i % B)) := by
    rw [← pow_succ', ← pow_add]; congr 1; omega
  have e2 : (256 ^ B) ^ (i / B) * 256 ^ (i % B) = 256 ^ i := by
    rw [← pow_mul, ← pow_add]; congr 1; exact Nat.div_add_mod i B
  conv_lhs => rw [e1]
  rw [← e1, ← e2, ← Nat.div_div_eq_div_mul]
  generalize V / (256 ^ B) ^ (i / B) = U
  rw [e1, Nat.mod_mul_right_div_self, Nat.mod_mul_right_mod]

theorem storeLoop_spec {B : Nat} (hB : 0 < B) {x : Mpi} (hx : Digits (256 ^ B) x.digs) : ∀ n,
    (storeLoop (8 * B) x n).length = n ∧
    beVal (storeLoop (8 * B) x n) = val (256 ^ B) x.digs % 256 ^ n
  | 0 => by simp [storeLoop, beVal, Nat.mod_one]
  | n + 1 => by
    have ih := storeLoop_spec hB hx n
    have h8 : 8 * B / 8 = B := by omega
    rw [storeLoop, h8, store_byte hB hx]
    refine ⟨by simp [ih.1], ?_⟩
    simp only [beVal, ih.1, ih.2, BitVec.toNat_ofNat]
    generalize val (256 ^ B) x.digs = V
    rw [Nat.mod_mod, show (256 : Nat) ^ (n + 1) = 256 ^ n * 256 from pow_succ _ _,
      Nat.mod_mul (x := V)]
    norm_num
    ring

theorem storeBin_spec {w : Nat} (hw : DigitWidth w) {x : Mpi} (hx : Norm (2 ^ w) x) (n : Nat)
    (pad : Bool) (h : val (2 ^ w) x.digs < 256 ^ n) :
    ∃ bs, storeBin w x n pad = some bs ∧ bs.length = (if pad then n else countBytes w x) ∧
      beVal bs = val (2 ^ w) x.digs := by
  have hcb := countBits_spec hw hx
  obtain ⟨B, hB, rfl⟩ := hw.bytes
  rw [two_pow_eight_mul] at hx h hcb ⊢
  have hle : ∀ k, countBytes (8 * B) x ≤ k ↔ val (256 ^ B) x.digs < 256 ^ k := by
    intro k
    unfold countBytes
    rw [hcb, ← two_pow_eight_mul k, ← Nat.size_le]
    omega
  have hi : countBytes (8 * B) x ≤ n := (hle n).2 h
  have hv : val (256 ^ B) x.digs < 256 ^ countBytes (8 * B) x := (hle _).1 (Nat.le_refl _)
  unfold storeBin
  dsimp only
  rw [if_neg (by omega)]
  obtain ⟨s1, s2⟩ := storeLoop_spec hB hx.digits (countBytes (8 * B) x)
  refine ⟨_, rfl, ?_, ?_⟩
  · rw [List.length_append, s1, List.length_replicate]
    cases pad <;> simp <;> omega
  · rw [beVal_append, beVal_replicate_zero, s2, Nat.mod_eq_of_lt hv]
    simp

theorem storeBin_none {w : Nat} (hw : DigitWidth w) {x : Mpi} (hx : Norm (2 ^ w) x) (n : Nat)
    (pad : Bool) (h : 256 ^ n ≤ val (2 ^ w) x.digs) : storeBin w x n pad = none := by
  have hcb := countBits_spec hw hx
  unfold storeBin
  dsimp only
  rw [if_pos]
  unfold countBytes
  rw [hcb]
  by_contra hc
  have : Nat.size (val (2 ^ w) x.digs) ≤ 8 * n := by omega
  rw [Nat.size_le, two_pow_eight_mul] at this
  omega

end Verif.Mpi
