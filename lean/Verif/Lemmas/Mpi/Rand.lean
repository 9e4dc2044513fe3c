import Verif.Lemmas.Mpi.Bin
/-! Lemmas about native integers and random numbers. -/
namespace Verif.Mpi

theorem setIntLoop_spec {w : Nat} (hw : 0 < w) : ∀ (n u : Nat), u < 2 ^ (w * n) →
    (w = 64 → n ≤ 1) →
    Digits (2 ^ w) (setIntLoop w n u) ∧ TopNZ (setIntLoop w n u) ∧
    val (2 ^ w) (setIntLoop w n u) = u
  | 0, u, h, _ => by
    have : u = 0 := by simpa using h
    simp [setIntLoop, this, TopNZ]
  | n + 1, u, h, h64 => by
    rw [setIntLoop]
    split
    · next h0 => simp [h0, TopNZ]
    · next h0 =>
      have hlt := Nat.mod_lt u (Nat.two_pow_pos w)
      by_cases hc : w = 64
      · have : n = 0 := by have := h64 hc; omega
        subst this
        rw [Nat.zero_add, Nat.mul_one] at h
        rw [setIntLoop, Nat.mod_eq_of_lt h]
        simp [TopNZ, h, h0]
      · rw [if_neg hc, Nat.shiftRight_eq_div_pow]
        have hu : u / 2 ^ w < 2 ^ (w * n) := by
          rw [Nat.div_lt_iff_lt_mul (Nat.two_pow_pos w), ← pow_add]
          rwa [Nat.mul_add, Nat.mul_one] at h
        obtain ⟨i1, i2, i3⟩ := setIntLoop_spec hw n (u / 2 ^ w) hu (fun e => absurd e hc)
        have hv : val (2 ^ w) ((u % 2 ^ w) :: setIntLoop w n (u / 2 ^ w)) = u := by
          rw [val_cons, i3, Nat.mod_add_div]
        have hdd : Digits (2 ^ w) ((u % 2 ^ w) :: setIntLoop w n (u / 2 ^ w)) := by
          rw [digits_cons]; exact ⟨hlt, i1⟩
        refine ⟨hdd, ?_, hv⟩
        by_cases he : setIntLoop w n (u / 2 ^ w) = []
        · rw [he] at i3 ⊢
          rw [val_nil] at i3
          have := Nat.mod_add_div u (2 ^ w)
          rw [← i3] at this
          simp only [Nat.mul_zero, Nat.add_zero] at this
          simp [TopNZ, this, h0]
        · exact TopNZ.append (xs := [u % 2 ^ w]) i2 he

theorem DigitWidth.mul_div {w : Nat} (h : DigitWidth w) : w * (64 / w) = 64 ∧ (w = 64 → 64 / w ≤ 1) := by
  rcases h with h | h | h | h <;> subst h <;> decide

theorem one_digit {x : Mpi} (hx : Norm (2 ^ 64) x) (h : val (2 ^ 64) x.digs < 2 ^ 64) :
    x.digs.foldr (fun d r => r ||| d) 0 = val (2 ^ 64) x.digs := by
  have hl := length_le_of_lt (k := 1) (by norm_num) hx (by rw [pow_one]; exact h)
  match hd : x.digs, hl with
  | [], _ => rfl
  | [d], _ => simp

theorem getInt_eq {x : Mpi} (hx : Norm (2 ^ 64) x) {V : Nat} (hV : val (2 ^ 64) x.digs = V) :
    getInt x = if x.neg then
        (if 2 ^ 64 ≤ V then .err else if V < 2 ^ 63 then .ok (-(V : Int))
          else if V = 2 ^ 63 then .ub else .ok (2 ^ 64 - (V : Int)))
      else (if 2 ^ 63 ≤ V then .err else .ok V) := by
  have hcb := countBits_spec (w := 64) (by unfold DigitWidth; omega) hx
  have h63 := Nat.size_le (m := V) (n := 63)
  have h64 := Nat.size_le (m := V) (n := 64)
  have h1 := one_digit hx
  unfold getInt
  rw [hcb]
  rw [hV] at h1 ⊢
  generalize Nat.size V = s at *
  dsimp only
  cases hn : x.neg with
  | false =>
    by_cases hc : V < 2 ^ 63
    · rw [if_neg (by rw [if_neg (by simp)]; omega), h1 (by omega), if_pos hc, if_neg (by simp),
        if_neg (by simp), if_neg (by omega)]
    · rw [if_pos (by rw [if_neg (by simp)]; omega), if_neg (by simp), if_pos (by omega)]
  | true =>
    by_cases hc : V < 2 ^ 64
    · rw [if_neg (by rw [if_pos rfl]; omega), h1 hc, if_pos rfl, if_pos rfl]
      split_ifs <;> first | rfl | (exfalso; omega) | (congr 1; omega)
    · rw [if_pos (by rw [if_pos rfl]; omega), if_pos rfl, if_pos (by omega)]

/-- The random number before the sign is considered. -/
theorem rand_spec {w : Nat} (hw : DigitWidth w) (old : Bool) {alloc bits : Nat} (hb : 0 < bits)
    {bs : List Byte} (hl : bs.length = (bits + 7) / 8)
    (hV : (2 ^ w) ^ ((bits - 1) / w) ≤ beVal bs) :
    ∃ x, rand w old alloc bits bs = .ok x ∧ Norm (2 ^ w) x ∧ x.neg = old ∧
      val (2 ^ w) x.digs = beVal bs % 2 ^ (bits - 1) + 2 ^ (bits - 1) := by
  obtain ⟨l1, l2, l3, l4⟩ := loadBin_spec hw old bs
  have hw8 := hw.pos
  have hw0 : 0 < w := by omega
  have hVlt := beVal_lt bs
  have hdm := Nat.div_add_mod (bits - 1) w
  have hmlt := Nat.mod_lt (bits - 1) hw0
  have hV0 : beVal bs ≠ 0 := by
    have := Nat.pow_pos (n := (bits - 1) / w) (Nat.two_pow_pos w); omega
  generalize hq : (bits - 1) / w = q at *
  generalize hrr : (bits - 1) % w = r at *
  have hub : beVal bs < (2 ^ w) ^ (q + 1) := by
    refine Nat.lt_of_lt_of_le hVlt ?_
    rw [← two_pow_eight_mul, ← pow_mul, hl]
    refine Nat.pow_le_pow_right (by norm_num) ?_
    obtain ⟨B, hB, rfl⟩ := hw.bytes
    rw [Nat.mul_add, Nat.mul_assoc]
    rw [Nat.mul_assoc] at hdm
    generalize B * q = t at *
    omega
  have hlen : (loadBin w old bs).digs.length = q + 1 := by
    have h1 := length_le_of_lt (one_lt_two_pow hw0) l1 (by rw [l2]; exact hub)
    have h2 := val_lt l1.digits
    rw [l2] at h2
    have h3 : (2 ^ w) ^ q < (2 ^ w) ^ (loadBin w old bs).digs.length := Nat.lt_of_le_of_lt hV h2
    have := (Nat.pow_lt_pow_iff_right (one_lt_two_pow hw0)).1 h3
    omega
  have hsz : w * (q + 1 - 1) = w * q := by simp
  have hmsb : bits - w * (q + 1 - 1) = r + 1 := by rw [hsz]; omega
  unfold rand
  rw [if_neg (by omega)]
  dsimp only
  rw [hlen, hq, hmsb, if_neg (by unfold grow; split <;> omega), if_neg (by omega)]
  generalize loadBin w old bs = x at *
  have hD : dig x.digs q = beVal bs / (2 ^ w) ^ q := by
    rw [dig_eq (Nat.two_pow_pos w) l1.digits, l2]
    refine Nat.mod_eq_of_lt ?_
    rw [Nat.div_lt_iff_lt_mul (Nat.pow_pos (Nat.two_pow_pos w)), ← pow_succ']
    exact hub
  have hDlt : dig x.digs q < 2 ^ w := by
    rw [dig_eq (Nat.two_pow_pos w) l1.digits]; exact Nat.mod_lt _ (Nat.two_pow_pos w)
  have hmask : (if r + 1 < w then dig x.digs q &&& (1 <<< (r + 1) - 1) else dig x.digs q) =
      dig x.digs q % 2 ^ (r + 1) := by
    split
    · rw [Nat.one_shiftLeft, Nat.and_two_pow_sub_one_eq_mod]
    · have : r + 1 = w := by omega
      rw [this, Nat.mod_eq_of_lt hDlt]
  have hor : (dig x.digs q % 2 ^ (r + 1)) ||| 2 ^ r = dig x.digs q % 2 ^ r + 2 ^ r := by
    generalize dig x.digs q = D
    have e : D % 2 ^ (r + 1) = (D / 2 ^ r % 2) * 2 ^ r + D % 2 ^ r := by
      rw [pow_succ, Nat.mod_mul]; ring
    have hlt := Nat.mod_lt D (Nat.two_pow_pos r)
    rw [e, ← or_eq_add_mul hlt]
    conv_lhs => rw [Nat.or_assoc, Nat.or_comm (D % 2 ^ r), ← Nat.or_assoc]
    have e3 : (D / 2 ^ r % 2) * 2 ^ r ||| 2 ^ r = 2 ^ r := by
      rcases Nat.mod_two_eq_zero_or_one (D / 2 ^ r) with h | h <;> rw [h] <;> simp
    rw [e3]
    have e4 := or_eq_add_mul (q := 1) hlt
    rw [Nat.one_mul] at e4
    rw [e4, Nat.add_comm]
  have hq1 : q + 1 - 1 = q := by omega
  have hr1 : r + 1 - 1 = r := by omega
  rw [hq1, hr1, hmask, Nat.one_shiftLeft, hor]
  have hlow := Nat.mod_lt (dig x.digs q) (Nat.two_pow_pos r)
  have hr2 : 2 ^ r * 2 ≤ 2 ^ w := by
    rw [← pow_succ]; exact Nat.pow_le_pow_right (by norm_num) (by omega)
  have hdd : Digits (2 ^ w) (x.digs.set q (dig x.digs q % 2 ^ r + 2 ^ r)) :=
    digits_set l1.digits (by omega)
  have hval : val (2 ^ w) (x.digs.set q (dig x.digs q % 2 ^ r + 2 ^ r)) =
      beVal bs % 2 ^ (bits - 1) + 2 ^ (bits - 1) := by
    have h1 := val_set (2 ^ w) x.digs q (dig x.digs q % 2 ^ r + 2 ^ r) (by omega)
    rw [l2, hD] at h1
    have e : 2 ^ (bits - 1) = (2 ^ w) ^ q * 2 ^ r := by
      rw [← pow_mul, ← pow_add]; congr 1; omega
    rw [e, Nat.mod_mul, hD]
    have h2 := Nat.mod_add_div (beVal bs) ((2 ^ w) ^ q)
    generalize (2 ^ w) ^ q = T at *
    generalize beVal bs / T = Q at *
    rw [Nat.add_mul, Nat.mul_comm Q T] at h1
    rw [Nat.mul_comm T (Q % 2 ^ r), Nat.mul_comm T (2 ^ r)]
    omega
  refine ⟨_, rfl, ⟨hdd, ?_⟩, ?_, hval⟩
  · refine topNZ_of_val (Nat.two_pow_pos w) hdd ?_
    intro _
    rw [hval, List.length_set, hlen, hq1, ← pow_mul]
    refine Nat.le_trans (Nat.pow_le_pow_right (by norm_num) ?_) (Nat.le_add_left _ _)
    omega
  · dsimp only
    rw [l3]; simp [hV0]

/-- When the leading random bytes are zero the top bit is not set. -/
theorem rand_small {w : Nat} (hw : DigitWidth w) (old : Bool) {alloc bits : Nat} (hb : 0 < bits)
    {bs : List Byte} (hV : beVal bs < (2 ^ w) ^ ((bits - 1) / w)) :
    rand w old alloc bits bs =
      (if grow alloc (loadBin w old bs).digs.length < (bits - 1) / w + 1 then .ub
       else .ok (loadBin w old bs)) := by
  obtain ⟨l1, l2, l3, l4⟩ := loadBin_spec hw old bs
  have hw8 := hw.pos
  have hlen := length_le_of_lt (one_lt_two_pow (by omega)) l1 (by rw [l2]; exact hV)
  unfold rand
  rw [if_neg (by omega)]
  dsimp only
  split
  · rfl
  · rw [if_pos (by omega)]

end Verif.Mpi
