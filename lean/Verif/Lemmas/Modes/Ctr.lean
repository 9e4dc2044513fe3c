import Verif.Lemmas.Modes.Cfb
import Verif.Model.Modes.Ctr
import Mathlib.Data.List.Induction
/-! Big-endian counters and the loops of CTR. -/
namespace Verif.Modes

theorem beVal_append_one (l : List Byte) (x : Byte) : beVal (l ++ [x]) = 256 * beVal l + x.toNat := by
  simp [beVal]

theorem encodeBE_length : ∀ c n, (encodeBE c n).length = c
  | 0, _ => rfl
  | c + 1, n => by rw [encodeBE, List.length_append, encodeBE_length]; rfl

theorem encodeBE_beVal (v : List Byte) : encodeBE v.length (beVal v) = v := by
  induction v using List.reverseRecOn with
  | nil => rfl
  | append_singleton l x ih =>
    rw [List.length_append, List.length_singleton, encodeBE, beVal_append_one]
    have h1 : (256 * beVal l + x.toNat) / 256 = beVal l := by have := x.isLt; omega
    have h2 : BitVec.ofNat 8 (256 * beVal l + x.toNat) = x := by
      apply BitVec.eq_of_toNat_eq
      rw [BitVec.toNat_ofNat]
      have := x.isLt
      omega
    rw [h1, h2, ih]

theorem beVal_encodeBE : ∀ c n, beVal (encodeBE c n) = n % 256 ^ c
  | 0, n => by simp [encodeBE, beVal, Nat.mod_one]
  | c + 1, n => by
    rw [encodeBE, beVal_append_one, beVal_encodeBE c, BitVec.toNat_ofNat,
      show 256 ^ (c + 1) = 256 * 256 ^ c from Nat.pow_succ', Nat.mod_mul]
    omega

theorem beVal_lt (v : List Byte) : beVal v < 256 ^ v.length := by
  conv_lhs => rw [← encodeBE_beVal v]
  rw [beVal_encodeBE]
  exact Nat.mod_lt _ (Nat.pow_pos (by omega))

theorem encodeBE_mod : ∀ c n, encodeBE c (n % 256 ^ c) = encodeBE c n := by
  intro c n
  have h := encodeBE_beVal (encodeBE c n)
  rwa [encodeBE_length, beVal_encodeBE] at h

/-- The last byte increment. -/
theorem encodeBE_succ (i n : Nat) :
    encodeBE (i + 1) (n + 1) = if BitVec.ofNat 8 n + 1 = 0#8 then encodeBE i (n / 256 + 1) ++ [0#8]
      else encodeBE i (n / 256) ++ [BitVec.ofNat 8 n + 1] := by
  have hiff : BitVec.ofNat 8 n + 1 = 0#8 ↔ n % 256 = 255 := by
    rw [← BitVec.toNat_inj]
    simp
    omega
  have hb : BitVec.ofNat 8 (n + 1) = BitVec.ofNat 8 n + 1 := by
    apply BitVec.eq_of_toNat_eq; simp
  rw [encodeBE, hb]
  split_ifs with h
  · rw [h, show (n + 1) / 256 = n / 256 + 1 by have := hiff.1 h; omega]
  · rw [show (n + 1) / 256 = n / 256 by have := mt hiff.2 h; omega]

theorem modify_last {u : List Byte} {x : Byte} {r : List Byte} {i : Nat} (h : u.length = i) :
    (u ++ x :: r).modify i (· + 1) = u ++ (x + 1) :: r := by
  subst h
  induction u with
  | nil => rfl
  | cons a u ih => simp only [List.cons_append, List.length_cons, List.modify_succ_cons, ih]

theorem incCarry_spec : ∀ (i : Nat) (n : Nat) (r : List Byte), 0 < i →
    incCarry i (encodeBE i n ++ r) = some (encodeBE i (n + 1) ++ r)
  | 0, _, _, h => absurd h (by omega)
  | i + 1, n, r, _ => by
    rw [incCarry, encodeBE, List.append_assoc, List.singleton_append,
      modify_last (encodeBE_length i _), encodeBE_succ]
    have hget : (encodeBE i (n / 256) ++ (BitVec.ofNat 8 n + 1) :: r)[i]? = some (BitVec.ofNat 8 n + 1) := by
      rw [List.getElem?_append_right (by rw [encodeBE_length]), encodeBE_length]; simp
    rw [hget]
    by_cases h0 : BitVec.ofNat 8 n + 1 = 0#8
    · rw [if_pos h0, h0]
      by_cases hi : 0 < i
      · rw [if_pos ⟨rfl, hi⟩, incCarry_spec i _ _ hi, List.append_assoc]; rfl
      · rw [if_neg (by tauto)]
        have : i = 0 := by omega
        subst this
        simp [encodeBE]
    · rw [if_neg h0, if_neg (by simp only [Option.some.injEq]; tauto), List.append_assoc]; rfl

theorem incBE_spec {c : Nat} (hc : 2 ≤ c) (n : Nat) :
    incBE (encodeBE c n) c = some (encodeBE c (n + 1)) := by
  obtain ⟨i, rfl⟩ : ∃ i, c = i + 1 := ⟨c - 1, by omega⟩
  unfold incBE
  rw [encodeBE]
  dsimp only
  rw [modify_last (encodeBE_length i _), encodeBE_succ]
  have hget : (encodeBE i (n / 256) ++ [BitVec.ofNat 8 n + 1])[i]? = some (BitVec.ofNat 8 n + 1) := by
    rw [List.getElem?_append_right (by rw [encodeBE_length]), encodeBE_length]; simp
  rw [hget]
  by_cases h0 : BitVec.ofNat 8 n + 1 = 0#8
  · rw [if_pos h0, h0, if_pos (by rfl), incCarry_spec i _ _ (by omega)]
  · rw [if_neg h0, if_neg (by simpa using h0)]

/-- The counters `n, …, n+k-1`. -/
def ctrBlocks (c n k : Nat) : List (List Byte) := (List.range' n k).map (encodeBE c)

theorem ctrBlocks_blocks (c n k : Nat) : Blocks c (ctrBlocks c n k) := by
  intro b hb
  obtain ⟨a, -, rfl⟩ := List.mem_map.1 hb
  exact encodeBE_length c a

theorem ctrBlocks_length (c n k : Nat) : (ctrBlocks c n k).length = k := by
  simp [ctrBlocks]

theorem ctrBlocks_succ (c n k : Nat) : ctrBlocks c n (k + 1) = encodeBE c n :: ctrBlocks c (n + 1) k := by
  simp [ctrBlocks, List.range'_succ]

theorem ctrBlocks_flatten_length (c n k : Nat) : (ctrBlocks c n k).flatten.length = k * c := by
  rw [Blocks.length (ctrBlocks_blocks c n k), ctrBlocks_length]

theorem ctrStream_eq {E : List Byte → List Byte} (c : Nat) : ∀ k n,
    ctrStream E c n k = ((ctrBlocks c n k).map E).flatten
  | 0, n => rfl
  | k + 1, n => by rw [ctrStream, ctrStream_eq c k, ctrBlocks_succ]; rfl

theorem ctrStream_add {E : List Byte → List Byte} (c : Nat) : ∀ j n k,
    ctrStream E c n (j + k) = ctrStream E c n j ++ ctrStream E c (n + j) k
  | 0, n, k => by simp [ctrStream]
  | j + 1, n, k => by
    rw [show j + 1 + k = (j + k) + 1 by omega, ctrStream, ctrStream, ctrStream_add c j, List.append_assoc,
      show n + 1 + j = n + (j + 1) by omega]

theorem ctrStream_length {E : List Byte → List Byte} {c : Nat}
    (hE : ∀ b, b.length = c → (E b).length = c) (n k : Nat) : (ctrStream E c n k).length = k * c := by
  rw [ctrStream_eq, ((ctrBlocks_blocks c n k).map hE).length, List.length_map, ctrBlocks_length]

theorem ctrStream_mod {E : List Byte → List Byte} {c : Nat} : ∀ k n m, n % 256 ^ c = m % 256 ^ c →
    ctrStream E c n k = ctrStream E c m k
  | 0, _, _, _ => rfl
  | k + 1, n, m, h => by
    rw [ctrStream, ctrStream, ← encodeBE_mod c n, ← encodeBE_mod c m, h,
      ctrStream_mod k (n + 1) (m + 1) (by rw [Nat.add_mod, h, ← Nat.add_mod])]

theorem ecb_ctr {E : List Byte → List Byte} {c : Nat} (hc : 0 < c) (n k : Nat) :
    ecb E c (ctrBlocks c n k).flatten = ctrStream E c n k := by
  rw [ecb_flatten hc (ctrBlocks_blocks c n k), ctrStream_eq]

theorem ctrFillDown_spec {c : Nat} (hc : 2 ≤ c) : ∀ (k m n : Nat), m / c ≤ k →
    ctrFillDown c k m (encodeBE c n) =
      some ((ctrBlocks c n (m / c)).flatten, encodeBE c (n + m / c), m % c) := by
  intro k
  induction k with
  | zero =>
    intro m n h
    have hlt : m < c := by
      by_contra h'
      have := Nat.div_pos (by omega : c ≤ m) (by omega)
      omega
    rw [ctrFillDown.eq_def]
    dsimp only
    rw [if_neg (by omega), Nat.div_eq_of_lt hlt, Nat.mod_eq_of_lt hlt]
    rfl
  | succ k ih =>
    intro m n h
    rw [ctrFillDown.eq_def]
    dsimp only
    by_cases hm : c ≤ m
    · have hd : m / c = (m - c) / c + 1 := by
        rw [← Nat.add_div_right _ (by omega), Nat.sub_add_cancel hm]
      rw [if_pos hm, incBE_spec hc]
      dsimp only
      rw [ih (m - c) (n + 1) (by omega)]
      dsimp only
      rw [hd, ctrBlocks_succ, List.flatten_cons, List.take_of_length_le (by rw [encodeBE_length]),
        show n + 1 + (m - c) / c = n + ((m - c) / c + 1) by omega, ← Nat.mod_eq_sub_mod hm]
    · have hlt : m < c := by omega
      rw [if_neg hm, Nat.div_eq_of_lt hlt, Nat.mod_eq_of_lt hlt]
      rfl

theorem ctrFill_spec {c : Nat} (hc : 2 ≤ c) : ∀ (k n : Nat),
    ctrFill c k (encodeBE c n) = some ((ctrBlocks c n k).flatten, encodeBE c (n + k))
  | 0, n => rfl
  | k + 1, n => by
    rw [ctrFill, incBE_spec hc]
    dsimp only
    rw [ctrFill_spec hc k]
    dsimp only
    rw [ctrBlocks_succ, List.flatten_cons, List.take_of_length_le (by rw [encodeBE_length]),
      show n + 1 + k = n + (k + 1) by omega]

theorem ctrFillUp_spec {c len : Nat} (hc : 2 ≤ c) : ∀ (k j m n : Nat), len ≤ m + j * c → j ≤ k →
    (∀ i < j, m + i * c < len) →
    ctrFillUp c len k m (encodeBE c n) =
      some ((ctrBlocks c n j).flatten, encodeBE c (n + j), m + j * c) := by
  intro k
  induction k with
  | zero =>
    intro j m n h1 h2 h3
    have : j = 0 := by omega
    subst this
    rw [ctrFillUp.eq_def]
    dsimp only
    rw [if_neg (by omega), Nat.zero_mul]
    rfl
  | succ k ih =>
    intro j m n h1 h2 h3
    rw [ctrFillUp.eq_def]
    dsimp only
    cases j with
    | zero => rw [if_neg (by omega), Nat.zero_mul]; rfl
    | succ j =>
      have h4 := h3 0 (by omega)
      rw [if_pos (by omega), incBE_spec hc]
      dsimp only
      rw [Nat.succ_mul] at h1
      rw [ih j (m + c) (n + 1) (by omega) (by omega) (by
        intro i hi
        have := h3 (i + 1) (by omega)
        rw [Nat.succ_mul] at this
        omega)]
      dsimp only
      rw [ctrBlocks_succ, List.flatten_cons, List.take_of_length_le (by rw [encodeBE_length]),
        show n + 1 + j = n + (j + 1) by omega, Nat.succ_mul, show m + c + j * c = m + (j * c + c) by omega]

/-- The number of counter blocks a message of `len` bytes uses. -/
theorem ceil_eq {c : Nat} (hc : 0 < c) (len : Nat) :
    (len + c - 1) / c = len / c + if len % c = 0 then 0 else 1 := by
  have h := Nat.div_add_mod len c
  have hl := Nat.mod_lt len hc
  generalize len / c = q at *
  generalize len % c = r at *
  subst h
  split_ifs with h0
  · subst h0
    rw [show c * q + 0 + c - 1 = (c - 1) + c * q by omega, Nat.add_mul_div_left _ _ hc,
      Nat.div_eq_of_lt (by omega)]
    omega
  · rw [show c * q + r + c - 1 = (r - 1) + c * (q + 1) by rw [Nat.mul_succ]; omega,
      Nat.add_mul_div_left _ _ hc, Nat.div_eq_of_lt (by omega)]
    omega

theorem ctrOut_spec {E : List Byte → List Byte} {c : Nat} (hc : 2 ≤ c)
    (hE : ∀ b, b.length = c → (E b).length = c) (n : Nat) (src : List Byte) :
    ctrOut E c (encodeBE c n) src =
      some (xorB src (ctrStream E c n ((src.length + c - 1) / c)),
        encodeBE c (n + (src.length + c - 1) / c)) := by
  unfold ctrOut
  rw [ctrFillDown_spec hc _ _ _ (Nat.div_le_self _ _)]
  dsimp only
  rw [ecb_ctr (by omega), ceil_eq (by omega)]
  have hdm := Nat.div_add_mod src.length c
  have hsub : src.length - src.length % c = src.length / c * c := by rw [Nat.mul_comm]; omega
  have hle : src.length / c * c ≤ src.length := Nat.div_mul_le_self _ _
  rw [hsub]
  by_cases h0 : src.length % c = 0
  · rw [if_neg (by omega), if_pos h0, Nat.add_zero, List.take_of_length_le (by omega), mxor_eq, xorB_comm]
  · rw [if_pos (by omega), if_neg h0, incBE_spec hc]
    dsimp only
    have hbuf : ecb E c ((encodeBE c (n + src.length / c)).take c) = ctrStream E c (n + src.length / c) 1 := by
      rw [List.take_of_length_le (by rw [encodeBE_length]), ← ecb_ctr (by omega)]
      simp [ctrBlocks]
    rw [hbuf, mxor_eq, mxor_eq, ctrStream_add, xorB_comm (ctrStream E c n _)]
    conv_rhs => rw [← List.take_append_drop (src.length / c * c) src]
    rw [xorB_append _ _ (by rw [ctrStream_length hE, List.length_take]; simp; omega)]
    simp only [List.length_append, List.length_take, List.length_drop, Nat.min_eq_left hle,
      Nat.add_sub_cancel' hle]
    rfl

theorem wr_zero {buf p : List Byte} : wr buf 0 p = p ++ buf.drop p.length := by
  simp [wr]

/-- The part after the 64-byte chunks. -/
theorem ctrIn_final {E : List Byte → List Byte} {c : Nat} (hc : 2 ≤ c) (n k : Nat) (buf src : List Byte)
    (hlt : src.length < 64) (hfit : (src.length + c - 1) / c * c ≤ 64) :
    ctrInLoop E c k buf (encodeBE c n) src =
      some (xorB src (ctrStream E c n ((src.length + c - 1) / c)),
        encodeBE c (n + (src.length + c - 1) / c)) := by
  rw [ctrInLoop.eq_def]
  dsimp only
  rw [if_neg (by omega)]
  by_cases h0 : src.length = 0
  · have : src = [] := List.length_eq_zero_iff.1 h0
    subst this
    rw [if_neg (by simp)]
    rw [show (([] : List Byte).length + c - 1) / c = 0 from Nat.div_eq_of_lt (by simp; omega)]
    simp [xorB]
  · rw [if_pos h0]
    have hup := ctrFillUp_spec (c := c) (len := src.length) hc src.length ((src.length + c - 1) / c) 0 n
      (by
        have := Nat.div_add_mod (src.length + c - 1) c
        have h2 := Nat.mod_lt (src.length + c - 1) (by omega : 0 < c)
        rw [Nat.mul_comm] at this; omega)
      (by
        apply Nat.div_le_of_le_mul
        have : 2 * src.length ≤ c * src.length := Nat.mul_le_mul_right _ hc
        have h3 : c * 1 ≤ c * src.length := Nat.mul_le_mul_left _ (by omega)
        obtain ⟨a, ha⟩ : ∃ a, src.length = a + 1 := ⟨src.length - 1, by omega⟩
        rw [ha, Nat.mul_succ]
        have : a ≤ c * a := Nat.le_mul_of_pos_left _ (by omega)
        omega)
      (by
        intro i hi
        have h3 : (i + 1) * c ≤ (src.length + c - 1) / c * c := Nat.mul_le_mul_right _ hi
        have h4 := Nat.div_mul_le_self (src.length + c - 1) c
        rw [Nat.succ_mul] at h3
        omega)
    rw [hup]
    dsimp only
    have hl : (ctrBlocks c n ((src.length + c - 1) / c)).flatten.length = (src.length + c - 1) / c * c :=
      ctrBlocks_flatten_length _ _ _
    rw [if_neg (by rw [hl]; omega), Nat.zero_add, wr_zero, List.take_left' hl, ecb_ctr (by omega), mxor_eq]

/-- In-place runs with a 16-byte counter. -/
theorem ctrInLoop_spec {E : List Byte → List Byte}
    (hE : ∀ b, b.length = 16 → (E b).length = 16) : ∀ (k n : Nat) (buf src : List Byte),
    buf.length = 64 → src.length / 64 ≤ k →
    ctrInLoop E 16 k buf (encodeBE 16 n) src =
      some (xorB src (ctrStream E 16 n ((src.length + 15) / 16)),
        encodeBE 16 (n + (src.length + 15) / 16)) := by
  intro k
  induction k with
  | zero =>
    intro n buf src hb hk
    exact ctrIn_final (by omega) n 0 buf src (by omega) (by omega)
  | succ k ih =>
    intro n buf src hb hk
    by_cases hlt : src.length < 64
    · exact ctrIn_final (by omega) n (k + 1) buf src hlt (by omega)
    · rw [ctrInLoop.eq_def]
      dsimp only
      rw [if_pos (by omega), ctrFill_spec (by omega)]
      dsimp only
      have hl : (ctrBlocks 16 n 4).flatten.length = 64 := ctrBlocks_flatten_length _ _ _
      rw [if_neg (by rw [hl]; decide), wr_zero, hl, List.drop_of_length_le (by omega), List.append_nil,
        ecb_ctr (by omega)]
      have hs := ctrStream_length hE n 4
      rw [ih (n + 4) _ (src.drop 64) (by rw [hs]) (by rw [List.length_drop]; omega)]
      dsimp only
      rw [mxor_eq, List.length_drop, show (src.length - 64 + 15) / 16 = (src.length + 15) / 16 - 4 by omega]
      obtain ⟨j, hj⟩ : ∃ j, (src.length + 15) / 16 = 4 + j := ⟨(src.length + 15) / 16 - 4, by omega⟩
      rw [hj, ctrStream_add, show 4 + j - 4 = j by omega, ← Nat.add_assoc]
      conv_rhs => rw [← List.take_append_drop 64 src]
      rw [xorB_append _ _ (by rw [hs, List.length_take]; omega)]

end Verif.Modes
