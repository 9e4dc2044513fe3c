import Verif.Lemmas.Modes.Blocks
import Verif.Model.Modes.Cfb
/-! CFB and CFB8. -/
namespace Verif.Modes

variable {vlen : Nat} {E : List Byte → List Byte}

/-- Textbook CFB on whole blocks followed by a possibly empty rest. -/
def cfbMsg (bs : List (List Byte)) (r : List Byte) : List (List Byte) := if r = [] then bs else bs ++ [r]

theorem cfbMsg_cons (b : List Byte) (bs : List (List Byte)) (r : List Byte) :
    cfbMsg (b :: bs) r = b :: cfbMsg bs r := by
  unfold cfbMsg; split <;> rfl

theorem cfbMsg_flatten (bs : List (List Byte)) (r : List Byte) :
    (cfbMsg bs r).flatten = bs.flatten ++ r := by
  unfold cfbMsg
  split
  · next h => simp [h]
  · simp

theorem cfbLoop_spec (hv : 0 < vlen) (hE : ∀ b, b.length = vlen → (E b).length = vlen) (tail : List Byte) :
    ∀ (bs : List (List Byte)) (k : Nat) (v r : List Byte), v.length = vlen → Blocks vlen bs →
    r.length < vlen → bs.length < k →
    cfbLoop E vlen tail k v (bs.flatten ++ r) =
      (if r = [] then some ((cfbEnc E v bs).flatten, (cfbEnc E v bs).getLastD v)
       else if r.length + tail.length < vlen then none
       else some ((cfbEnc E v (cfbMsg bs r)).flatten,
        (((cfbEnc E v (cfbMsg bs r)).getLastD v) ++ tail).take vlen))
  | [], 0, v, r, _, _, _, h => by simp at h
  | b :: bs, 0, v, r, _, _, _, h => by simp at h
  | [], k + 1, v, r, hvl, _, hr, _ => by
    rw [cfbLoop, List.flatten_nil, List.nil_append, if_neg (by omega)]
    by_cases h : r = []
    · subst h; simp [cfbEnc]
    · have h0 : r.length ≠ 0 := fun e => h (List.length_eq_zero_iff.1 e)
      have hl : (mxor r (E v)).length = r.length := by rw [mxor_eq, xorB_length, hE v hvl]; omega
      rw [if_pos h0, if_neg h]
      dsimp only
      rw [List.length_append, hl]
      split
      · rfl
      · simp [cfbMsg, h, cfbEnc, mxor_eq]
  | b :: bs, k + 1, v, r, hvl, hb, hr, hk => by
    obtain ⟨h1, h2⟩ := hb.cons
    have hy : (xorB b (E v)).length = vlen := by rw [xorB_length, hE v hvl]; omega
    have ih := cfbLoop_spec hv hE tail bs k _ r hy h2 hr (by simpa using hk)
    rw [cfbLoop, List.flatten_cons, List.append_assoc, if_pos (by rw [List.length_append]; omega)]
    rw [← h1, List.take_left, List.drop_left, h1]
    dsimp only
    rw [mxor_eq, ih, cfbMsg_cons]
    split_ifs
    · simp only [cfbEnc, List.flatten_cons, List.getLastD_cons]
    · rfl
    · simp only [cfbEnc, List.flatten_cons, List.getLastD_cons]

theorem cfbLoop_zero (tail : List Byte) : ∀ (k : Nat) (v src : List Byte), cfbLoop E 0 tail k v src = none
  | 0, _, _ => rfl
  | k + 1, v, src => by
    rw [cfbLoop, if_pos (by omega)]
    dsimp only
    rw [cfbLoop_zero tail k]

theorem exists_blocks_rest {c : Nat} (hc : 0 < c) (l : List Byte) :
    ∃ bs r, Blocks c bs ∧ r.length = l.length % c ∧ bs.length = l.length / c ∧ bs.flatten ++ r = l := by
  have hdm := Nat.div_add_mod l.length c
  rw [Nat.mul_comm] at hdm
  obtain ⟨h1, h2, h3⟩ := pieces_blocks (c := c) (l.length / c) l (by omega)
  exact ⟨_, l.drop (l.length / c * c), h1, by rw [List.length_drop]; omega, h3,
    by rw [h2, List.take_append_drop]⟩

/-! ### local buffers -/

theorem rd_mid {A B C : List Byte} {i n : Nat} (h1 : A.length = i) (h2 : B.length = n) :
    rd (A ++ B ++ C) i n = B := by
  subst h1; subst h2
  unfold rd
  rw [List.append_assoc, List.drop_left, List.take_left]

theorem wr_mid {A B B' C : List Byte} {i : Nat} (h1 : A.length = i) (h2 : B.length = B'.length) :
    wr (A ++ B ++ C) i B' = A ++ B' ++ C := by
  subst h1
  unfold wr
  rw [List.append_assoc A B C, List.take_left, ← h2, List.drop_length_add_append, List.drop_left]

theorem wr_length {b x : List Byte} {i : Nat} (h : i + x.length ≤ b.length) :
    (wr b i x).length = b.length := by
  unfold wr
  simp only [List.length_append, List.length_take, List.length_drop]
  omega

/-! ### CFB8 -/

theorem cfb8Enc_length : ∀ (m v : List Byte), (cfb8Enc E v m).length = m.length
  | [], _ => rfl
  | p :: ps, v => by simp [cfb8Enc, cfb8Enc_length ps]

theorem cfb8Dec_length : ∀ (m v : List Byte), (cfb8Dec E v m).length = m.length
  | [], _ => rfl
  | p :: ps, v => by simp [cfb8Dec, cfb8Dec_length ps]

theorem cfb8Reg_cons {v : List Byte} (hv : v ≠ []) (y : Byte) (ys : List Byte) :
    cfb8Reg v (y :: ys) = cfb8Reg (v.drop 1 ++ [y]) ys := by
  unfold cfb8Reg
  match v, hv with
  | a :: v, _ => simp

theorem cfb8Reg_length (v ys : List Byte) : (cfb8Reg v ys).length = v.length := by
  unfold cfb8Reg; rw [List.length_drop, List.length_append]; omega

theorem cfb8Reg_append (v a b : List Byte) : cfb8Reg v (a ++ b) = cfb8Reg (cfb8Reg v a) b := by
  unfold cfb8Reg
  rw [List.length_append, ← List.append_assoc, ← List.drop_drop,
    List.drop_append_of_le_length (l₁ := v ++ a) (by rw [List.length_append]; omega)]

theorem shift_ne {v : List Byte} (y : Byte) : v.drop 1 ++ [y] ≠ [] := by simp

theorem cfb8Enc_append : ∀ (a b v : List Byte), v ≠ [] →
    cfb8Enc E v (a ++ b) = cfb8Enc E v a ++ cfb8Enc E (cfb8Reg v (cfb8Enc E v a)) b
  | [], b, v, _ => by simp [cfb8Enc, cfb8Reg]
  | p :: a, b, v, hv => by
    have ih := cfb8Enc_append a b (v.drop 1 ++ [p ^^^ (E v).headD 0]) (shift_ne _)
    simp only [cfb8Enc, List.cons_append]
    rw [ih, cfb8Reg_cons hv]

theorem cfb8Dec_append : ∀ (a b v : List Byte), v ≠ [] →
    cfb8Dec E v (a ++ b) = cfb8Dec E v a ++ cfb8Dec E (cfb8Reg v a) b
  | [], b, v, _ => by simp [cfb8Dec, cfb8Reg]
  | p :: a, b, v, hv => by
    have ih := cfb8Dec_append a b (v.drop 1 ++ [p]) (shift_ne _)
    simp only [cfb8Dec, List.cons_append]
    rw [ih, cfb8Reg_cons hv]

theorem cfb8Dec_enc : ∀ (m v : List Byte), cfb8Dec E v (cfb8Enc E v m) = m
  | [], _ => rfl
  | p :: m, v => by
    simp only [cfb8Enc, cfb8Dec]
    rw [cfb8Dec_enc m, BitVec.xor_assoc, BitVec.xor_self, BitVec.xor_zero]

theorem cfb8EncLoop_spec (hv0 : 0 < vlen) :
    ∀ (src A v C : List Byte) (pos : Nat), A.length = pos → v.length = vlen → pos ≤ vlen →
    pos + C.length = 32 - vlen → 2 * vlen ≤ 32 →
    cfb8EncLoop E vlen (A ++ v ++ C) pos src = (cfb8Enc E v src, cfb8Reg v (cfb8Enc E v src))
  | [], A, v, C, pos, hA, hv, _, _, _ => by
    rw [cfb8EncLoop, rd_mid hA hv]; simp [cfb8Enc, cfb8Reg]
  | p :: src, A, v, C, pos, hA, hv, hpos, hC, h32 => by
    -- normalise to the state after the optional copy back
    obtain ⟨A', C', e, hA', hC', hlt⟩ : ∃ A' C' : List Byte,
        (if pos = vlen then wr (A ++ v ++ C) 0 (rd (A ++ v ++ C) vlen vlen) else A ++ v ++ C)
          = A' ++ v ++ C' ∧ A'.length = (if pos = vlen then 0 else pos) ∧
          A'.length + C'.length = 32 - vlen ∧ A'.length < vlen := by
      by_cases h : pos = vlen
      · refine ⟨[], v ++ C, ?_, by simp [h], by simp only [List.length_nil, List.length_append]; omega,
          by simpa using hv0⟩
        rw [if_pos h]
        subst h
        rw [rd_mid hA hv]
        have := wr_mid (A := []) (B := A) (B' := v) (C := v ++ C) (i := 0) rfl (by omega)
        simpa using this
      · refine ⟨A, C, by rw [if_neg h], by rw [if_neg h, hA], by omega, by omega⟩
    rw [cfb8EncLoop]
    rw [e, ← hA', rd_mid rfl hv]
    match C', hC' with
    | [], hC' => simp at hC'; omega
    | x :: C', hC' =>
      match v, hv with
      | [], hv => simp at hv; omega
      | a :: v, hv =>
        simp only [List.length_cons] at hC' hv
        have hw : ∀ y : Byte, wr (A' ++ (a :: v) ++ x :: C') (A'.length + vlen) [y] =
            (A' ++ [a]) ++ (v ++ [y]) ++ C' := by
          intro y
          have := wr_mid (A := A' ++ (a :: v)) (B := [x]) (B' := [y]) (C := C') (i := A'.length + vlen)
            (by simp only [List.length_append, List.length_cons]; omega) rfl
          simpa using this
        rw [hw]
        have ih := cfb8EncLoop_spec hv0 src (A' ++ [a]) (v ++ [p ^^^ (E (a :: v)).headD 0]) C'
          (A'.length + 1) (by simp) (by simp only [List.length_append, List.length_singleton]; omega)
          (by omega) (by omega) h32
        rw [ih, cfb8Enc, cfb8Reg_cons (by simp)]
        rfl

theorem cfb8Dec_eq_xor : ∀ (ys v : List Byte), v ≠ [] →
    cfb8Dec E v ys = xorB ys ((List.range ys.length).map fun j => (E (cfb8Reg v (ys.take j))).headD 0)
  | [], v, _ => by simp [cfb8Dec, xorB]
  | y :: ys, v, hv => by
    rw [cfb8Dec, cfb8Dec_eq_xor ys _ (shift_ne y), List.length_cons, List.range_succ_eq_map,
      List.map_cons, List.map_map]
    unfold xorB
    rw [List.zipWith_cons_cons]
    congr 1
    · simp [cfb8Reg]
    · congr 1
      apply List.map_congr_left
      intro j _
      simp only [Function.comp_apply, List.take_succ_cons]
      rw [cfb8Reg_cons hv]

theorem cfb8Inner_spec (hv0 : 0 < vlen) (hE : ∀ b, b.length = vlen → (E b).length = vlen) (buf : List Byte) :
    ∀ (n i : Nat) (obuf : List Byte), i + n + vlen ≤ obuf.length + 1 →
    i + n + vlen ≤ buf.length + 1 →
    (cfb8Inner E vlen buf n i obuf).length = obuf.length ∧
    (cfb8Inner E vlen buf n i obuf).take (i + n) =
      obuf.take i ++ (List.range' i n).map fun j => (E (rd buf j vlen)).headD 0
  | 0, i, obuf, _, _ => by simp [cfb8Inner]
  | n + 1, i, obuf, h1, h2 => by
    have hrd : (rd buf i vlen).length = vlen := by
      unfold rd; rw [List.length_take, List.length_drop]; omega
    have hl := hE _ hrd
    have hwl : (wr obuf i (E (rd buf i vlen))).length = obuf.length := wr_length (by omega)
    obtain ⟨i1, i2⟩ := cfb8Inner_spec hv0 hE buf n (i + 1) (wr obuf i (E (rd buf i vlen)))
      (by rw [hwl]; omega) (by omega)
    rw [cfb8Inner]
    refine ⟨by rw [i1, hwl], ?_⟩
    rw [show i + (n + 1) = i + 1 + n by omega, i2, List.range'_succ, List.map_cons]
    have ht : (obuf.take i).length = i := by rw [List.length_take]; omega
    have : (wr obuf i (E (rd buf i vlen))).take (i + 1) = obuf.take i ++ [(E (rd buf i vlen)).headD 0] := by
      unfold wr
      match he : E (rd buf i vlen), hl with
      | [], hl => simp at hl; omega
      | x :: xs, _ =>
        rw [List.append_assoc, List.take_append, ht, List.take_of_length_le (by omega),
          show i + 1 - i = 1 by omega]
        simp
    rw [this, List.append_assoc]
    rfl

/-- One turn of the outer loop. -/
theorem cfb8_turn (hv0 : 0 < vlen) (hE : ∀ b, b.length = vlen → (E b).length = vlen)
    {v S R obuf ys : List Byte} (hv : v.length = vlen) (hn : ys.length ≤ vlen)
    (hS : S.length = vlen) (hSy : S.take ys.length = ys) (ho : 2 * vlen ≤ obuf.length) :
    mxor ys (cfb8Inner E vlen (v ++ S ++ R) ys.length 0 obuf) = cfb8Dec E v ys := by
  have hvne : v ≠ [] := by rintro rfl; simp at hv; omega
  obtain ⟨-, h2⟩ := cfb8Inner_spec (E := E) hv0 hE (v ++ S ++ R) ys.length 0 obuf (by omega)
    (by simp only [List.length_append]; omega)
  rw [mxor_eq, ← xorB_take_right ys _ ys.length le_rfl]
  rw [Nat.zero_add] at h2
  rw [h2, cfb8Dec_eq_xor ys v hvne, List.take_zero, List.nil_append, List.range_eq_range']
  congr 1
  apply List.map_congr_left
  intro j hj
  have hj' : j < ys.length := by
    have := List.mem_range'_1.1 hj; omega
  have : rd (v ++ S ++ R) j vlen = cfb8Reg v (ys.take j) := by
    have hS2 : S = ys.take j ++ S.drop j := by
      conv_lhs => rw [← List.take_append_drop j S]
      congr 1
      have := congrArg (List.take j) hSy
      rwa [List.take_take, Nat.min_eq_left (by omega)] at this
    have htj : (ys.take j).length = j := by rw [List.length_take]; omega
    unfold cfb8Reg
    rw [htj]
    have : v ++ S ++ R = (v.take j) ++ (v.drop j ++ ys.take j) ++ (S.drop j ++ R) := by
      rw [← List.append_assoc (v.take j), List.take_append_drop]
      conv_lhs => rw [hS2]
      simp only [List.append_assoc]
    rw [this, rd_mid (by rw [List.length_take]; omega)
      (by rw [List.length_append, List.length_drop, htj]; omega),
      List.drop_append_of_le_length (by omega)]
  rw [this]

theorem cfb8DecLoop_spec (hv0 : 0 < vlen) (hE : ∀ b, b.length = vlen → (E b).length = vlen) :
    ∀ (k : Nat) (src v R obuf : List Byte) (i0 : Nat), v.length = vlen → src.length ≤ k → src ≠ [] →
    2 * vlen ≤ obuf.length →
    cfb8DecLoop E vlen k (v ++ (src.take vlen ++ v.drop (src.take vlen).length) ++ R) obuf i0 src =
      some (cfb8Dec E v src, cfb8Reg v src) := by
  intro k
  induction k with
  | zero =>
    intro src v R obuf i0 _ h hne _
    exact absurd (List.length_eq_zero_iff.1 (by omega)) hne
  | succ k ih =>
    intro src v R obuf i0 hv hk hne ho
    have hvne : v ≠ [] := by rintro rfl; simp at hv; omega
    have h0 : src.length ≠ 0 := fun e => hne (List.length_eq_zero_iff.1 e)
    rw [cfb8DecLoop, if_pos h0]
    dsimp only
    have hmt : src.take (min src.length vlen) = src.take vlen := by
      rcases Nat.le_total src.length vlen with h | h
      · rw [Nat.min_eq_left h, List.take_length, List.take_of_length_le h]
      · rw [Nat.min_eq_right h]
    generalize hyd : src.take vlen = ys at *
    have hyl : ys.length = min src.length vlen := by rw [← hyd, List.length_take, Nat.min_comm]
    generalize hSd : ys ++ v.drop ys.length = S at *
    have hS : S.length = vlen := by rw [← hSd, List.length_append, List.length_drop]; omega
    have hSy : S.take ys.length = ys := by rw [← hSd, List.take_left]
    rw [hmt, ← hyl, cfb8_turn hv0 hE hv (by omega) hS hSy ho]
    obtain ⟨olen, -⟩ := cfb8Inner_spec (E := E) hv0 hE (v ++ S ++ R) ys.length 0 obuf (by omega)
      (by simp only [List.length_append]; omega)
    have hbuf1 : wr (v ++ S ++ R) 0 (rd (v ++ S ++ R) vlen vlen) = S ++ S ++ R := by
      rw [rd_mid hv hS]
      have := wr_mid (A := []) (B := v) (B' := S) (C := S ++ R) (i := 0) rfl (by omega)
      simpa using this
    rw [hbuf1]
    by_cases hlt : vlen ≤ src.length
    · -- a full chunk
      have hyv : ys.length = vlen := by omega
      have hSys : S = ys := by rw [← hSd, hyv, ← hv, List.drop_length, List.append_nil]
      subst hSys
      have hsplit : src = S ++ src.drop vlen := by
        conv_lhs => rw [← List.take_append_drop vlen src, hyd]
      have hreg : cfb8Reg v S = S := by
        unfold cfb8Reg; rw [hyv, ← hv, List.drop_left]
      rw [hyv]
      have hmt2 : ∀ l : List Byte, l.take (min l.length vlen) = l.take vlen := by
        intro l
        rcases Nat.le_total l.length vlen with h | h
        · rw [Nat.min_eq_left h, List.take_length, List.take_of_length_le h]
        · rw [Nat.min_eq_right h]
      rw [hmt2]
      generalize hs' : src.drop vlen = src' at *
      have hbuf2 : wr (S ++ S ++ R) vlen (src'.take vlen) =
          S ++ (src'.take vlen ++ S.drop (src'.take vlen).length) ++ R := by
        have hle : (src'.take vlen).length ≤ S.length := by rw [List.length_take, hS]; omega
        have := wr_mid (A := S) (B := S.take (src'.take vlen).length) (B' := src'.take vlen)
          (C := S.drop (src'.take vlen).length ++ R) (i := vlen) hS
          (by rw [List.length_take]; omega)
        simp only [List.append_assoc] at this ⊢
        rw [← this]
        congr 2
        rw [← List.append_assoc, List.take_append_drop]
      rw [hbuf2]
      by_cases he : src' = []
      · subst he
        have hw : cfb8DecLoop E vlen k (S ++ (([] : List Byte).take vlen ++
            S.drop (([] : List Byte).take vlen).length) ++ R)
            (cfb8Inner E vlen (v ++ S ++ R) vlen 0 obuf) vlen [] = some ([], S) := by
          rw [cfb8DecLoop.eq_def]
          simp only [List.length_nil, ne_eq, not_true_eq_false, if_false, List.take_nil, List.drop_zero,
            List.nil_append]
          rw [rd_mid hS hS]
        rw [hw]
        dsimp only
        rw [hsplit, List.append_nil, List.append_nil, hreg]
      · have hlen' : src'.length ≤ k := by rw [← hs', List.length_drop]; omega
        rw [ih src' S R _ vlen hS hlen' he (by rw [hyv] at olen; rw [olen]; exact ho)]
        dsimp only
        conv_rhs => rw [hsplit, cfb8Dec_append _ _ _ hvne, cfb8Reg_append, hreg]
    · -- the last, short chunk
      have hys : ys = src := by rw [← hyd, List.take_of_length_le (by omega)]
      subst hys
      rw [List.drop_length]
      simp only [List.length_nil, Nat.zero_min, List.take_nil]
      have hw0 : wr (S ++ S ++ R) vlen [] = S ++ S ++ R := by
        unfold wr; simp
      rw [hw0, cfb8DecLoop.eq_def]
      simp only [List.length_nil, ne_eq, not_true_eq_false, if_false, List.append_nil]
      have hSS : S ++ S ++ R = S.take ys.length ++ (S.drop ys.length ++ S.take ys.length) ++
          (S.drop ys.length ++ R) := by
        simp only [List.append_assoc]
        rw [← List.append_assoc (S.take ys.length) (S.drop ys.length), List.take_append_drop,
          ← List.append_assoc (S.take ys.length) (S.drop ys.length), List.take_append_drop]
      rw [hSS, rd_mid (by rw [List.length_take]; omega)
        (by rw [List.length_append, List.length_take, List.length_drop]; omega), hSy]
      congr 2
      unfold cfb8Reg
      rw [List.drop_append_of_le_length (by omega), ← hSd, List.drop_left]

end Verif.Modes
