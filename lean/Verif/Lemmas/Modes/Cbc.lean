import Verif.Lemmas.Modes.Blocks
/-! CBC: the code computes the textbook functions. -/
namespace Verif.Modes

variable {c : Nat} {E D : List Byte → List Byte}

theorem cbcEnc_blocks (hE : ∀ b, b.length = c → (E b).length = c) : ∀ {bs : List (List Byte)}
    {iv : List Byte}, iv.length = c → Blocks c bs → Blocks c (cbcEnc E iv bs) ∧
    (cbcEnc E iv bs).length = bs.length
  | [], _, _, _ => by simp [cbcEnc, Blocks]
  | b :: bs, iv, hiv, h => by
    obtain ⟨h1, h2⟩ := h.cons
    have hy := hE (xorB b iv) (by rw [xorB_length]; omega)
    obtain ⟨i1, i2⟩ := cbcEnc_blocks hE hy h2
    exact ⟨Blocks.mk hy i1, by rw [cbcEnc, List.length_cons, i2, List.length_cons]⟩

theorem cbcEnc_append : ∀ (as bs : List (List Byte)) (iv : List Byte),
    cbcEnc E iv (as ++ bs) = cbcEnc E iv as ++ cbcEnc E ((cbcEnc E iv as).getLastD iv) bs
  | [], bs, iv => by simp [cbcEnc]
  | a :: as, bs, iv => by
    have := cbcEnc_append as bs (E (xorB a iv))
    simp only [cbcEnc, List.cons_append, List.getLastD_cons, this]

theorem cbcDec_append : ∀ (as bs : List (List Byte)) (iv : List Byte),
    cbcDec D iv (as ++ bs) = cbcDec D iv as ++ cbcDec D (as.getLastD iv) bs
  | [], bs, iv => by simp [cbcDec]
  | a :: as, bs, iv => by
    have := cbcDec_append as bs a
    simp only [cbcDec, List.cons_append, List.getLastD_cons, this]

theorem cbcDec_enc (hE : ∀ b, b.length = c → (E b).length = c) (hD : ∀ b, b.length = c → D (E b) = b) :
    ∀ {bs : List (List Byte)} {iv : List Byte}, iv.length = c → Blocks c bs →
    cbcDec D iv (cbcEnc E iv bs) = bs
  | [], _, _, _ => rfl
  | b :: bs, iv, hiv, h => by
    obtain ⟨h1, h2⟩ := h.cons
    have hx : (xorB b iv).length = c := by rw [xorB_length]; omega
    rw [cbcEnc, cbcDec, hD _ hx, xorB_cancel (by omega), cbcDec_enc hE hD (hE _ hx) h2]

theorem cbcEncLoop_spec (hc : 0 < c) (hE : ∀ b, b.length = c → (E b).length = c) :
    ∀ (bs : List (List Byte)) (k : Nat) (iv : List Byte), iv.length = c → Blocks c bs →
    bs.length ≤ k → cbcEncLoop E c k iv bs.flatten (bs.length * c) =
      some ((cbcEnc E iv bs).flatten, (cbcEnc E iv bs).getLastD iv)
  | [], k, iv, _, _, _ => by cases k <;> simp [cbcEncLoop, cbcEnc]
  | b :: bs, 0, iv, _, _, h => by simp at h
  | b :: bs, k + 1, iv, hiv, h, hk => by
    obtain ⟨h1, h2⟩ := h.cons
    have hy := hE (xorB b iv) (by rw [xorB_length]; omega)
    have ih := cbcEncLoop_spec hc hE bs k _ hy h2 (by simpa using hk)
    have hs : (b :: bs).length * c = bs.length * c + c := by rw [List.length_cons]; ring
    obtain ⟨s, hs'⟩ : ∃ s, (b :: bs).length * c = s + 1 :=
      ⟨(b :: bs).length * c - 1, by omega⟩
    rw [hs', cbcEncLoop, ← hs', hs, if_neg]
    · rw [List.flatten_cons, ← h1, List.take_left, List.drop_left, h1, Nat.add_sub_cancel]
      dsimp only
      rw [mxor_eq, xorB_comm iv b, ih]
      simp only [cbcEnc, List.flatten_cons, List.getLastD_cons]
    · rw [List.flatten_cons, List.length_append]; omega
    · simp

theorem cbcDec_flatten (hD : ∀ b, b.length = c → (D b).length = c) :
    ∀ (ys : List (List Byte)) (iv : List Byte), iv.length = c → Blocks c ys →
    (cbcDec D iv ys).flatten = xorB (ys.map D).flatten (iv ++ ys.flatten)
  | [], _, _, _ => by simp [cbcDec, xorB]
  | y :: ys, iv, hiv, h => by
    obtain ⟨h1, h2⟩ := h.cons
    rw [cbcDec, List.flatten_cons, cbcDec_flatten hD ys y h1 h2, List.map_cons, List.flatten_cons,
      List.flatten_cons, xorB_append _ _ (by rw [hD y h1, hiv])]

theorem last_block : ∀ {bs : List (List Byte)} {b : List Byte}, Blocks c (b :: bs) → ∀ iv,
    (b :: bs).flatten.drop ((b :: bs).length * c - c) = (b :: bs).getLastD iv
  | [], b, h, iv => by simp
  | b' :: bs, b, h, iv => by
    obtain ⟨h1, h2⟩ := h.cons
    have ih := last_block h2 b
    rw [List.getLastD_cons, ← ih, List.flatten_cons]
    have e : (b :: b' :: bs).length * c - c = b.length + ((b' :: bs).length * c - c) := by
      simp only [List.length_cons, Nat.add_mul, h1]; omega
    rw [e, List.drop_length_add_append]

theorem getLastD_length {bs : List (List Byte)} (h : Blocks c bs) {iv : List Byte} (hiv : iv.length = c) :
    (bs.getLastD iv).length = c := by
  cases bs with
  | nil => exact hiv
  | cons b bs =>
    rw [List.getLastD_eq_getLast?]
    cases e : (b :: bs).getLast? with
    | none => simpa using hiv
    | some x => exact h x (List.mem_of_getLast? e)

theorem cbcDecryptOut_spec {k : Nat} (hk : k < 64) (hD : ∀ b, b.length = 2 ^ k → (D b).length = 2 ^ k)
    {bs : List (List Byte)} {iv : List Byte} (hiv : iv.length = 2 ^ k) (h : Blocks (2 ^ k) bs)
    (hne : bs ≠ []) (hlen : bs.flatten.length < 2 ^ 64) :
    cbcDecryptOut D (2 ^ k) iv bs.flatten = some ((cbcDec D iv bs).flatten, bs.getLastD iv) := by
  have hc := Nat.two_pow_pos k
  generalize hce : 2 ^ k = c at *
  have hL := h.length
  have hm : maskSize bs.flatten.length c = bs.length * c := by
    rw [← hce, maskSize_whole hk hlen (by rw [hce, hL]; exact Dvd.intro_left _ rfl), hce, hL]
  match bs, hne with
  | b :: bs, _ =>
    obtain ⟨h1, h2⟩ := h.cons
    have hs : (b :: bs).length * c = bs.length * c + c := by rw [List.length_cons]; ring
    unfold cbcDecryptOut
    rw [hm]
    dsimp only
    rw [if_neg (by omega), ← hL, List.take_length, hL, last_block h iv, List.take_of_length_le
      (l := (b :: bs).getLastD iv) (by rw [getLastD_length h hiv]), ecb_flatten hc h]
    congr 2
    have hd1 := hD b h1
    have hrhs : (cbcDec D iv (b :: bs)).flatten =
        xorB (D b) iv ++ xorB (bs.map D).flatten (b ++ bs.flatten) := by
      rw [cbcDec, List.flatten_cons, cbcDec_flatten hD bs b h1 h2]
    rw [hrhs, List.map_cons, List.flatten_cons, ← hd1, List.take_left, List.drop_left, mxor_eq]
    have hx : (D b).length = (xorB (D b) iv).length := by rw [xorB_length]; omega
    rw [hx, List.take_left' rfl, List.drop_left' rfl, mxor_eq, ← hx, hd1, xorB_take_right]
    · rfl
    · rw [(h2.map hD).length, List.length_map]; omega

theorem cbcInChunk_spec (hc : 0 < c) (hD : ∀ b, b.length = c → (D b).length = c)
    {bs : List (List Byte)} {iv : List Byte} (hiv : iv.length = c) (h : Blocks c bs)
    (hne : bs ≠ []) (rest : List Byte) :
    cbcInChunk D c iv (bs.flatten ++ rest) (bs.length * c) =
      ((cbcDec D iv bs).flatten, bs.getLastD iv) := by
  have hL := h.length
  match bs, hne with
  | b :: bs, _ =>
    obtain ⟨h1, h2⟩ := h.cons
    have hs : (b :: bs).length * c = bs.length * c + c := by rw [List.length_cons]; ring
    have hd1 := hD b h1
    unfold cbcInChunk
    dsimp only
    rw [← hL, List.take_left, hL, ecb_flatten hc h]
    have hrhs : (cbcDec D iv (b :: bs)).flatten =
        xorB (D b) iv ++ xorB (bs.map D).flatten (b ++ bs.flatten) := by
      rw [cbcDec, List.flatten_cons, cbcDec_flatten hD bs b h1 h2]
    congr 1
    · rw [hrhs, List.map_cons, List.flatten_cons, ← hd1, List.take_left, List.drop_left, mxor_eq, mxor_eq,
        hd1, List.take_of_length_le (by omega), xorB_take_right]
      · congr 1
        rw [List.flatten_cons, ← xorB_take_right _ (b ++ bs.flatten ++ rest) (bs.length * c + c)]
        · rw [← hs, ← hL, ← List.flatten_cons, List.take_left]
        · rw [(h2.map hD).length, List.length_map]; omega
      · rw [(h2.map hD).length, List.length_map]; omega
    · rw [List.drop_append_of_le_length (by rw [hL]; omega), last_block h iv,
        List.take_append_of_le_length (by rw [getLastD_length h hiv]),
        List.take_of_length_le (by rw [getLastD_length h hiv])]

theorem cbcInLoop_spec (hc : 0 < c) (hD : ∀ b, b.length = c → (D b).length = c) {q : Nat} (hq : 0 < q) :
    ∀ (k : Nat) (bs : List (List Byte)) (iv : List Byte), iv.length = c → Blocks c bs →
    bs ≠ [] → bs.length ≤ k → cbcInLoop D c (q * c) k iv bs.flatten (bs.length * c) =
      some ((cbcDec D iv bs).flatten, bs.getLastD iv) := by
  intro k
  induction k with
  | zero =>
    intro bs iv _ _ hne h
    cases bs with
    | nil => exact absurd rfl hne
    | cons b bs => simp at h
  | succ k ih =>
    intro bs iv hiv h hne hk
    have hbl : 0 < bs.length := List.length_pos_iff.2 hne
    rw [cbcInLoop]
    by_cases hgt : bs.length * c > q * c
    · have hgt' : q < bs.length := by
        by_contra hcon
        have := Nat.mul_le_mul_right c (Nat.not_lt.1 hcon); omega
      have hqc : c ≤ q * c := Nat.le_mul_of_pos_left c hq
      rw [if_pos hgt]
      dsimp only
      rw [if_neg (by omega)]
      have hsplit : bs.flatten = (bs.take q).flatten ++ (bs.drop q).flatten := by
        rw [← List.flatten_append, List.take_append_drop]
      have htl : (bs.take q).length = q := by rw [List.length_take]; omega
      have htne : bs.take q ≠ [] := by
        intro e; rw [e] at htl; simp at htl; omega
      have hchunk := cbcInChunk_spec hc hD hiv (h.take q) htne (bs.drop q).flatten
      rw [htl] at hchunk
      have hdne : bs.drop q ≠ [] := by
        intro e
        have : (bs.drop q).length = 0 := by rw [e]; rfl
        rw [List.length_drop] at this; omega
      have ih' := ih (bs.drop q) ((bs.take q).getLastD iv) (getLastD_length (h.take q) hiv) (h.drop q)
        hdne (by rw [List.length_drop]; omega)
      have hlen : bs.length * c - q * c = (bs.drop q).length * c := by
        rw [List.length_drop, Nat.sub_mul]
      have hdrop : bs.flatten.drop (q * c) = (bs.drop q).flatten := by
        rw [hsplit]
        have : q * c = (bs.take q).flatten.length := by rw [(h.take q).length, htl]
        rw [this, List.drop_left]
      rw [hdrop, hlen, hsplit, hchunk]
      dsimp only
      rw [ih']
      dsimp only
      rw [← List.flatten_append, ← cbcDec_append, List.take_append_drop]
      congr 2
      conv_rhs => rw [← List.take_append_drop q bs]
      rw [List.getLastD_eq_getLast?, List.getLastD_eq_getLast?, List.getLastD_eq_getLast?,
        List.getLast?_append]
      cases e : (bs.drop q).getLast? with
      | none => exact absurd (List.getLast?_eq_none_iff.1 e) hdne
      | some x => simp
    · have hbc : c ≤ bs.length * c := Nat.le_mul_of_pos_left c hbl
      rw [if_neg hgt, if_neg (by omega)]
      have := cbcInChunk_spec hc hD hiv h hne []
      rw [List.append_nil] at this
      rw [this]

end Verif.Modes
