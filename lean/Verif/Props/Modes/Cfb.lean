import Verif.Lemmas.Modes.Cfb
/-!
# C24 (CFB) and C25 (CFB8)
-/
namespace Verif.Modes

variable {vlen : Nat} {E : List Byte → List Byte}

/-- C24: encryption computes textbook CFB for every message, cut into blocks of `vlen` bytes and a rest
`r`; with a rest, `vlen - r.length` more bytes must be readable behind the output. -/
theorem cfbCrypt_standard (hv : 0 < vlen) (hE : ∀ b, b.length = vlen → (E b).length = vlen)
    (v : List Byte) (hvl : v.length = vlen) (bs : List (List Byte)) (hb : ∀ b ∈ bs, b.length = vlen)
    (r tail : List Byte) (hr : r.length < vlen) (ht : r = [] ∨ vlen ≤ r.length + tail.length) :
    ∃ v', cfbCrypt E vlen v (bs.flatten ++ r) tail =
      some ((cfbEnc E v (if r = [] then bs else bs ++ [r])).flatten, v') := by
  have hk : bs.length < (bs.flatten ++ r).length + 1 := by
    rw [List.length_append, Blocks.length hb]
    have := Nat.le_mul_of_pos_right bs.length hv
    omega
  unfold cfbCrypt
  rw [cfbLoop_spec hv hE tail bs _ v r hvl hb hr hk]
  split_ifs with h1 h2
  · exact ⟨_, rfl⟩
  · exfalso; rcases ht with h | h
    · exact h1 h
    · omega
  · exact ⟨_, by unfold cfbMsg; rw [if_neg h1]⟩

/-- C24, what holds: messages of at most one block are restored. -/
theorem cfb_roundtrip_partial (hv : 0 < vlen) (hE : ∀ b, b.length = vlen → (E b).length = vlen)
    (v : List Byte) (hvl : v.length = vlen) (msg t1 t2 : List Byte) (hm : msg.length ≤ vlen)
    (h1 : vlen ≤ msg.length + t1.length) (h2 : vlen ≤ msg.length + t2.length) :
    ∃ y v1 v2, cfbCrypt E vlen v msg t1 = some (y, v1) ∧ y.length = msg.length ∧
      cfbCrypt E vlen v y t2 = some (msg, v2) := by
  have key : ∀ (m t : List Byte), m.length ≤ vlen → vlen ≤ m.length + t.length →
      ∃ w, cfbCrypt E vlen v m t = some (xorB m (E v), w) := by
    intro m t hm ht
    by_cases hfull : m.length = vlen
    · obtain ⟨w, h⟩ := cfbCrypt_standard hv hE v hvl [m] (by simpa using hfull) [] t (by simpa using hv)
        (Or.inl rfl)
      exact ⟨w, by simpa [cfbEnc] using h⟩
    · by_cases he : m = []
      · subst he
        obtain ⟨w, h⟩ := cfbCrypt_standard hv hE v hvl [] (by simp) [] t (by simpa using hv) (Or.inl rfl)
        exact ⟨w, by simpa [cfbEnc, xorB] using h⟩
      · obtain ⟨w, h⟩ := cfbCrypt_standard hv hE v hvl [] (by simp) m t (by omega) (Or.inr ht)
        exact ⟨w, by simpa [cfbEnc, he] using h⟩
  have hl : (xorB msg (E v)).length = msg.length := by rw [xorB_length, hE v hvl]; omega
  obtain ⟨w1, e1⟩ := key msg t1 hm h1
  obtain ⟨w2, e2⟩ := key (xorB msg (E v)) t2 (by omega) (by omega)
  refine ⟨_, w1, w2, e1, hl, ?_⟩
  rw [e2, xorB_cancel (by rw [hE v hvl]; omega)]

theorem xorB_left_cancel : ∀ {a b c : List Byte}, a.length = b.length → a.length = c.length →
    xorB a b = xorB a c → b = c
  | [], [], [], _, _, _ => rfl
  | [], _ :: _, _, h, _, _ => by simp at h
  | [], [], _ :: _, _, h, _ => by simp at h
  | _ :: _, [], _, h, _, _ => by simp at h
  | _ :: _, _ :: _, [], _, h, _ => by simp at h
  | a :: as, b :: bs, c :: cs, h1, h2, h => by
    simp only [xorB, List.zipWith_cons_cons, List.cons.injEq] at h
    have h3 : as.length = bs.length := by simpa using h1
    have h4 : as.length = cs.length := by simpa using h2
    rw [xorB_left_cancel h3 h4 h.2, (BitVec.xor_right_inj a).1 h.1]

theorem xorB_self_zero : ∀ {a b : List Byte}, a.length = b.length → xorB a b = a →
    b = List.replicate b.length 0#8
  | [], [], _, _ => rfl
  | [], _ :: _, h, _ => by simp at h
  | _ :: _, [], h, _ => by simp at h
  | a :: as, b :: bs, h1, h => by
    simp only [xorB, List.zipWith_cons_cons, List.cons.injEq] at h
    have h3 : as.length = bs.length := by simpa using h1
    have hb : b = 0#8 := by
      have : a ^^^ b = a ^^^ 0#8 := by rw [h.1, BitVec.xor_zero]
      exact (BitVec.xor_right_inj a).1 this
    have ih := xorB_self_zero h3 h.2
    rw [hb, List.length_cons, List.replicate_succ, ← ih]

/-- C24 is false: for every cipher that is injective on blocks, every IV with `E v ≠ 0` and every message
of at least two blocks, decryption does not return the message (the plaintext is fed back instead of the
ciphertext). -/
theorem cfb_decrypt_wrong (hv : 0 < vlen) (hE : ∀ b, b.length = vlen → (E b).length = vlen)
    (hinj : ∀ a b, a.length = vlen → b.length = vlen → E a = E b → a = b)
    (v : List Byte) (hvl : v.length = vlen) (hz : E v ≠ List.replicate vlen 0#8)
    (msg t1 t2 : List Byte) (hm : 2 * vlen ≤ msg.length)
    (y v1 z v2 : List Byte) (h1 : cfbCrypt E vlen v msg t1 = some (y, v1))
    (h2 : cfbCrypt E vlen v y t2 = some (z, v2)) : z ≠ msg := by
  -- first two blocks of any message
  have key : ∀ (p q rest t o w : List Byte), p.length = vlen → q.length = vlen →
      cfbCrypt E vlen v (p ++ (q ++ rest)) t = some (o, w) →
      ∃ o', o = xorB p (E v) ++ (xorB q (E (xorB p (E v))) ++ o') := by
    intro p q rest t o w hp hq h
    obtain ⟨bs, r, hb, hrl, -, e⟩ := exists_blocks_rest hv rest
    have hr : r.length < vlen := by rw [hrl]; exact Nat.mod_lt _ hv
    have hb' : Blocks vlen (p :: q :: bs) := Blocks.mk hp (Blocks.mk hq hb)
    have hfl : p ++ (q ++ rest) = (p :: q :: bs).flatten ++ r := by rw [← e]; simp
    have hk : (p :: q :: bs).length < ((p :: q :: bs).flatten ++ r).length + 1 := by
      rw [List.length_append, Blocks.length hb']
      have := Nat.le_mul_of_pos_right (p :: q :: bs).length hv
      omega
    unfold cfbCrypt at h
    rw [hfl, cfbLoop_spec hv hE t _ _ v r hvl hb' hr hk, cfbMsg_cons, cfbMsg_cons] at h
    split_ifs at h
    · simp only [Option.some.injEq, Prod.mk.injEq] at h
      exact ⟨_, by rw [← h.1]; simp [cfbEnc]; rfl⟩
    · simp only [Option.some.injEq, Prod.mk.injEq] at h
      exact ⟨_, by rw [← h.1]; simp [cfbEnc]; rfl⟩
  obtain ⟨p, q, rest, hp, hq, e⟩ : ∃ p q rest : List Byte, p.length = vlen ∧ q.length = vlen ∧
      msg = p ++ (q ++ rest) :=
    ⟨msg.take vlen, (msg.drop vlen).take vlen, (msg.drop vlen).drop vlen,
      by rw [List.length_take]; omega, by rw [List.length_take, List.length_drop]; omega,
      by rw [List.take_append_drop, List.take_append_drop]⟩
  subst e
  obtain ⟨o, rfl⟩ := key p q rest t1 y v1 hp hq h1
  have hEv := hE v hvl
  have hc0 : (xorB p (E v)).length = vlen := by rw [xorB_length]; omega
  have hc1 : (xorB q (E (xorB p (E v)))).length = vlen := by rw [xorB_length, hE _ hc0]; omega
  obtain ⟨o2, rfl⟩ := key _ _ o t2 z v2 hc0 hc1 h2
  intro heq
  rw [xorB_cancel (by omega)] at heq
  have h3 := List.append_cancel_left heq
  have hEp := hE p hp
  have h4 : xorB (xorB q (E (xorB p (E v)))) (E p) = q :=
    (List.append_inj h3 (by rw [xorB_length, hc1, hEp, hq]; omega)).1
  have h5 : xorB (xorB q (E (xorB p (E v)))) (E (xorB p (E v))) = q :=
    xorB_cancel (by rw [hE _ hc0]; omega)
  have h6 : E p = E (xorB p (E v)) :=
    xorB_left_cancel (by omega) (by rw [hE _ hc0]; omega) (h4.trans h5.symm)
  have h7 := hinj _ _ hp hc0 h6
  have h8 := xorB_self_zero (by omega) h7.symm
  rw [hEv] at h8
  exact hz h8

/-- C24 is false for a message that is not a whole number of blocks and a destination of exactly its
size: bytes behind the destination are read. -/
theorem cfb_partial_ub (hv : 0 < vlen) (hE : ∀ b, b.length = vlen → (E b).length = vlen)
    (v : List Byte) (hvl : v.length = vlen) (msg : List Byte) (hm : msg.length % vlen ≠ 0) :
    cfbCrypt E vlen v msg [] = none := by
  obtain ⟨bs, r, hb, hrl, -, e⟩ := exists_blocks_rest hv msg
  have hr : r.length < vlen := by rw [hrl]; exact Nat.mod_lt _ hv
  subst e
  have hk : bs.length < (bs.flatten ++ r).length + 1 := by
    rw [List.length_append, Blocks.length hb]
    have := Nat.le_mul_of_pos_right bs.length hv
    omega
  unfold cfbCrypt
  rw [cfbLoop_spec hv hE [] bs _ v r hvl hb hr hk, if_neg (by intro e; rw [e, List.length_nil] at hrl; exact hm (by rw [e]; exact hrl.symm)),
    if_pos (by simpa using hr)]

/-- C24: with an empty IV the loop never ends, whatever the bound. -/
theorem cfb_no_iv_hangs (k : Nat) (v src tail : List Byte) : cfbLoop E 0 tail k v src = none :=
  cfbLoop_zero tail k v src

/-- C25: encryption computes textbook CFB8 and leaves the textbook register, whatever the local buffer
held. -/
theorem cfb8Encrypt_correct (hv : 0 < vlen) (hv16 : vlen ≤ 16) (v src junk : List Byte)
    (hvl : v.length = vlen) (hj : junk.length = 32) :
    cfb8Encrypt E vlen junk v src = (cfb8Enc E v src, cfb8Reg v (cfb8Enc E v src)) := by
  have hw : wr junk 0 (v.take vlen) = [] ++ v ++ junk.drop vlen := by
    unfold wr
    rw [List.take_of_length_le (l := v) (by omega), hvl]
    simp
  unfold cfb8Encrypt
  rw [hw]
  exact cfb8EncLoop_spec hv src [] v _ 0 rfl hvl (by omega)
    (by rw [List.length_drop]; omega) (by omega)

/-- C25: encryption calls on any parts of the message give the output and register of one call. -/
theorem cfb8Encrypt_split (hv : 0 < vlen) (hv16 : vlen ≤ 16) (v m1 m2 j1 j2 j3 : List Byte)
    (hvl : v.length = vlen) (h1 : j1.length = 32) (h2 : j2.length = 32) (h3 : j3.length = 32) :
    let r1 := cfb8Encrypt E vlen j1 v m1
    let r2 := cfb8Encrypt E vlen j2 r1.2 m2
    cfb8Encrypt E vlen j3 v (m1 ++ m2) = (r1.1 ++ r2.1, r2.2) := by
  have hne : v ≠ [] := by rintro rfl; simp at hvl; omega
  intro r1 r2
  have e1 : r1 = _ := cfb8Encrypt_correct hv hv16 v m1 j1 hvl h1
  have e2 : r2 = _ := cfb8Encrypt_correct hv hv16 r1.2 m2 j2
    (by rw [e1]; rw [cfb8Reg_length, hvl]) h2
  rw [cfb8Encrypt_correct hv hv16 v _ j3 hvl h3, e2, e1]
  dsimp only
  rw [cfb8Enc_append _ _ _ hne, cfb8Reg_append]

theorem cfb8Decrypt_init {vlen : Nat} {v src junk : List Byte} (hv16 : vlen ≤ 16) (hvl : v.length = vlen)
    (hj : junk.length = 32) :
    wr (wr junk 0 (v.take vlen)) vlen (src.take (min src.length vlen)) =
      v ++ (src.take vlen ++ rd junk (vlen + (src.take vlen).length) (vlen - (src.take vlen).length)) ++
        junk.drop (2 * vlen) := by
  have hmt : src.take (min src.length vlen) = src.take vlen := by
    rcases Nat.le_total src.length vlen with h | h
    · rw [Nat.min_eq_left h, List.take_length, List.take_of_length_le h]
    · rw [Nat.min_eq_right h]
  have hyl : (src.take vlen).length ≤ vlen := by rw [List.length_take]; omega
  rw [hmt]
  generalize src.take vlen = ys at *
  have hw : wr junk 0 (v.take vlen) = v ++ junk.drop vlen := by
    unfold wr
    rw [List.take_of_length_le (l := v) (by omega), hvl]
    simp
  rw [hw]
  have := wr_mid (A := v) (B := (junk.drop vlen).take ys.length) (B' := ys)
    (C := (junk.drop vlen).drop ys.length) (i := vlen) hvl
    (by rw [List.length_take, List.length_drop]; omega)
  rw [List.append_assoc, List.take_append_drop] at this
  rw [this]
  simp only [List.append_assoc]
  congr 2
  unfold rd
  rw [List.drop_drop]
  conv_lhs => rw [← List.take_append_drop (vlen - ys.length) (junk.drop (vlen + ys.length))]
  rw [List.drop_drop]
  congr 2
  omega

/-- C25, what holds of decryption: for the empty message and for messages of at least `vlen` bytes the
call computes textbook CFB8 decryption and leaves the textbook register, whatever the local buffers
held.  Missing: shorter non-empty messages, see `cfb8Decrypt_short`. -/
theorem cfb8Decrypt_correct_partial (hv : 0 < vlen) (hv16 : vlen ≤ 16)
    (hE : ∀ b, b.length = vlen → (E b).length = vlen) (v src junk ojunk : List Byte)
    (hvl : v.length = vlen) (hj : junk.length = 32) (ho : ojunk.length = 32)
    (hlen : src = [] ∨ vlen ≤ src.length) :
    cfb8Decrypt E vlen junk ojunk v src = some (cfb8Dec E v src, cfb8Reg v src) := by
  unfold cfb8Decrypt
  dsimp only
  rw [cfb8Decrypt_init hv16 hvl hj]
  rcases hlen with rfl | hlen
  · rw [cfb8DecLoop.eq_def]
    simp only [List.length_nil, ne_eq, not_true_eq_false, if_false, List.take_nil]
    have := rd_mid (A := []) (B := v) (C := ([] ++ rd junk (vlen + 0) (vlen - 0)) ++ junk.drop (2 * vlen))
      (i := 0) (n := vlen) rfl hvl
    simp only [List.nil_append, List.append_assoc] at this ⊢
    rw [this]
    simp [cfb8Dec, cfb8Reg]
  · have hyl : (src.take vlen).length = vlen := by rw [List.length_take]; omega
    have hne : src ≠ [] := by rintro rfl; simp at hlen; omega
    have := cfb8DecLoop_spec hv hE src.length src v (junk.drop (2 * vlen)) ojunk 0 hvl le_rfl hne (by omega)
    rw [hyl, ← hvl, List.drop_length, hvl] at this
    have hrd : rd junk (vlen + (src.take vlen).length) (vlen - (src.take vlen).length) = [] := by
      rw [hyl, Nat.sub_self]; simp [rd]
    rw [hrd]
    exact this

/-- C25: for a non-empty message shorter than `vlen` the output is right, but the register is left
holding indeterminate bytes of the local buffer. -/
theorem cfb8Decrypt_short (hv16 : vlen ≤ 16)
    (hE : ∀ b, b.length = vlen → (E b).length = vlen) (v src junk ojunk : List Byte)
    (hvl : v.length = vlen) (hj : junk.length = 32) (ho : ojunk.length = 32)
    (h0 : 0 < src.length) (hlt : src.length < vlen) :
    cfb8Decrypt E vlen junk ojunk v src =
      some (cfb8Dec E v src, (junk.drop (vlen + src.length)).take (vlen - src.length) ++ src) := by
  have hst : src.take vlen = src := List.take_of_length_le (by omega)
  unfold cfb8Decrypt
  dsimp only
  rw [cfb8Decrypt_init hv16 hvl hj, hst]
  generalize hJ : rd junk (vlen + src.length) (vlen - src.length) = J
  have hJl : J.length = vlen - src.length := by
    rw [← hJ]; unfold rd; rw [List.length_take, List.length_drop]; omega
  have hJ' : (junk.drop (vlen + src.length)).take (vlen - src.length) = J := hJ
  rw [hJ']
  generalize junk.drop (2 * vlen) = R
  have hSl : (src ++ J).length = vlen := by rw [List.length_append]; omega
  obtain ⟨k, hk⟩ : ∃ k, src.length = k + 1 := ⟨src.length - 1, by omega⟩
  have hfuel : src.length = k.succ := hk
  rw [show cfb8DecLoop E vlen src.length = cfb8DecLoop E vlen k.succ by rw [← hfuel], cfb8DecLoop.eq_def]
  dsimp only
  rw [if_pos (by omega)]
  rw [show min src.length vlen = src.length by omega, List.take_length, List.drop_length,
    cfb8_turn (by omega) hE hvl (by omega) hSl (by rw [List.take_left]) (by omega)]
  simp only [List.length_nil, Nat.zero_min, List.take_nil]
  have hbuf1 : wr (v ++ (src ++ J) ++ R) 0 (rd (v ++ (src ++ J) ++ R) vlen vlen) =
      (src ++ J) ++ (src ++ J) ++ R := by
    rw [rd_mid hvl hSl]
    have := wr_mid (A := []) (B := v) (B' := src ++ J) (C := (src ++ J) ++ R) (i := 0) rfl
      (by rw [hSl, hvl])
    simpa using this
  have hw0 : wr ((src ++ J) ++ (src ++ J) ++ R) vlen [] = (src ++ J) ++ (src ++ J) ++ R := by
    unfold wr; simp
  rw [hbuf1, hw0, cfb8DecLoop.eq_def]
  simp only [List.length_nil, ne_eq, not_true_eq_false, if_false, List.append_nil]
  have hSS : (src ++ J) ++ (src ++ J) ++ R = src ++ (J ++ src) ++ (J ++ R) := by
    simp only [List.append_assoc]
  rw [hSS, rd_mid rfl (by rw [List.length_append]; omega)]

/-- C25: one decryption call inverts any encryption call, for every message length. -/
theorem cfb8_roundtrip (hv : 0 < vlen) (hv16 : vlen ≤ 16)
    (hE : ∀ b, b.length = vlen → (E b).length = vlen) (v msg j1 j2 j3 : List Byte)
    (hvl : v.length = vlen) (h1 : j1.length = 32) (h2 : j2.length = 32) (h3 : j3.length = 32) :
    ∃ v', cfb8Decrypt E vlen j2 j3 v (cfb8Encrypt E vlen j1 v msg).1 = some (msg, v') := by
  rw [cfb8Encrypt_correct hv hv16 v msg j1 hvl h1]
  dsimp only
  have hd := cfb8Dec_enc (E := E) msg v
  have hl := cfb8Enc_length (E := E) msg v
  by_cases h : cfb8Enc E v msg = [] ∨ vlen ≤ (cfb8Enc E v msg).length
  · exact ⟨_, by rw [cfb8Decrypt_correct_partial hv hv16 hE v _ j2 j3 hvl h2 h3 h, hd]⟩
  · rw [not_or] at h
    refine ⟨_, by rw [cfb8Decrypt_short hv16 hE v _ j2 j3 hvl h2 h3
      (List.length_pos_iff.2 h.1) (by omega), hd]⟩

/-- C25: decryption calls on parts of at least `vlen` bytes (or empty) followed by a last part of any
length give the output of one call on the whole. -/
theorem cfb8Decrypt_split_partial (hv : 0 < vlen) (hv16 : vlen ≤ 16)
    (hE : ∀ b, b.length = vlen → (E b).length = vlen) (v m1 m2 j1 j2 j3 o1 o2 o3 : List Byte)
    (hvl : v.length = vlen) (h1 : j1.length = 32) (h2 : j2.length = 32) (h3 : j3.length = 32)
    (g1 : o1.length = 32) (g2 : o2.length = 32) (g3 : o3.length = 32)
    (hlen : m1 = [] ∨ vlen ≤ m1.length) :
    ∃ d1 v1 d2 v2 v3, cfb8Decrypt E vlen j1 o1 v m1 = some (d1, v1) ∧
      cfb8Decrypt E vlen j2 o2 v1 m2 = some (d2, v2) ∧
      cfb8Decrypt E vlen j3 o3 v (m1 ++ m2) = some (d1 ++ d2, v3) := by
  have hne : v ≠ [] := by rintro rfl; simp at hvl; omega
  have out : ∀ (j o v m : List Byte), j.length = 32 → o.length = 32 → v.length = vlen →
      ∃ v', cfb8Decrypt E vlen j o v m = some (cfb8Dec E v m, v') := by
    intro j o v m hj ho hvl
    by_cases h : m = [] ∨ vlen ≤ m.length
    · exact ⟨_, cfb8Decrypt_correct_partial hv hv16 hE v _ j o hvl hj ho h⟩
    · rw [not_or] at h
      exact ⟨_, cfb8Decrypt_short hv16 hE v _ j o hvl hj ho (List.length_pos_iff.2 h.1) (by omega)⟩
  obtain ⟨v2, e2⟩ := out j2 o2 (cfb8Reg v m1) m2 h2 g2 (by rw [cfb8Reg_length, hvl])
  obtain ⟨v3, e3⟩ := out j3 o3 v (m1 ++ m2) h3 g3 hvl
  refine ⟨_, _, _, v2, v3, cfb8Decrypt_correct_partial hv hv16 hE v m1 j1 o1 hvl h1 g1 hlen, e2, ?_⟩
  rw [e3, cfb8Dec_append _ _ _ hne]

/-- C25 is false of decryption under arbitrary chunking: after a short non-empty call the register
depends on indeterminate memory, and for every register there is memory that makes it wrong. -/
theorem cfb8Decrypt_short_wrong (hv16 : vlen ≤ 16)
    (hE : ∀ b, b.length = vlen → (E b).length = vlen) (v src ojunk : List Byte)
    (hvl : v.length = vlen) (ho : ojunk.length = 32)
    (h0 : 0 < src.length) (hlt : src.length < vlen) :
    ∃ junk, junk.length = 32 ∧ ∃ d v', cfb8Decrypt E vlen junk ojunk v src = some (d, v') ∧
      v' ≠ cfb8Reg v src := by
  -- fill the buffer with a byte different from the last byte of the register
  let x : Byte := (v.drop src.length).headD 0 + 1
  refine ⟨List.replicate 32 x, by simp, _, _,
    cfb8Decrypt_short hv16 hE v src _ ojunk hvl (by simp) ho h0 hlt, ?_⟩
  intro h
  unfold cfb8Reg at h
  rw [List.drop_append_of_le_length (by omega), List.drop_replicate, List.take_replicate] at h
  have h' := List.append_inj_left h (by simp; omega)
  have hne : v.drop src.length ≠ [] := by
    intro e
    have := congrArg List.length e
    rw [List.length_drop, List.length_nil] at this; omega
  match hd : v.drop src.length, hne with
  | a :: l, _ =>
    obtain ⟨n, hn⟩ : ∃ n, min (vlen - src.length) (32 - (vlen + src.length)) = n + 1 :=
      ⟨min (vlen - src.length) (32 - (vlen + src.length)) - 1, by omega⟩
    rw [hn, List.replicate_succ, hd] at h'
    have hx : x = a := (List.cons.inj h').1
    have : x = a + 1 := by simp [x, hd]
    rw [this] at hx
    have : (1#8 : Byte) = 0#8 := by
      have h2 : a + 1#8 = a + 0#8 := by rw [BitVec.add_zero]; exact hx
      exact (BitVec.add_right_inj a).1 h2
    exact absurd this (by decide)

-- concrete cases, with a 4-byte toy block function
section
def toy4 (b : List Byte) : List Byte := (b.map (· + 7)).reverse
example : ∀ a b : List Byte, a.length = 4 → b.length = 4 → toy4 a = toy4 b → a = b := by
  intro a b _ _ h
  simp only [toy4, List.reverse_inj] at h
  exact List.map_injective_iff.2 (fun x y h => by simpa using h) h
example : cfbCrypt toy4 4 [1, 2, 3, 4] [0, 0, 0, 0, 0, 0, 0, 1] [] =
    some ([11, 10, 9, 8, 15, 16, 17, 19], [15, 16, 17, 19]) := by decide +kernel
example : (cfb8Encrypt toy4 4 (List.replicate 32 0) [1, 2, 3, 4] [5, 6, 7, 8, 9, 10]).1 =
    [0x0e, 0x13, 0x1d, 0x2c, 0x3a, 0x4b] := by decide +kernel
end

end Verif.Modes
