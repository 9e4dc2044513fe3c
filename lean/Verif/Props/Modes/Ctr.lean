import Verif.Lemmas.Modes.Ctr
/-!
# C26: CTR
-/
namespace Verif.Modes

variable {c : Nat} {E : List Byte → List Byte}

/-- C26: the counter advances as a big-endian integer modulo its width (widths from two bytes). -/
theorem incBE_value (hc : 2 ≤ c) (v : List Byte) (hv : v.length = c) :
    ∃ v', incBE v c = some v' ∧ v'.length = c ∧ beVal v' = (beVal v + 1) % 256 ^ c := by
  subst hv
  refine ⟨encodeBE v.length (beVal v + 1), ?_, encodeBE_length _ _, beVal_encodeBE _ _⟩
  have := incBE_spec hc (beVal v)
  rwa [encodeBE_beVal] at this

/-- C26 is false for one-byte counters: the wrap from 255 writes outside the counter. -/
theorem incBE_one_byte_ub : incBE [255#8] 1 = none := by decide

/-- C26: out of place, every message is xored with the encrypted counters and the counter advances by
the number of (started) blocks. -/
theorem ctrOut_standard (hc : 2 ≤ c) (hE : ∀ b, b.length = c → (E b).length = c)
    (ctr src : List Byte) (hctr : ctr.length = c) :
    ctrOut E c ctr src = some (xorB src (ctrStream E c (beVal ctr) ((src.length + c - 1) / c)),
      encodeBE c (beVal ctr + (src.length + c - 1) / c)) := by
  have := ctrOut_spec hc hE (beVal ctr) src
  rw [← hctr, encodeBE_beVal] at this
  subst hctr
  exact this

/-- C26: in place, the same for 16-byte counters, whatever the local buffer held.  Missing: other
widths for messages from 64 bytes, see `ctrIn_small_wrong`. -/
theorem ctrIn_standard_partial (hE : ∀ b, b.length = 16 → (E b).length = 16)
    (junk ctr src : List Byte) (hctr : ctr.length = 16) (hj : junk.length = 64) :
    ctrIn E 16 junk ctr src = some (xorB src (ctrStream E 16 (beVal ctr) ((src.length + 15) / 16)),
      encodeBE 16 (beVal ctr + (src.length + 15) / 16)) := by
  have := ctrInLoop_spec hE src.length (beVal ctr) junk src hj (Nat.div_le_self _ _)
  rw [show encodeBE 16 (beVal ctr) = ctr by rw [← hctr]; exact encodeBE_beVal ctr] at this
  exact this

/-- C26: in place, messages below 64 bytes for all counter widths dividing 64. -/
theorem ctrIn_short (hc : 2 ≤ c) (hd : c ∣ 64)
    (junk ctr src : List Byte) (hctr : ctr.length = c) (hlt : src.length < 64) :
    ctrIn E c junk ctr src = some (xorB src (ctrStream E c (beVal ctr) ((src.length + c - 1) / c)),
      encodeBE c (beVal ctr + (src.length + c - 1) / c)) := by
  have hfit : (src.length + c - 1) / c * c ≤ 64 := by
    obtain ⟨q, hq⟩ := hd
    have h1 : (src.length + c - 1) / c ≤ q := by
      have : src.length + c - 1 < c * (q + 1) := by rw [Nat.mul_succ]; omega
      exact Nat.lt_succ_iff.1 ((Nat.div_lt_iff_lt_mul (by omega)).2 (by rw [Nat.mul_comm]; exact this))
    calc _ ≤ q * c := Nat.mul_le_mul_right _ h1
      _ = 64 := by rw [Nat.mul_comm]; exact hq.symm
  have := ctrIn_final (E := E) hc (beVal ctr) src.length junk src hlt hfit
  rw [show encodeBE c (beVal ctr) = ctr by rw [← hctr]; exact encodeBE_beVal ctr] at this
  exact this

/-- C26: applying CTR twice from the same counter restores the data. -/
theorem ctr_self_inverse (hc : 2 ≤ c) (hE : ∀ b, b.length = c → (E b).length = c)
    (ctr msg : List Byte) (hctr : ctr.length = c) :
    ∃ y v1 v2, ctrOut E c ctr msg = some (y, v1) ∧ y.length = msg.length ∧
      ctrOut E c ctr y = some (msg, v2) := by
  have hlen : msg.length ≤ (ctrStream E c (beVal ctr) ((msg.length + c - 1) / c)).length := by
    rw [ctrStream_length hE]
    have h1 := Nat.div_add_mod (msg.length + c - 1) c
    have h2 := Nat.mod_lt (msg.length + c - 1) (by omega : 0 < c)
    rw [Nat.mul_comm] at h1
    omega
  have hl : (xorB msg (ctrStream E c (beVal ctr) ((msg.length + c - 1) / c))).length = msg.length := by
    rw [xorB_length]; omega
  exact ⟨_, _, _, ctrOut_standard hc hE ctr msg hctr, hl, by
    rw [ctrOut_standard hc hE ctr _ hctr, hl, xorB_cancel hlen]⟩

/-- C26: in place and out of place give equal bytes and equal counters (16-byte counters). -/
theorem ctr_in_eq_out_partial (hE : ∀ b, b.length = 16 → (E b).length = 16)
    (junk ctr src : List Byte) (hctr : ctr.length = 16) (hj : junk.length = 64) :
    ctrIn E 16 junk ctr src = ctrOut E 16 ctr src := by
  rw [ctrIn_standard_partial hE junk ctr src hctr hj, ctrOut_standard (by omega) hE ctr src hctr]
  rfl

/-- C26: a split at a block boundary does not change output or counter. -/
theorem ctr_split (hc : 2 ≤ c) (hE : ∀ b, b.length = c → (E b).length = c)
    (ctr m1 m2 : List Byte) (hctr : ctr.length = c) (hd : c ∣ m1.length) :
    ∃ y1 v1 y2 v2, ctrOut E c ctr m1 = some (y1, v1) ∧ ctrOut E c v1 m2 = some (y2, v2) ∧
      ctrOut E c ctr (m1 ++ m2) = some (y1 ++ y2, v2) := by
  obtain ⟨q, hq⟩ := hd
  have hq1 : (m1.length + c - 1) / c = q := by
    rw [ceil_eq (by omega), hq, Nat.mul_div_cancel_left _ (by omega), Nat.mul_mod_right, if_pos rfl]; rfl
  have hq2 : ((m1 ++ m2).length + c - 1) / c = q + (m2.length + c - 1) / c := by
    rw [List.length_append, hq, show c * q + m2.length + c - 1 = (m2.length + c - 1) + c * q by omega,
      Nat.add_mul_div_left _ _ (by omega), Nat.add_comm]
  refine ⟨_, _, _, _, ctrOut_standard hc hE ctr m1 hctr,
    ctrOut_standard hc hE _ m2 (encodeBE_length _ _), ?_⟩
  rw [ctrOut_standard hc hE ctr _ hctr, hq1, hq2, ctrStream_add]
  rw [xorB_append _ _ (by rw [ctrStream_length hE, hq, Nat.mul_comm])]
  rw [beVal_encodeBE]
  congr 2
  · congr 2
    exact ctrStream_mod _ _ _ (by rw [Nat.mod_mod])
  · rw [← encodeBE_mod c (_ % _ + _), Nat.mod_add_mod, encodeBE_mod, Nat.add_assoc]

/-- C26 is false in place for 8-byte counters: from 64 bytes on, each 64-byte chunk advances the counter
by 4 instead of 8 blocks (the other 32 bytes are "encrypted" with whatever the buffer held), for every
cipher, every counter and every buffer content. -/
theorem ctrIn_small_wrong (junk ctr src : List Byte) (hctr : ctr.length = 8)
    (hs : src.length = 64) :
    ∃ y, ctrIn E 8 junk ctr src = some (y, encodeBE 8 (beVal ctr + 4)) ∧
      encodeBE 8 (beVal ctr + 4) ≠ encodeBE 8 (beVal ctr + (src.length + 7) / 8) := by
  have hc : encodeBE 8 (beVal ctr) = ctr := by rw [← hctr]; exact encodeBE_beVal ctr
  obtain ⟨k, hk⟩ : ∃ k, src.length = k + 1 := ⟨63, hs⟩
  refine ⟨?_, ?_, ?_⟩
  rotate_left
  · unfold ctrIn
    rw [← hc, hk, ctrInLoop.eq_def]
    dsimp only
    rw [if_pos (by omega), ctrFill_spec (by omega)]
    dsimp only
    rw [if_neg (by rw [ctrBlocks_flatten_length]; decide),
      ctrIn_final (by omega) _ k _ (src.drop 64) (by rw [List.length_drop]; omega)
        (by rw [List.length_drop, hs]; decide)]
    dsimp only
    rw [show (src.drop 64).length = 0 by rw [List.length_drop]; omega]
    rw [beVal_encodeBE, Nat.mod_eq_of_lt (by have := beVal_lt ctr; rwa [hctr] at this)]
  · intro h
    have h2 := congrArg beVal h
    rw [beVal_encodeBE, beVal_encodeBE, hs] at h2
    omega

-- concrete cases, with a toy block function
section
def toyC (b : List Byte) : List Byte := (b.map (· * 3 + 1)).reverse
example : ∀ b : List Byte, b.length = 2 → (toyC b).length = 2 := by intro b h; simpa [toyC] using h
example : ctrOut toyC 2 [0, 255] [1, 2, 3, 4, 5] = some ([255, 3, 2, 0, 1], [1, 2]) := by decide +kernel
example : ctrOut toyC 2 [255, 255] [9, 9] = some ([247, 247], [0, 0]) := by decide +kernel
-- the same 64 bytes, in and out of place, with an 8-byte counter
example : ctrIn toyC 8 (List.replicate 64 0) (List.replicate 8 7) (List.replicate 64 1) ≠
    ctrOut toyC 8 (List.replicate 8 7) (List.replicate 64 1) := by decide +kernel
end

end Verif.Modes
