import Verif.Lemmas.Ram.Cfb8Dec
import Verif.Props.Ram.Cbc
/-!
# C79, C80: CFB on buffers in memory
-/
namespace Verif.Ram
open Verif.Modes (xorB cfbEnc cfb8Enc cfb8Dec cfb8Reg Blocks xorB_length toyE cfb8Enc_length cfb8Dec_length)

variable {E : List Byte → List Byte} {c : Nat}

/-- C79: a message of whole blocks.  The output may start at or before the input (in particular in place) or behind its
end.  Exactly the ciphertext and the last ciphertext block are written. -/
theorem ram_cfb_whole (hE : ∀ b, b.length = c → (E b).length = c) (hc : 0 < c) (R : Ram) (ctx d s : Nat)
    (bs : List (List Byte)) (hb : ∀ b ∈ bs, b.length = c) (e : R.bytes s (bs.length * c) = bs.flatten)
    (ho : AllOwned R [(ctx, c), (s, bs.length * c), (d, bs.length * c)])
    (hs : Apart ctx c s (bs.length * c)) (hd : Apart ctx c d (bs.length * c)) (hp : d ≤ s ∨ s + bs.length * c ≤ d) :
    ∃ R', cfbCrypt E c ctx R d s (bs.length * c) = some R' ∧
      Wrote R R' [(d, (cfbEnc E (R.bytes ctx c) bs).flatten),
        (ctx, (cfbEnc E (R.bytes ctx c) bs).getLastD (R.bytes ctx c))] [] := by
  simp only [AllOwned, List.mem_cons, List.not_mem_nil, or_false, forall_eq_or_imp, forall_eq] at ho
  obtain ⟨o1, o2, o3⟩ := ho
  have hil : (R.bytes ctx c).length = c := bytes_length _ _
  obtain ⟨h1, h2⟩ := cfbEnc_blocks hE hil hb
  have hll := Modes.getLastD_length h1 hil
  have hfl : (cfbEnc E (R.bytes ctx c) bs).flatten.length = bs.length * c := by rw [h1.length, h2]
  refine ⟨_, cfbCrypt_whole hE hc hb o1 o2 o3 hs hd hp rfl e, rfl, rfl, ?_, ?_⟩
  · simp only [List.mem_cons, List.not_mem_nil, or_false, forall_eq_or_imp, forall_eq]
    exact ⟨by rw [bytes_put_apart (by rw [hll, hfl]; exact hd), bytes_put_same rfl], bytes_put_same rfl⟩
  · intro x k1 k2
    simp only [List.mem_cons, List.not_mem_nil, or_false, forall_eq_or_imp, forall_eq, Outside] at k1
    rw [put_mem_out (by omega), put_mem_out (by omega)]

/-- C79, a message that ends with a part of a block (with the restriction that the output buffer reaches to the end of that
block): the ciphertext is right, and nothing behind it is written, but the register takes what lies there. -/
theorem ram_cfb_rest_partial (hE : ∀ b, b.length = c → (E b).length = c) (R : Ram) (ctx d s : Nat)
    (bs : List (List Byte)) (r : List Byte) (hb : ∀ b ∈ bs, b.length = c) (hr : r ≠ []) (hrl : r.length < c)
    (e : R.bytes s (bs.length * c + r.length) = bs.flatten ++ r)
    (ho : AllOwned R [(ctx, c), (s, bs.length * c + r.length), (d, bs.length * c + c)])
    (hs : Apart ctx c s (bs.length * c + r.length)) (hd : Apart ctx c d (bs.length * c + c))
    (hp : d ≤ s ∨ s + (bs.length * c + r.length) ≤ d) :
    ∃ R', cfbCrypt E c ctx R d s (bs.length * c + r.length) = some R' ∧
      Wrote R R' [(d, (cfbEnc E (R.bytes ctx c) (bs ++ [r])).flatten),
        (ctx, (cfbEnc E (R.bytes ctx c) (bs ++ [r])).getLastD [] ++
          R.bytes (d + (bs.length * c + r.length)) (c - r.length))] [] := by
  simp only [AllOwned, List.mem_cons, List.not_mem_nil, or_false, forall_eq_or_imp, forall_eq] at ho
  obtain ⟨o1, o2, o3⟩ := ho
  have hil : (R.bytes ctx c).length = c := bytes_length _ _
  obtain ⟨h1, h2⟩ := cfbEnc_blocks hE hil hb
  have hxl : ∀ v : List Byte, v.length = c → (xorB r (E v)).length = r.length := by
    intro v hv; rw [xorB_length, hE v hv]; omega
  have hll := Modes.getLastD_length h1 hil
  have hfl : (cfbEnc E (R.bytes ctx c) (bs ++ [r])).flatten.length = bs.length * c + r.length := by
    rw [cfbEnc_append, List.flatten_append, List.length_append, h1.length, h2, cfbEnc, cfbEnc, List.flatten_cons,
      List.flatten_nil, List.append_nil, hxl _ hll]
  have hgl : ∀ z, (cfbEnc E (R.bytes ctx c) (bs ++ [r])).getLastD z = xorB r (E ((cfbEnc E (R.bytes ctx c) bs).getLastD
      (R.bytes ctx c))) := by
    intro z
    rw [cfbEnc_append, cfbEnc, cfbEnc, List.getLastD_concat]
  have hcl : ((cfbEnc E (R.bytes ctx c) (bs ++ [r])).getLastD [] ++
      R.bytes (d + (bs.length * c + r.length)) (c - r.length)).length = c := by
    rw [List.length_append, hgl, hxl _ hll, bytes_length]; omega
  have := cfbCrypt_rest hE hb hr hrl o1 o2 o3 hs hd hp rfl e
  rw [hgl, ← hgl []] at this
  refine ⟨_, this, rfl, rfl, ?_, ?_⟩
  · simp only [List.mem_cons, List.not_mem_nil, or_false, forall_eq_or_imp, forall_eq]
    exact ⟨by rw [bytes_put_apart (by rw [hcl, hfl]; apof hd), bytes_put_same rfl], bytes_put_same rfl⟩
  · intro x k1 k2
    simp only [List.mem_cons, List.not_mem_nil, or_false, forall_eq_or_imp, forall_eq, Outside] at k1
    rw [put_mem_out (by omega), put_mem_out (by omega)]

/-- C79 fails: when the message ends with a part of a block and the output buffer with the message, the call reads behind
the output buffer. -/
theorem ram_cfb_overread (hE : ∀ b, b.length = c → (E b).length = c) (R : Ram) (ctx d s : Nat)
    (bs : List (List Byte)) (r : List Byte) (hb : ∀ b ∈ bs, b.length = c) (hr : r ≠ []) (hrl : r.length < c)
    (e : R.bytes s (bs.length * c + r.length) = bs.flatten ++ r)
    (ho : AllOwned R [(ctx, c), (s, bs.length * c + r.length), (d, bs.length * c + r.length)])
    (hs : Apart ctx c s (bs.length * c + r.length)) (hd : Apart ctx c d (bs.length * c + r.length))
    (hp : d ≤ s ∨ s + (bs.length * c + r.length) ≤ d) (hno : ¬ R.Owned (d + bs.length * c) c) :
    cfbCrypt E c ctx R d s (bs.length * c + r.length) = none := by
  simp only [AllOwned, List.mem_cons, List.not_mem_nil, or_false, forall_eq_or_imp, forall_eq] at ho
  obtain ⟨o1, o2, o3⟩ := ho
  have hle := Nat.le_mul_of_pos_right bs.length (show 0 < c by omega)
  have hr0 : 0 < r.length := List.length_pos_iff.2 hr
  rw [bytes_add] at e
  obtain ⟨e1, e2⟩ := List.append_inj e (by rw [bytes_length, Blocks.length hb])
  unfold cfbCrypt
  have := cfbLoop_ram hE r.length (bs.length * c + r.length + 1 - bs.length) bs R d s _ hb o1 (by ownof o2) (by ownof o3)
    (by apof hs) (by apof hd) (by omega) rfl e1
  rw [show bs.length * c + r.length + 1 - bs.length + bs.length = bs.length * c + r.length + 1 by omega,
    show bs.length * c + r.length + 1 - bs.length = (bs.length * c + r.length - bs.length) + 1 by omega] at this
  rw [this, cfbLoop, if_neg (by omega), if_pos (by omega), cipher_one (by ownof o1) (by ownof o1), Option.bind_some,
    xor2_eq (by ownof o2) (by ownof o1) (by ownof o3) (by apof hd), Option.bind_some, memcpy, if_neg]
  rintro ⟨h, -⟩
  exact hno h

/-- Concrete case of C79: 24 bytes moved down by 8. -/
example : ∃ R' : Ram, cfbCrypt toyE 8 100 exRam 0 8 24 = some R' ∧
    R'.bytes 0 24 = (cfbEnc toyE (exRam.bytes 100 8) [exRam.bytes 8 8, exRam.bytes 16 8, exRam.bytes 24 8]).flatten := by
  obtain ⟨R', h, w⟩ := ram_cfb_whole (E := toyE) (c := 8) (by simp [toyE]) (by omega) exRam 100 0 8
    [exRam.bytes 8 8, exRam.bytes 16 8, exRam.bytes 24 8] (by simp) (by decide +kernel)
    (by
      simp only [AllOwned, List.mem_cons, List.not_mem_nil, or_false, forall_eq_or_imp, forall_eq]
      exact ⟨exRam_owned (by decide), exRam_owned (by decide), exRam_owned (by decide)⟩)
    (by decide) (by decide) (by decide)
  exact ⟨R', h, w.at_ _ (List.mem_cons_self ..)⟩

/-- Concrete case of C79: 12 bytes at the end of the memory. -/
example : cfbCrypt toyE 8 100 exRam 188 20 12 = none :=
  ram_cfb_overread (E := toyE) (c := 8) (by simp [toyE]) exRam 100 188 20
    [exRam.bytes 20 8] (exRam.bytes 28 4) (by simp) (by decide +kernel) (by simp) (by decide +kernel)
    (by
      simp only [AllOwned, List.mem_cons, List.not_mem_nil, or_false, forall_eq_or_imp, forall_eq]
      exact ⟨exRam_owned (by decide), exRam_owned (by decide), exRam_owned (by decide)⟩)
    (by decide) (by decide) (by decide) (fun h => absurd (h 7 (by decide)) (by decide))

/-- C80: encryption with feedback of bytes; the output may start at or before the input or behind its end.  Exactly the
ciphertext and the register are written. -/
theorem ram_cfb8_encrypt (hE : ∀ b, b.length = c → (E b).length = c) (hc : 0 < c) (R : Ram) (ctx buf d s len : Nat)
    (ho : AllOwned R [(ctx, c), (s, len), (d, len), (buf, 2 * c)])
    (hx : AllApart [(ctx, c), (buf, 2 * c), (s, len)]) (hy : AllApart [(ctx, c), (buf, 2 * c), (d, len)])
    (hp : d ≤ s ∨ s + len ≤ d) :
    ∃ R', cfb8Encrypt E c ctx buf R d s len = some R' ∧
      Wrote R R' [(d, cfb8Enc E (R.bytes ctx c) (R.bytes s len)),
        (ctx, cfb8Reg (R.bytes ctx c) (cfb8Enc E (R.bytes ctx c) (R.bytes s len)))] [(buf, 2 * c)] := by
  simp only [AllOwned, List.mem_cons, List.not_mem_nil, or_false, forall_eq_or_imp, forall_eq] at ho
  simp only [AllApart, List.pairwise_cons, List.mem_cons, List.not_mem_nil, or_false, forall_eq_or_imp, forall_eq] at hx hy
  obtain ⟨o1, o2, o3, o4⟩ := ho
  obtain ⟨⟨a1, a2⟩, a3, -⟩ := hx
  obtain ⟨⟨b1, b2⟩, b3, -⟩ := hy
  have hl : (R.bytes s len).length = len := bytes_length _ _
  have := cfb8Encrypt_ram (src := R.bytes s len) (v := R.bytes ctx c) (d := d) (s := s) hE hc o1 (by rwa [hl]) (by rwa [hl]) o4
    (by rwa [hl]) (by rwa [hl]) a1 (by rwa [hl]) (by rwa [hl]) (by rwa [hl]) rfl (by rw [hl])
  rwa [hl] at this

/-- C80: decryption of at least one byte.  The output and everything outside are as they should be.  The register is the
standard one (`cfb8Reg`) after at least a block; after a shorter message its front part comes from the uninitialised local
array. -/
theorem ram_cfb8_decrypt_partial (hE : ∀ b, b.length = c → (E b).length = c) (hc : 0 < c) (R : Ram)
    (ctx buf obuf d s len : Nat) (h0 : 0 < len)
    (ho : AllOwned R [(ctx, c), (s, len), (d, len), (buf, 2 * c), (obuf, 2 * c)])
    (hx : AllApart [(ctx, c), (buf, 2 * c), (obuf, 2 * c), (s, len)])
    (hy : AllApart [(ctx, c), (buf, 2 * c), (obuf, 2 * c), (d, len)]) (hp : d ≤ s ∨ s + len ≤ d) :
    ∃ R', cfb8Decrypt E c ctx buf obuf R d s len = some R' ∧
      Wrote R R' [(d, cfb8Dec E (R.bytes ctx c) (R.bytes s len)),
        (ctx, if len < c then R.bytes (buf + c + len) (c - len) ++ R.bytes s len
          else cfb8Reg (R.bytes ctx c) (R.bytes s len))] [(buf, 2 * c), (obuf, 2 * c)] := by
  simp only [AllOwned, List.mem_cons, List.not_mem_nil, or_false, forall_eq_or_imp, forall_eq] at ho
  simp only [AllApart, List.pairwise_cons, List.mem_cons, List.not_mem_nil, or_false, forall_eq_or_imp, forall_eq] at hx hy
  obtain ⟨o1, o2, o3, o4, o5⟩ := ho
  obtain ⟨⟨a1, a2, a3⟩, ⟨a4, a5⟩, a6, -⟩ := hx
  obtain ⟨⟨b1, b2, b3⟩, ⟨b4, b5⟩, b6, -⟩ := hy
  have hl : (R.bytes s len).length = len := bytes_length _ _
  have := cfb8Decrypt_ram (src := R.bytes s len) (v := R.bytes ctx c) (d := d) (s := s) hE hc
    (List.length_pos_iff.1 (by omega)) o1 (by rwa [hl]) (by rwa [hl]) o4 o5
    (by rwa [hl]) (by rwa [hl]) a1 a2 (by rwa [hl]) (by rwa [hl]) (by rwa [hl]) (by rwa [hl]) a4 (by rwa [hl]) rfl (by rw [hl])
  rwa [hl] at this

/-- C80: decryption of nothing leaves the register as it was, and is defined for any two pointers. -/
theorem ram_cfb8_decrypt_empty (E : List Byte → List Byte) (R : Ram) (ctx buf obuf d s : Nat)
    (ho : AllOwned R [(ctx, c), (buf, 2 * c)]) (ha : Apart ctx c buf (2 * c)) :
    ∃ R', cfb8Decrypt E c ctx buf obuf R d s 0 = some R' ∧ Wrote R R' [(ctx, R.bytes ctx c)] [(buf, 2 * c)] := by
  simp only [AllOwned, List.mem_cons, List.not_mem_nil, or_false, forall_eq_or_imp, forall_eq] at ho
  obtain ⟨o1, o2⟩ := ho
  have hl : (R.bytes ctx c).length = c := bytes_length _ _
  have e : (R.put buf (R.bytes ctx c)).bytes buf c = R.bytes ctx c := bytes_put_same hl
  refine ⟨(R.put buf (R.bytes ctx c)).put ctx (R.bytes ctx c), ?_, rfl, rfl, ?_, ?_⟩
  · unfold cfb8Decrypt
    rw [memcpy_eq o1 (by ownof o2) (by apof ha), Option.bind_some, Nat.zero_min,
      memcpy_eq (fun i hi => absurd hi (by omega)) (fun i hi => absurd hi (by omega)) (by unfold Apart; omega), Option.bind_some]
    unfold cfb8DecLoop
    rw [if_neg (by omega), show (R.put buf (R.bytes ctx c)).bytes s 0 = [] from rfl, put_nil, Nat.add_zero,
      memcpy_eq (by ownof o2) (by ownof o1) (by apof ha), e]
  · intro w hw
    rw [List.mem_singleton.1 hw]
    exact bytes_put_same rfl
  · intro x h1 h2
    have h1 := h1 _ (List.mem_singleton.2 rfl)
    have h2 := h2 _ (List.mem_singleton.2 rfl)
    unfold Outside at h1 h2
    dsimp only at h1 h2
    rw [hl] at h1
    rw [put_mem_out (by rw [hl]; omega), put_mem_out (by rw [hl]; omega)]

/-- C80: encrypting in place and decrypting in place from the same register gives the message back. -/
theorem ram_cfb8_roundtrip (hE : ∀ b, b.length = c → (E b).length = c) (hc : 0 < c) (R : Ram)
    (ctx buf obuf d len : Nat) (h0 : 0 < len)
    (ho : AllOwned R [(ctx, c), (d, len), (buf, 2 * c), (obuf, 2 * c)])
    (ha : AllApart [(ctx, c), (buf, 2 * c), (obuf, 2 * c), (d, len)]) :
    ∃ R1 R2, cfb8Encrypt E c ctx buf R d d len = some R1 ∧
      cfb8Decrypt E c ctx buf obuf (R1.put ctx (R.bytes ctx c)) d d len = some R2 ∧
      Wrote R R2 [(d, R.bytes d len)] [(ctx, c), (buf, 2 * c), (obuf, 2 * c)] := by
  have ha' := ha
  simp only [AllOwned, List.mem_cons, List.not_mem_nil, or_false, forall_eq_or_imp, forall_eq] at ho
  obtain ⟨o1, o2, o3, o4⟩ := ho
  simp only [AllApart, List.pairwise_cons, List.mem_cons, List.not_mem_nil, or_false, forall_eq_or_imp, forall_eq] at ha
  obtain ⟨⟨a1, a2, a3⟩, ⟨a4, a5⟩, a6, -⟩ := ha
  have hil : (R.bytes ctx c).length = c := bytes_length _ _
  have hdl : (R.bytes d len).length = len := bytes_length _ _
  have hel := cfb8Enc_length (E := E) (R.bytes d len) (R.bytes ctx c)
  have hrl := Modes.cfb8Reg_length (R.bytes ctx c) (cfb8Enc E (R.bytes ctx c) (R.bytes d len))
  have hA : AllApart [(ctx, c), (buf, 2 * c), (d, len)] := by
    simp only [AllApart, List.pairwise_cons, List.mem_cons, List.not_mem_nil, or_false, forall_eq_or_imp, forall_eq]
    exact ⟨⟨a1, a3⟩, a5, by simp⟩
  obtain ⟨R1, h1, w1⟩ := ram_cfb8_encrypt hE hc R ctx buf d d len
    (by
      simp only [AllOwned, List.mem_cons, List.not_mem_nil, or_false, forall_eq_or_imp, forall_eq]
      exact ⟨o1, o2, o2, o3⟩) hA hA (Or.inl (Nat.le_refl _))
  have hOw : ∀ a n, R.Owned a n → (R1.put ctx (R.bytes ctx c)).Owned a n := by
    intro a n h i hi
    rw [put_own, w1.own]
    exact h i hi
  obtain ⟨R2, h2, w2⟩ := ram_cfb8_decrypt_partial hE hc (R1.put ctx (R.bytes ctx c)) ctx buf obuf d d len h0
    (by
      simp only [AllOwned, List.mem_cons, List.not_mem_nil, or_false, forall_eq_or_imp, forall_eq]
      exact ⟨hOw _ _ o1, hOw _ _ o2, hOw _ _ o2, hOw _ _ o3, hOw _ _ o4⟩) ha' ha' (Or.inl (Nat.le_refl _))
  have hd1 : R1.bytes d len = cfb8Enc E (R.bytes ctx c) (R.bytes d len) := by
    have := w1.at_ _ (List.mem_cons_self ..)
    dsimp only at this
    rwa [hel, hdl] at this
  have hv := bytes_put_same (R := R1) (a := ctx) hil
  have hd2 : (R1.put ctx (R.bytes ctx c)).bytes d len = cfb8Enc E (R.bytes ctx c) (R.bytes d len) := by
    rw [bytes_put_apart (by rw [hil]; exact a3), hd1]
  rw [hv, hd2, Modes.cfb8Dec_enc] at w2
  refine ⟨R1, R2, h1, h2, by rw [w2.own, put_own, w1.own], by rw [w2.tmp, put_tmp, w1.tmp], ?_, ?_⟩
  · simp only [List.mem_cons, List.not_mem_nil, or_false, forall_eq]
    exact w2.at_ _ (List.mem_cons_self ..)
  · intro x k1 k2
    have hreg : (if len < c then (R1.put ctx (R.bytes ctx c)).bytes (buf + c + len) (c - len) ++
        cfb8Enc E (R.bytes ctx c) (R.bytes d len)
          else cfb8Reg (R.bytes ctx c) (cfb8Enc E (R.bytes ctx c) (R.bytes d len))).length = c := by
      split
      · rw [List.length_append, bytes_length, hel, hdl]; omega
      · rw [hrl, hil]
    simp only [List.mem_cons, List.not_mem_nil, or_false, forall_eq_or_imp, forall_eq] at k1 k2
    rw [w2.else_ x (by
        simp only [List.mem_cons, List.not_mem_nil, or_false, forall_eq_or_imp, forall_eq]
        exact ⟨k1, by rw [hreg]; exact k2.1⟩)
      (by simp only [List.mem_cons, List.not_mem_nil, or_false, forall_eq_or_imp, forall_eq]; exact k2.2),
      put_mem_out (by rw [hil]; exact k2.1), w1.else_ x (by
        simp only [List.mem_cons, List.not_mem_nil, or_false, forall_eq_or_imp, forall_eq]
        exact ⟨by rw [hel]; exact k1, by rw [hrl, hil]; exact k2.1⟩)
      (by simp only [List.mem_cons, List.not_mem_nil, or_false, forall_eq]; exact k2.2.1)]

/-- C80 fails: after decrypting one byte of this memory the register is not the standard one, although for the same data
encryption leaves the standard one. -/
theorem ram_cfb8_register_bad : ∃ R' : Ram, cfb8Decrypt toyE 8 100 120 150 exRam 0 0 1 = some R' ∧
    R'.bytes 100 8 ≠ cfb8Reg (exRam.bytes 100 8) (exRam.bytes 0 1) := by
  obtain ⟨R', h, w⟩ := ram_cfb8_decrypt_partial (E := toyE) (c := 8) (by simp [toyE]) (by omega) exRam 100 120 150 0 0 1
    (by omega)
    (by
      simp only [AllOwned, List.mem_cons, List.not_mem_nil, or_false, forall_eq_or_imp, forall_eq]
      exact ⟨exRam_owned (by decide), exRam_owned (by decide), exRam_owned (by decide), exRam_owned (by decide),
        exRam_owned (by decide)⟩) (by unfold AllApart; decide) (by unfold AllApart; decide) (Or.inl (Nat.le_refl _))
  refine ⟨R', h, ?_⟩
  have := w.at_ _ (List.mem_cons_of_mem _ (List.mem_cons_self ..))
  rw [show R'.bytes 100 8 = _ from this]
  decide +kernel

/-- Concrete case of C80: 20 bytes in place. -/
example : ∃ R1 R2 : Ram, cfb8Encrypt toyE 8 100 120 exRam 0 0 20 = some R1 ∧
    cfb8Decrypt toyE 8 100 120 150 (R1.put 100 (exRam.bytes 100 8)) 0 0 20 = some R2 ∧
    R2.bytes 0 20 = exRam.bytes 0 20 := by
  obtain ⟨R1, R2, h1, h2, w⟩ := ram_cfb8_roundtrip (E := toyE) (c := 8) (by simp [toyE]) (by omega) exRam 100 120 150 0 20
    (by omega)
    (by
      simp only [AllOwned, List.mem_cons, List.not_mem_nil, or_false, forall_eq_or_imp, forall_eq]
      exact ⟨exRam_owned (by decide), exRam_owned (by decide), exRam_owned (by decide), exRam_owned (by decide)⟩)
    (by unfold AllApart; decide)
  exact ⟨R1, R2, h1, h2, w.at_ _ (List.mem_cons_self ..)⟩

/-- Concrete case of C80: nothing to decrypt, pointers outside of the memory. -/
example : ∃ R' : Ram, cfb8Decrypt toyE 8 100 120 150 exRam 5000 6000 0 = some R' ∧ R'.bytes 100 8 = exRam.bytes 100 8 := by
  obtain ⟨R', h, w⟩ := ram_cfb8_decrypt_empty (c := 8) toyE exRam 100 120 150 5000 6000
    (by
      simp only [AllOwned, List.mem_cons, List.not_mem_nil, or_false, forall_eq_or_imp, forall_eq]
      exact ⟨exRam_owned (by decide), exRam_owned (by decide)⟩) (by decide)
  exact ⟨R', h, w.at_ _ (List.mem_cons_self ..)⟩

end Verif.Ram
