import Verif.Lemmas.Modes.Gcm
/-!
# C27 (GCM) and C28 (multiplication in GF(2^128))
-/
namespace Verif.Modes
open Polynomial Verif.Gf

/-- C28: for all pairs of blocks the product block represents the remainder of the product of the
polynomials by the GCM polynomial. -/
theorem gfMul_correct (x y : List Byte) (hx : x.length = 16) :
    (gfMul x y).length = 16 ∧ gpoly (gfMul x y) = (gpoly x * gpoly y) %ₘ gcmMod := by
  have hl := gfMul_length hx y
  refine ⟨hl, ?_⟩
  have h := q_gfMul hx y
  rw [← map_mul] at h
  have h1 := modByMonic_eq_of_dvd_sub gcmMod_monic (AdjoinRoot.mk_eq_mk.1 h)
  have hd := gpoly_degree (gfMul x y)
  rw [hl] at hd
  rwa [(modByMonic_eq_self_iff gcmMod_monic).2 (by rw [gcmMod_degree]; exact hd)] at h1

/-- C28: distinct blocks represent distinct residues, so the previous theorem determines the product. -/
theorem gpoly_injective (x y : List Byte) (hx : x.length = 16) (hy : y.length = 16)
    (h : gpoly x = gpoly y) : x = y := gpoly_inj (by omega) h

/-- C28: commutativity. -/
theorem gfMul_comm (x y : List Byte) (hx : x.length = 16) (hy : y.length = 16) :
    gfMul x y = gfMul y x :=
  eq_of_q (gfMul_length hx y) (gfMul_length hy x) (by rw [q_gfMul hx, q_gfMul hy, mul_comm])

/-- C28: associativity. -/
theorem gfMul_assoc (x y z : List Byte) (hx : x.length = 16) (hy : y.length = 16) :
    gfMul (gfMul x y) z = gfMul x (gfMul y z) :=
  eq_of_q (gfMul_length (gfMul_length hx y) z) (gfMul_length hx _)
    (by rw [q_gfMul (gfMul_length hx y), q_gfMul hx, q_gfMul hx, q_gfMul hy, mul_assoc])

theorem gpoly_xorB : ∀ (x y : List Byte), x.length = y.length →
    gpoly (xorB x y) = gpoly x + gpoly y
  | [], [], _ => by simp [xorB, gpoly]
  | [], _ :: _, h => by simp at h
  | _ :: _, [], h => by simp at h
  | a :: x, b :: y, h => by
    have ih := gpoly_xorB x y (by simpa using h)
    simp only [xorB, List.zipWith_cons_cons] at ih ⊢
    rw [gpoly, gpoly, gpoly, ih, bpoly_xor]; ring

/-- C28: distributivity over exclusive or. -/
theorem gfMul_distrib (x y z : List Byte) (hx : x.length = 16) (hy : y.length = 16) :
    gfMul (xorB x y) z = xorB (gfMul x z) (gfMul y z) := by
  have hxy : (xorB x y).length = 16 := by rw [xorB_length]; omega
  have h1 := gfMul_length hx z
  have h2 := gfMul_length hy z
  apply eq_of_q (gfMul_length hxy z) (by rw [xorB_length]; omega)
  rw [q_gfMul hxy, gpoly_xorB x y (by omega), gpoly_xorB _ _ (by omega), map_add, map_add, q_gfMul hx,
    q_gfMul hy, add_mul]

-- the block `X` (second bit set) times `X^127` (last bit set) is `X^7+X^2+X+1`
example : gfMul (0x40 :: List.replicate 15 0) (List.replicate 15 0 ++ [1]) =
    0xE1 :: List.replicate 15 0 := by decide +kernel

variable {E : List Byte → List Byte}

/-- C27: in the same context state, decryption of the ciphertext gives the message back and leaves the
context exactly as encryption left it, hence the same tag; in place or not on either side. -/
theorem gcm_roundtrip (hE : ∀ b, b.length = 16 → (E b).length = 16) (g : Gcm) (hg : g.ctr.length = 16)
    (ip1 ip2 : Bool) (msg : List Byte) :
    (gcmEncrypt E ip1 g msg).1.length = msg.length ∧
    gcmDecrypt E ip2 g (gcmEncrypt E ip1 g msg).1 = (msg, (gcmEncrypt E ip1 g msg).2) := by
  unfold gcmEncrypt gcmDecrypt
  dsimp only
  rw [gcmOperate_spec hE ip1 msg hg]
  dsimp only
  rw [gcmOperate_spec hE ip2 _ hg, gctr_length hE hg, gctr_inv hE hg]
  exact ⟨rfl, rfl⟩

/-- C27: a message encrypted in two calls, the first of whole blocks, gives the same ciphertext and
context as in one call. -/
theorem gcmEncrypt_split (hE : ∀ b, b.length = 16 → (E b).length = 16) (g : Gcm) (hg : g.ctr.length = 16)
    (hh : g.hs.length = 16) (ip1 ip2 ip3 : Bool) (m1 m2 : List Byte) (hd : 16 ∣ m1.length) :
    let r1 := gcmEncrypt E ip1 g m1
    let r2 := gcmEncrypt E ip2 r1.2 m2
    gcmEncrypt E ip3 g (m1 ++ m2) = (r1.1 ++ r2.1, r2.2) := by
  dsimp only [gcmEncrypt]
  rw [gcmOperate_spec hE ip1 m1 hg]
  dsimp only
  rw [gcmOperate_spec hE ip2 m2 (gcmIncN_length _ hg), gcmOperate_spec hE ip3 _ hg, gctr_append hE hg _ _ hd,
    gcmHash_append _ _ _ hh (by rw [gctr_length hE hg]; exact hd)]
  have hn : ((m1 ++ m2).length + 15) / 16 = (m1.length + 15) / 16 + (m2.length + 15) / 16 := by
    rw [List.length_append]; omega
  rw [hn, gcmIncN_add, List.length_append, BitVec.ofNat_add, ← BitVec.add_assoc]

/-- C27: associated data in two calls, the first of whole blocks. -/
theorem gcmUpdate_split (g : Gcm) (hh : g.hs.length = 16) (a1 a2 : List Byte) (hd : 16 ∣ a1.length) :
    gcmUpdate g (a1 ++ a2) = gcmUpdate (gcmUpdate g a1) a2 := by
  unfold gcmUpdate
  dsimp only
  rw [gcmHash_append _ _ _ hh hd, List.length_append, BitVec.ofNat_add, ← BitVec.add_assoc]

/-- C27: the contexts of a session keep their lengths, so the theorems above apply to every state
reached from `cry_gcm_iv_set`. -/
theorem gcm_session_wf (hE : ∀ b, b.length = 16 → (E b).length = 16) (g : Gcm) (hg : g.ctr.length = 16)
    (hh : g.hs.length = 16) (ip : Bool) (x : List Byte) :
    ((gcmEncrypt E ip g x).2.ctr.length = 16 ∧ (gcmEncrypt E ip g x).2.hs.length = 16) ∧
    ((gcmDecrypt E ip g x).2.ctr.length = 16 ∧ (gcmDecrypt E ip g x).2.hs.length = 16) ∧
    ((gcmUpdate g x).ctr.length = 16 ∧ (gcmUpdate g x).hs.length = 16) := by
  unfold gcmEncrypt gcmDecrypt gcmUpdate
  dsimp only
  rw [gcmOperate_spec hE ip x hg]
  exact ⟨⟨gcmIncN_length _ hg, gcmHash_length _ _ hh⟩, ⟨gcmIncN_length _ hg, gcmHash_length _ _ hh⟩, hg,
    gcmHash_length _ _ hh⟩

theorem gcmSizes_enc (n : Nat) (hn : 8 * n < 2 ^ 32) :
    List.replicate 4 0#8 ++ write32be ((BitVec.ofNat 64 n <<< 3).setWidth 32) = encodeBE 8 (8 * n) := by
  have h1 : ((BitVec.ofNat 64 n <<< 3).setWidth 32).toNat = 8 * n := by
    rw [BitVec.toNat_setWidth, BitVec.toNat_shiftLeft, BitVec.toNat_ofNat, Nat.shiftLeft_eq]
    omega
  rw [write32be_encode, h1]
  simp only [encodeBE, List.nil_append, List.cons_append]
  have h2 : 8 * n / 256 / 256 / 256 / 256 = 0 := by omega
  rw [h2]
  rfl

theorem gcmHashSizes_spec (H : List Byte) {h : List Byte} (hh : h.length = 16) (a c : Nat)
    (ha : 8 * a < 2 ^ 32) (hc : 8 * c < 2 ^ 32) :
    gcmHashSizes h H (BitVec.ofNat 64 a) (BitVec.ofNat 64 c) =
      ghashFrom H h (cut16 (encodeBE 8 (8 * a) ++ encodeBE 8 (8 * c))) := by
  unfold gcmHashSizes
  rw [List.append_assoc, gcmSizes_enc a ha, gcmSizes_enc c hc, gcmHash_spec H _ hh, pad16_whole]
  rw [List.length_append, encodeBE_length, encodeBE_length]

theorem gcmJ0_spec (g : Gcm) (iv : List Byte) (hiv : 8 * iv.length < 2 ^ 32) :
    (gcmIvSet g iv).iv = gcmJ0 gfMul g.key iv ∧ (gcmIvSet g iv).iv.length = 16 := by
  unfold gcmIvSet gcmJ0
  dsimp only
  split_ifs with h
  · exact ⟨rfl, by rw [List.length_append, h]; rfl⟩
  · have hz : (List.replicate 16 (0 : Byte)).length = 16 := rfl
    have hs := gcmHashSizes_spec g.key (gcmHash_length g.key iv hz) 0 iv.length (by omega) hiv
    have hs' : gcmHashSizes (gcmHash (List.replicate 16 0) g.key iv) g.key 0 (BitVec.ofNat 64 iv.length) =
      _ := hs
    rw [hs', gcmHash_spec _ _ hz, List.append_assoc, (cut16_dvd (pad16_dvd iv) _).1]
    refine ⟨?_, ?_⟩
    · unfold ghash ghashFrom
      rw [List.foldl_append]
      rfl
    · exact ghashFrom_length _ _ (ghashFrom_length _ _ hz (cut16_dvd (pad16_dvd iv) []).2)
        (cut16_dvd (by simp only [List.length_append, encodeBE_length]; decide) []).2

/-- C27: a whole session (key, IV, associated data, message, tag) is the authenticated encryption of
SP 800-38D, for bit lengths below 2^32. -/
theorem gcm_standard (hE : ∀ b, b.length = 16 → (E b).length = 16) (ip : Bool)
    (iv aad msg : List Byte) (hiv : 8 * iv.length < 2 ^ 32) (ha : 8 * aad.length < 2 ^ 32)
    (hm : 8 * msg.length < 2 ^ 32) :
    let g := gcmUpdate (gcmIvSet (gcmKeySet E) iv) aad
    let r := gcmEncrypt E ip g msg
    (∃ g', gcmDigest E r.2 16 = some ((gcmAE gfMul E iv aad msg).2, g')) ∧
      r.1 = (gcmAE gfMul E iv aad msg).1 := by
  obtain ⟨hj, hjl⟩ := gcmJ0_spec (gcmKeySet E) iv hiv
  generalize hG : gcmIvSet (gcmKeySet E) iv = G at *
  intro g r
  have hkey : G.key = E (List.replicate 16 0) := by rw [← hG]; rfl
  have hctr : G.ctr = gcmInc G.iv := by
    rw [← inc32_eq hjl, ← hG]; rfl
  have hcl : G.ctr.length = 16 := by rw [hctr]; exact gcmInc_length hjl
  have hhs : G.hs = List.replicate 16 0 := by rw [← hG]; rfl
  have hal : G.authLen = 0 := by rw [← hG]; rfl
  have hml : G.ciphLen = 0 := by rw [← hG]; rfl
  have hhl : G.hs.length = 16 := by rw [hhs]; rfl
  have hj' : G.iv = gcmJ0 gfMul G.key iv := by rw [hj, ← hG]; rfl
  have hr : r = (gctr E G.ctr msg, { g with
      ctr := gcmIncN ((msg.length + 15) / 16) G.ctr, hs := gcmHash g.hs g.key (gctr E G.ctr msg),
      ciphLen := g.ciphLen + BitVec.ofNat 64 msg.length }) := by
    have : r = gcmEncrypt E ip g msg := rfl
    rw [this]
    unfold gcmEncrypt
    dsimp only
    rw [show g.ctr = G.ctr from rfl, gcmOperate_spec hE ip msg hcl]
  have hAE : (gcmAE gfMul E iv aad msg).1 = gctr E G.ctr msg := by
    unfold gcmAE
    dsimp only
    rw [← hkey, ← hj', ← hctr]
  refine ⟨?_, by rw [hAE, hr]⟩
  unfold gcmDigest
  rw [if_neg (by omega), hr]
  dsimp only
  have e1 : g.hs = gcmHash G.hs G.key aad := rfl
  have e2 : g.authLen = BitVec.ofNat 64 aad.length := by
    have : g.authLen = G.authLen + BitVec.ofNat 64 aad.length := rfl
    rw [this, hal]; exact BitVec.zero_add _
  have e3 : g.ciphLen = 0 := hml
  have e4 : g.key = G.key := rfl
  have hyl := gctr_length hE hcl msg
  have hg1 := gcmHash_length G.key aad hhl
  have hg2 := gcmHash_length G.key (gctr E G.ctr msg) hg1
  have e5 : (0 : BitVec 64) + BitVec.ofNat 64 msg.length = BitVec.ofNat 64 msg.length := BitVec.zero_add _
  rw [e1, e2, e3, e4, e5, gcmHashSizes_spec G.key hg2 _ _ ha hm, gcmHash_spec _ _ hg1, gcmHash_spec _ _ hhl]
  have hS : ghashFrom G.key (ghashFrom G.key (ghashFrom G.key G.hs (cut16 (pad16 aad)))
      (cut16 (pad16 (gctr E G.ctr msg)))) (cut16 (encodeBE 8 (8 * aad.length) ++ encodeBE 8 (8 * msg.length))) =
      ghash gfMul G.key (cut16 (pad16 aad ++ pad16 (gctr E G.ctr msg) ++ encodeBE 8 (8 * aad.length) ++
        encodeBE 8 (8 * msg.length))) := by
    rw [List.append_assoc, List.append_assoc, (cut16_dvd (pad16_dvd aad) _).1,
      (cut16_dvd (pad16_dvd (gctr E G.ctr msg)) _).1]
    unfold ghashFrom ghash
    rw [List.foldl_append, List.foldl_append, hhs]
  rw [hS]
  have htag : mxor ((ghash gfMul G.key (cut16 (pad16 aad ++ pad16 (gctr E G.ctr msg) ++
      encodeBE 8 (8 * aad.length) ++ encodeBE 8 (8 * msg.length)))).take 16) (E g.iv) =
      (gcmAE gfMul E iv aad msg).2 := by
    rw [mxor_eq]
    unfold gcmAE
    dsimp only
    rw [← hkey, ← hj', ← hctr, hyl, xorB_take_left]
    · rw [show g.iv = G.iv from rfl]
    · rw [show g.iv = G.iv from rfl, hE _ hjl]
  rw [htag]
  exact ⟨_, rfl⟩

theorem ghash_any {mul : List Byte → List Byte → List Byte} (hmul : IsGcmMul mul) {H : List Byte}
    (hH : H.length = 16) {xs : List (List Byte)} (hx : Blocks 16 xs) : ghash mul H xs = ghash gfMul H xs := by
  have key : ∀ (xs : List (List Byte)) (y : List Byte), y.length = 16 → Blocks 16 xs →
      xs.foldl (fun y x => mul (xorB y x) H) y = xs.foldl (fun y x => gfMul (xorB y x) H) y := by
    intro xs
    induction xs with
    | nil => intro y _ _; rfl
    | cons x xs ih =>
      intro y hy hx
      have hx1 : x.length = 16 := hx x (List.mem_cons_self ..)
      have hl : (xorB y x).length = 16 := by rw [xorB_length]; omega
      obtain ⟨m1, m2⟩ := hmul _ _ hl hH
      obtain ⟨g1, g2⟩ := gfMul_correct (xorB y x) H hl
      have he : mul (xorB y x) H = gfMul (xorB y x) H := gpoly_injective _ _ m1 g1 (by rw [m2, g2])
      rw [List.foldl_cons, List.foldl_cons, he]
      exact ih _ g1 fun b hb => hx b (List.mem_cons_of_mem _ hb)
  exact key xs _ rfl hx

theorem gcmAE_any {mul : List Byte → List Byte → List Byte} (hmul : IsGcmMul mul)
    (hE : ∀ b, b.length = 16 → (E b).length = 16) (iv aad msg : List Byte) :
    gcmAE mul E iv aad msg = gcmAE gfMul E iv aad msg := by
  have hH : (E (List.replicate 16 0)).length = 16 := hE _ rfl
  have hj : gcmJ0 mul (E (List.replicate 16 0)) iv = gcmJ0 gfMul (E (List.replicate 16 0)) iv := by
    unfold gcmJ0
    split_ifs with h
    · rfl
    · refine ghash_any hmul hH (cut16_dvd ?_ []).2
      simp only [List.length_append, List.length_replicate, encodeBE_length]
      have := pad16_dvd iv
      omega
  unfold gcmAE
  dsimp only
  rw [hj, ghash_any hmul hH (cut16_dvd ?_ []).2]
  simp only [List.length_append, encodeBE_length]
  have h1 := pad16_dvd aad
  have h2 := pad16_dvd (gctr E (gcmInc (gcmJ0 gfMul (E (List.replicate 16 0)) iv)) msg)
  omega

/-- C27: the same for any multiplication `mul` that is the one of the standard, polynomial product
modulo `X^128 + X^7 + X^2 + X + 1`; the statement no longer mentions the multiplication of the code. -/
theorem gcm_standard_any {mul : List Byte → List Byte → List Byte} (hmul : IsGcmMul mul)
    (hE : ∀ b, b.length = 16 → (E b).length = 16) (ip : Bool)
    (iv aad msg : List Byte) (hiv : 8 * iv.length < 2 ^ 32) (ha : 8 * aad.length < 2 ^ 32)
    (hm : 8 * msg.length < 2 ^ 32) :
    let g := gcmUpdate (gcmIvSet (gcmKeySet E) iv) aad
    let r := gcmEncrypt E ip g msg
    (∃ g', gcmDigest E r.2 16 = some ((gcmAE mul E iv aad msg).2, g')) ∧
      r.1 = (gcmAE mul E iv aad msg).1 := by
  rw [gcmAE_any hmul hE]
  exact gcm_standard hE ip iv aad msg hiv ha hm

-- a multiplication meeting the hypothesis exists
example : IsGcmMul gfMul := fun x y hx _ => gfMul_correct x y hx

/-- The bit lengths in the tag are truncated to 32 bits: lengths 2^29 apart give the same length block,
against the standard. -/
theorem gcm_sizes_truncated (h key : List Byte) (a c : BitVec 64) :
    gcmHashSizes h key (a + 0x20000000#64) c = gcmHashSizes h key a c := by
  unfold gcmHashSizes
  have : ((a + 0x20000000#64) <<< 3).setWidth 32 = (a <<< 3).setWidth 32 := by
    apply BitVec.eq_of_toNat_eq
    rw [BitVec.toNat_setWidth, BitVec.toNat_setWidth, BitVec.toNat_shiftLeft, BitVec.toNat_shiftLeft,
      BitVec.toNat_add, BitVec.toNat_ofNat, Nat.shiftLeft_eq, Nat.shiftLeft_eq]
    omega
  rw [this]

-- a session with a toy cipher
def toyG (b : List Byte) : List Byte := (b.map (· * 3 + 1)).reverse
example : ∀ b : List Byte, b.length = 16 → (toyG b).length = 16 := by intro b h; simpa [toyG] using h
example : (gcmDecrypt toyG true (gcmIvSet (gcmKeySet toyG) (List.replicate 12 5))
    (gcmEncrypt toyG false (gcmIvSet (gcmKeySet toyG) (List.replicate 12 5)) [1, 2, 3]).1).1 = [1, 2, 3] := by
  decide +kernel

end Verif.Modes
