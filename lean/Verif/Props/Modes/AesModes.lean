import Verif.Props.Crypt.Aes
import Verif.Props.Crypt.Des
import Verif.Props.Modes.Cbc
import Verif.Props.Modes.Cfb
import Verif.Props.Modes.Ctr
import Verif.Props.Modes.Gcm
import Verif.Props.Modes.Mac
import Verif.Props.Modes.Wrap
/-!
# C66: the modes over the library's own AES and DES contexts

The modes are modelled over a block function.  Here the block function is the one of a keyed AES or DES
context, and the results are the modes of the standards over the ciphers of the standards.  The first
theorem shows that a call through the cipher interface is this block function and leaves the context as it
was, so that nothing is lost by not threading the context through the modes.
-/
namespace Verif.Modes
open Verif.Gf

/-- A keyed AES context whose last use was not decryption: each call of `cry_aes_encrypt` on whole blocks is
the block function of the context applied block by block, the context stays as it is, and the block function
is FIPS 197 under the key. -/
theorem aes_ctx_enc {key : List Byte} (hk : Aes.KeySize key) : ∃ c, Aes.keySet key = some c ∧
    Aes.encBlock c = AesS.encrypt key ∧
    ∀ bs, Blocks 16 bs → Aes.encrypt c bs.flatten = (ecb (Aes.encBlock c) 16 bs.flatten, c) := by
  obtain ⟨c, h1, h2, h3, h4⟩ := Aes.keySet_spec hk
  have he : Aes.encBlock c = AesS.encrypt key := by
    funext b
    rw [Aes.encBlock_spec c _ h4.nr h4.key, h2]; rfl
  refine ⟨c, h1, he, fun bs hb => ?_⟩
  obtain ⟨c', g1, g2⟩ := Aes.encrypt_fips hk bs hb [] (by simp)
  rw [h1] at g1
  obtain rfl := Option.some.inj g1
  rw [List.append_nil] at g2
  rw [g2, he, ecb_flatten (by omega) hb]

/-- The same for decryption: the first call inverts the key schedule, after it the context stays as it is. -/
theorem aes_ctx_dec {key : List Byte} (hk : Aes.KeySize key) : ∃ c d, Aes.keySet key = some c ∧
    Aes.decBlock d = AesS.decrypt key ∧ ∀ bs, Blocks 16 bs →
      Aes.decrypt c bs.flatten = (ecb (Aes.decBlock d) 16 bs.flatten, d) ∧
      Aes.decrypt d bs.flatten = (ecb (Aes.decBlock d) 16 bs.flatten, d) := by
  obtain ⟨c, h1, h2, h3, h4⟩ := Aes.keySet_spec hk
  have hd := Aes.keyInvert_dkey h4
  have he : Aes.decBlock { Aes.keyInvert c with dec := true } = AesS.decrypt key := by
    funext b
    rw [Aes.decBlock_spec { Aes.keyInvert c with dec := true } (AesS.expand (key.length / 4) (AesS.colAt key)) hd.nr
      hd.key]
    show AesS.store (AesS.invCipher c.nr _ _) = _
    rw [h2]; rfl
  refine ⟨c, _, h1, he, fun bs hb => ?_⟩
  obtain ⟨c', d', g1, g2⟩ := Aes.decrypt_fips hk
  rw [h1] at g1
  obtain rfl := Option.some.inj g1
  have g3 := g2 bs hb [] (by simp)
  have hd' : d' = { Aes.keyInvert c with dec := true } := by
    have := congrArg Prod.snd g3.1
    unfold Aes.decrypt at this
    rw [h3] at this
    simpa using this.symm
  subst hd'
  rw [List.append_nil] at g3
  rw [g3.1, g3.2, he, ecb_flatten (by omega) hb]
  exact ⟨rfl, rfl⟩

theorem aesS_length (key b : List Byte) : (AesS.encrypt key b).length = 16 := rfl
theorem aesS_dec_length (key b : List Byte) : (AesS.decrypt key b).length = 16 := rfl

/-- AES-CBC. -/
theorem aes_cbc {key : List Byte} (hk : Aes.KeySize key) (iv : List Byte) (hiv : iv.length = 16)
    (bs : List (List Byte)) (hb : ∀ b ∈ bs, b.length = 16) (hlen : bs.flatten.length < 2 ^ 64) (hne : bs ≠ [])
    (alloc : Bool) : ∃ c d, Aes.keySet key = some c ∧ (∀ b, b.length = 16 → (Aes.decrypt c b).2 = d) ∧
      cbcEncrypt (Aes.encBlock c) 16 iv bs.flatten =
        some ((cbcEnc (AesS.encrypt key) iv bs).flatten, (cbcEnc (AesS.encrypt key) iv bs).getLastD iv) ∧
      cbcDecryptOut (Aes.decBlock d) 16 iv bs.flatten =
        some ((cbcDec (AesS.decrypt key) iv bs).flatten, bs.getLastD iv) ∧
      cbcDecryptIn (Aes.decBlock d) 16 alloc iv bs.flatten =
        some ((cbcDec (AesS.decrypt key) iv bs).flatten, bs.getLastD iv) := by
  obtain ⟨c, h1, he, -⟩ := aes_ctx_enc hk
  obtain ⟨c', d, h1', hd, hd2⟩ := aes_ctx_dec hk
  rw [h1] at h1'
  obtain rfl := Option.some.inj h1'
  refine ⟨c, d, h1, fun b hb => ?_, ?_⟩
  · have := (hd2 [b] (by intro x hx; rw [List.mem_singleton.1 hx]; exact hb)).1
    rw [List.flatten_cons, List.flatten_nil, List.append_nil] at this
    rw [this]
  · rw [he, hd]
    exact cbc_standard (k := 4) (by omega) (fun b _ => aesS_length key b) (fun b _ => aesS_dec_length key b) iv bs
      hiv hb hlen hne alloc

/-- AES-CTR, both variants. -/
theorem aes_ctr {key : List Byte} (hk : Aes.KeySize key) (ctr src junk : List Byte) (hctr : ctr.length = 16)
    (hj : junk.length = 64) : ∃ c, Aes.keySet key = some c ∧
      let r := some (xorB src (ctrStream (AesS.encrypt key) 16 (beVal ctr) ((src.length + 15) / 16)),
        encodeBE 16 (beVal ctr + (src.length + 15) / 16))
      ctrOut (Aes.encBlock c) 16 ctr src = r ∧ ctrIn (Aes.encBlock c) 16 junk ctr src = r := by
  obtain ⟨c, h1, he, -⟩ := aes_ctx_enc hk
  refine ⟨c, h1, ?_⟩
  rw [he]
  exact ⟨ctrOut_standard (by omega) (fun b _ => aesS_length key b) ctr src hctr,
    ctrIn_standard_partial (fun b _ => aesS_length key b) junk ctr src hctr hj⟩

/-- AES-CFB encryption. -/
theorem aes_cfb {key : List Byte} (hk : Aes.KeySize key) (v : List Byte) (hv : v.length = 16)
    (bs : List (List Byte)) (hb : ∀ b ∈ bs, b.length = 16) (tail : List Byte) : ∃ c v', Aes.keySet key = some c ∧
      cfbCrypt (Aes.encBlock c) 16 v bs.flatten tail = some ((cfbEnc (AesS.encrypt key) v bs).flatten, v') := by
  obtain ⟨c, h1, he, -⟩ := aes_ctx_enc hk
  obtain ⟨v', h⟩ := cfbCrypt_standard (E := AesS.encrypt key) (vlen := 16) (by omega) (fun b _ => aesS_length key b) v
    hv bs hb [] tail (by simp) (Or.inl rfl)
  rw [List.append_nil, if_pos rfl] at h
  exact ⟨c, v', h1, by rw [he]; exact h⟩

/-- AES-CFB8: encryption, and one decryption call of the whole text. -/
theorem aes_cfb8 {key : List Byte} (hk : Aes.KeySize key) (v src j1 j2 j3 : List Byte) (hv : v.length = 16)
    (h1 : j1.length = 32) (h2 : j2.length = 32) (h3 : j3.length = 32) : ∃ c v', Aes.keySet key = some c ∧
      cfb8Encrypt (Aes.encBlock c) 16 j1 v src =
        (cfb8Enc (AesS.encrypt key) v src, cfb8Reg v (cfb8Enc (AesS.encrypt key) v src)) ∧
      cfb8Decrypt (Aes.encBlock c) 16 j2 j3 v (cfb8Enc (AesS.encrypt key) v src) = some (src, v') := by
  obtain ⟨c, hc, he, -⟩ := aes_ctx_enc hk
  have e1 := cfb8Encrypt_correct (E := AesS.encrypt key) (vlen := 16) (by omega) (by omega) v src j1 hv h1
  obtain ⟨v', e2⟩ := cfb8_roundtrip (E := AesS.encrypt key) (vlen := 16) (by omega) (by omega)
    (fun b _ => aesS_length key b) v src j1 j2 j3 hv h1 h2 h3
  rw [e1] at e2
  exact ⟨c, v', hc, by rw [he]; exact ⟨e1, e2⟩⟩

/-- AES-GCM, for every multiplication that is the one of GF(2^128). -/
theorem aes_gcm {key : List Byte} (hk : Aes.KeySize key) {mul : List Byte → List Byte → List Byte}
    (hmul : IsGcmMul mul) (ip : Bool) (iv aad msg : List Byte) (hiv : 8 * iv.length < 2 ^ 32)
    (ha : 8 * aad.length < 2 ^ 32) (hm : 8 * msg.length < 2 ^ 32) : ∃ c, Aes.keySet key = some c ∧
    let E := Aes.encBlock c
    let r := gcmEncrypt E ip (gcmUpdate (gcmIvSet (gcmKeySet E) iv) aad) msg
    (∃ g', gcmDigest E r.2 16 = some ((gcmAE mul (AesS.encrypt key) iv aad msg).2, g')) ∧
      r.1 = (gcmAE mul (AesS.encrypt key) iv aad msg).1 := by
  obtain ⟨c, h1, he, -⟩ := aes_ctx_enc hk
  refine ⟨c, h1, ?_⟩
  rw [he]
  exact gcm_standard_any hmul (fun b _ => aesS_length key b) ip iv aad msg hiv ha hm

/-- AES-CMAC of RFC 4493. -/
theorem aes_cmac {key : List Byte} (hk : Aes.KeySize key) (chunks : List (List Byte)) :
    ∃ c, Aes.keySet key = some c ∧
      cmacDigest (Aes.encBlock c) (chunks.foldl (cmacUpdate (Aes.encBlock c)) cmacInit) =
        cmacS (AesS.encrypt key) chunks.flatten := by
  obtain ⟨c, h1, he, -⟩ := aes_ctx_enc hk
  refine ⟨c, h1, ?_⟩
  rw [he]
  exact cmac_correct (fun b _ => aesS_length key b) chunks

/-- AES key wrap of RFC 3394. -/
theorem aes_wrap {key : List Byte} (hk : Aes.KeySize key) (p : List (List Byte)) (hp : ∀ b ∈ p, b.length = 8)
    (hn : p.length ≤ 42) : ∃ c, Aes.keySet key = some c ∧
      aesWrap (Aes.encBlock c) p.flatten = (rfcWrap (AesS.encrypt key) p).flatten := by
  obtain ⟨c, h1, he, -⟩ := aes_ctx_enc hk
  refine ⟨c, h1, ?_⟩
  rw [he]
  exact wrap_standard (fun b _ => aesS_length key b) p hp hn

/-- DES-CBC and triple DES-CBC: the context never changes, so the round trip holds for one context used in
both directions. -/
theorem des_cbc (c : Des.Ctx) (iv : List Byte) (hiv : iv.length = 8) (msg : List Byte) (hlen : msg.length < 2 ^ 64)
    (hwhole : 8 ∣ msg.length) (hne : msg ≠ []) : ∃ y iv',
      cbcEncrypt (Des.encBlock c) 8 iv msg = some (y, iv') ∧ y.length = msg.length ∧
      cbcDecryptOut (Des.decBlock c) 8 iv y = some (msg, iv') ∧
      ∀ alloc, cbcDecryptIn (Des.decBlock c) 8 alloc iv y = some (msg, iv') :=
  cbc_roundtrip_partial (k := 3) (by omega) (fun b _ => Des.encBlock_length c b) (fun b _ => Des.decBlock_length c b)
    (fun b hb => Des.dec_encBlock c b hb) iv msg hiv hlen hwhole hne

/-! Known answers: SP 800-38A F.2.1 and F.5.1, RFC 4493 (empty message), the second test case of GCM. -/
def kaKey : List Byte := [0x2b, 0x7e, 0x15, 0x16, 0x28, 0xae, 0xd2, 0xa6, 0xab, 0xf7, 0x15, 0x88, 0x09, 0xcf, 0x4f, 0x3c]
def kaMsg : List Byte := [0x6b, 0xc1, 0xbe, 0xe2, 0x2e, 0x40, 0x9f, 0x96, 0xe9, 0x3d, 0x7e, 0x11, 0x73, 0x93, 0x17, 0x2a]
example : Aes.KeySize kaKey := by simp [Aes.KeySize, kaKey]
example : (Aes.keySet kaKey).bind (fun c => cbcEncrypt (Aes.encBlock c) 16 ((List.range 16).map (BitVec.ofNat 8)) kaMsg) =
    let y := [0x76, 0x49, 0xab, 0xac, 0x81, 0x19, 0xb2, 0x46, 0xce, 0xe9, 0x8e, 0x9b, 0x12, 0xe9, 0x19, 0x7d]
    some (y, y) := by decide +kernel
example : ((Aes.keySet kaKey).bind fun c =>
    ctrOut (Aes.encBlock c) 16 ((List.range' 0xf0 16).map (BitVec.ofNat 8)) kaMsg).map Prod.fst =
    some [0x87, 0x4d, 0x61, 0x91, 0xb6, 0x20, 0xe3, 0x26, 0x1b, 0xef, 0x68, 0x64, 0x99, 0x0d, 0xb6, 0xce] := by
  decide +kernel
example : (Aes.keySet kaKey).map (fun c => cmacDigest (Aes.encBlock c) cmacInit) =
    some [0xbb, 0x1d, 0x69, 0x29, 0xe9, 0x59, 0x37, 0x28, 0x7f, 0xa3, 0x7d, 0x12, 0x9b, 0x75, 0x67, 0x46] := by
  decide +kernel
example : ((Aes.keySet (List.replicate 16 0)).bind fun c =>
    gcmDigest (Aes.encBlock c) (gcmEncrypt (Aes.encBlock c) false (gcmUpdate (gcmIvSet (gcmKeySet (Aes.encBlock c))
      (List.replicate 12 0)) []) (List.replicate 16 0)).2 16).map Prod.fst =
    some [0xab, 0x6e, 0x47, 0xd4, 0x2c, 0xec, 0x13, 0xbd, 0xf5, 0x3a, 0x67, 0xb2, 0x12, 0x57, 0xbd, 0xdf] := by
  decide +kernel

end Verif.Modes
