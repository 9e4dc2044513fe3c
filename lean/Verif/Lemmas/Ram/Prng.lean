import Verif.Model.Ram.Prng
import Verif.Lemmas.Ram.Hmac
import Verif.Props.Ram.Block
import Verif.Props.Prng.Aes
/-! The AES based generator on memory. -/
namespace Verif.RamPrng
open Verif.Ram Verif.RamHash
open Verif.PrngAes (St)

variable {R : Ram}

theorem enc_length (c : Aes.Ctx) (b : List Byte) : (Aes.encBlock c b).length = 16 := rfl

theorem enc_block (c : Aes.Ctx) {l : List Byte} (h : l.length = 16) :
    Aes.encrypt c l = (Aes.encBlock (Aes.encrypt c []).2 l, (Aes.encrypt c []).2) := by
  unfold Aes.encrypt
  dsimp only
  have := Aes.blockLoop_flatten (Aes.encBlock (if c.dec = true then { Aes.keyInvert c with dec := false } else c)) [l] []
    (by simpa using h) (by simp)
  simp only [List.flatten_cons, List.flatten_nil, List.append_nil, List.map_cons, List.map_nil] at this
  rw [this]

theorem encrypt_eq (c : Aes.Ctx) {d s : Nat} (h1 : R.Owned s 16) (h2 : R.Owned d 16) :
    aesEncrypt c R d s 16 = some (R.put d (Aes.encrypt c (R.bytes s 16)).1, (Aes.encrypt c (R.bytes s 16)).2) := by
  rw [(ram_aes_cipher c R d s 16).1, show 16 / 16 = 1 from rfl, cipher_one h1 h2, enc_block c (bytes_length _ _)]
  rfl

theorem encrypt_len (c : Aes.Ctx) {l : List Byte} (h : l.length = 16) : (Aes.encrypt c l).1.length = 16 := by
  rw [enc_block c h]; rfl

theorem ctrInc_length : ∀ (i : Nat) (l : List Byte), (PrngAes.ctrInc i l).length = l.length
  | 0, _ => rfl
  | i + 1, l => by
    rw [PrngAes.ctrInc]
    split
    · rw [ctrInc_length i, List.length_modify]
    · rw [List.length_modify]

theorem ctrInc_put {ctr : Nat} (ho : R.Owned ctr 16) : ∀ (i : Nat) (l : List Byte), l.length = 16 → i ≤ 16 →
    ctrInc ctr i (R.put ctr l) = some (R.put ctr (PrngAes.ctrInc i l))
  | 0, l, _, _ => rfl
  | i + 1, l, hl, hi => by
    have hm : l.modify i (· + 1) = l.set i (l[i]'(by omega) + 1) := by
      rw [List.modify_eq_set_getElem?, List.getElem?_eq_getElem (by omega)]
      rfl
    have hg : (l.set i (l[i]'(by omega) + 1))[i]? = some (l[i]'(by omega) + 1) := by
      rw [List.getElem?_set_self (by omega)]
    rw [ctrInc, load_eq (by ownof ho), Option.bind_some, store_eq (by ownof ho), Option.bind_some, put_mem_in (by omega),
      put_put_at _ (by omega), PrngAes.ctrInc]
    rw [hm, hg]
    by_cases h0 : l[i]'(by omega) + 1 = 0
    · rw [if_pos h0, if_pos (by rw [h0]), ctrInc_put ho i _ (by rw [List.length_set, hl]) (by omega)]
    · rw [if_neg h0, if_neg (by simpa using h0)]

theorem ctrInc_eq {ctr : Nat} (ho : R.Owned ctr 16) :
    ctrInc ctr 16 R = some (R.put ctr (PrngAes.ctrInc 16 (R.bytes ctr 16))) := by
  conv_lhs => rw [← put_bytes (R := R) ctr 16]
  exact ctrInc_put ho 16 _ (bytes_length _ _) le_rfl

theorem residual_eq {lo : Nat} : ∀ (siz : Nat) (R : Ram) (s : St) (buf : Nat), R.Owned lo 16 → R.Owned buf siz →
    Apart lo 16 buf siz → R.bytes lo 16 = s.lo → s.ix < 16 →
    residual lo siz R s.ix buf = some (R.put buf (PrngAes.residual s siz).1, (PrngAes.residual s siz).2.1.ix,
      buf + (PrngAes.residual s siz).1.length, (PrngAes.residual s siz).2.2) ∧
    (PrngAes.residual s siz).1.length + (PrngAes.residual s siz).2.2 = siz ∧
    (PrngAes.residual s siz).2.1 = { s with ix := (PrngAes.residual s siz).2.1.ix } ∧ (PrngAes.residual s siz).2.1.ix < 16
  | 0, R, s, buf, _, _, _, _, h => by simp [residual, PrngAes.residual, h]
  | siz + 1, R, s, buf, h1, h2, h3, h4, h5 => by
    rw [residual, PrngAes.residual]
    by_cases h0 : s.ix ≠ 0
    · rw [if_pos h0, if_pos h0, if_pos h5, load_eq (by ownof h1), Option.bind_some, store_eq (by ownof h2), Option.bind_some]
      have hx : s.lo.getD s.ix 0 = R.mem (lo + s.ix) := by
        rw [← h4, List.getD_eq_getElem?_getD, bytes_get, if_pos h5]; rfl
      have ha : Apart buf [R.mem (lo + s.ix)].length lo 16 := by rw [List.length_singleton]; apof h3
      obtain ⟨e1, e2, e3, e4⟩ := residual_eq (lo := lo) siz (R.put buf [R.mem (lo + s.ix)]) { s with ix := (s.ix + 1) % 16 } (buf + 1)
        (by ownof h1) (by ownof h2) (by apof h3)
        (by rw [bytes_put_apart ha]; exact h4) (Nat.mod_lt _ (by omega))
      dsimp only at e1 e2 e3 e4 ⊢
      generalize PrngAes.residual { s with ix := (s.ix + 1) % 16 } siz = r at *
      refine ⟨?_, by rw [List.length_cons]; omega, e3, e4⟩
      rw [e1, hx]
      have := put_append (R := R) buf [R.mem (lo + s.ix)] r.1
      rw [List.singleton_append, List.length_singleton] at this
      rw [this, List.length_cons, Nat.add_assoc buf 1, Nat.add_comm 1 r.1.length]
    · rw [if_neg h0, if_neg h0]
      refine ⟨by simp, by simp, rfl, h5⟩

theorem blocks_length : ∀ (n : Nat) (s : St), s.ctr.length = 16 → (PrngAes.blocks s n).1.length = 16 * n ∧
    (PrngAes.blocks s n).2.ctr.length = 16
  | 0, s, h => ⟨rfl, h⟩
  | n + 1, s, h => by
    obtain ⟨h1, h2⟩ := blocks_length n { s with aes := (Aes.encrypt s.aes s.ctr).2, ctr := PrngAes.ctrInc 16 s.ctr }
      (by show (PrngAes.ctrInc 16 s.ctr).length = 16; rw [ctrInc_length, h])
    rw [PrngAes.blocks]
    dsimp only
    exact ⟨by rw [List.length_append, h1, encrypt_len _ h]; omega, h2⟩

theorem blocks_eq {ctr : Nat} : ∀ (n : Nat) (R : Ram) (s : St) (buf : Nat), R.Owned ctr 16 → R.Owned buf (16 * n) →
    Apart ctr 16 buf (16 * n) → R.bytes ctr 16 = s.ctr →
    blocks ctr n R s.aes buf = some ((R.put buf (PrngAes.blocks s n).1).put ctr (PrngAes.blocks s n).2.ctr,
      (PrngAes.blocks s n).2.aes) ∧ (PrngAes.blocks s n).2.ix = s.ix ∧ (PrngAes.blocks s n).2.lo = s.lo
  | 0, R, s, buf, _, _, _, h => by
    refine ⟨?_, rfl, rfl⟩
    show some (R, s.aes) = some ((R.put buf []).put ctr s.ctr, s.aes)
    rw [put_nil, ← h, put_bytes]
  | n + 1, R, s, buf, h1, h2, h3, h4 => by
    have hl : s.ctr.length = 16 := by rw [← h4, bytes_length]
    have he := encrypt_len s.aes hl
    have hc : (PrngAes.ctrInc 16 s.ctr).length = 16 := by rw [ctrInc_length, hl]
    rw [blocks, PrngAes.blocks]
    dsimp only
    rw [encrypt_eq s.aes h1 (by ownof h2), Option.bind_some, h4]
    dsimp only
    rw [ctrInc_eq (by ownof h1), Option.bind_some, bytes_put_apart (by rw [he]; apof h3), h4]
    obtain ⟨e, i1, i2⟩ := blocks_eq n ((R.put buf (Aes.encrypt s.aes s.ctr).1).put ctr (PrngAes.ctrInc 16 s.ctr))
      { s with aes := (Aes.encrypt s.aes s.ctr).2, ctr := PrngAes.ctrInc 16 s.ctr } (buf + 16) (by ownof h1) (by ownof h2)
      (by apof h3) (bytes_put_same hc)
    obtain ⟨l1, l2⟩ := blocks_length n { s with aes := (Aes.encrypt s.aes s.ctr).2, ctr := PrngAes.ctrInc 16 s.ctr } hc
    dsimp only at e
    rw [e]
    refine ⟨?_, i1, i2⟩
    generalize PrngAes.blocks { s with aes := (Aes.encrypt s.aes s.ctr).2, ctr := PrngAes.ctrInc 16 s.ctr } n = r at *
    rw [put_comm (a := ctr) (b := buf + 16) (by rw [hc, l1]; apof h3), put_put_same (by rw [hc, l2]), put_append, he]

theorem copyDown_eq {lo buf : Nat} : ∀ (n : Nat) (R : Ram), R.Owned lo n → R.Owned buf n → Apart lo n buf n →
    copyDown lo buf n R = some (R.put buf (R.bytes lo n))
  | 0, R, _, _, _ => by simp [copyDown]
  | n + 1, R, h1, h2, h3 => by
    rw [copyDown, load_eq (by ownof h1), Option.bind_some, store_eq (by ownof h2), Option.bind_some,
      copyDown_eq n _ (by ownof h1) (by ownof h2) (by apof h3), bytes_put_apart (by rw [List.length_singleton]; apof h3),
      bytes_add, put_append, bytes_length,
      put_comm (a := buf + n) (b := buf) (by rw [List.length_singleton, bytes_length]; unfold Apart; omega)]
    rfl

/-- The arrays and the rest of the context are the state of the list model. -/
structure Holds (A : Arrays) (R : Ram) (g : Rest) (s : St) : Prop where
  aes : g.aes = s.aes
  ix : g.ix = s.ix
  ctr : R.bytes A.ctr 16 = s.ctr
  lo : R.bytes A.lo 16 = s.lo
  lt : s.ix < 16

theorem rand_holds {A : Arrays} {g : Rest} {s : St} {buf siz : Nat} (h : Holds A R g s) (oc : R.Owned A.ctr 16)
    (ol : R.Owned A.lo 16) (ob : R.Owned buf siz) (acl : Apart A.ctr 16 A.lo 16) (acb : Apart A.ctr 16 buf siz)
    (alb : Apart A.lo 16 buf siz) :
    ∃ R' g', rand A R g buf siz = some (R', g') ∧ Holds A R' g' (PrngAes.rand s siz).2 ∧
      (PrngAes.rand s siz).1.length = siz ∧ R'.bytes buf siz = (PrngAes.rand s siz).1 ∧
      Wrote R R' [] [(buf, siz), (A.ctr, 16), (A.lo, 16)] := by
  obtain ⟨e1, l1, s1, x1⟩ := residual_eq siz R s buf ol ob alb h.lo h.lt
  unfold rand PrngAes.rand
  rw [h.ix, e1, Option.bind_some]
  generalize PrngAes.residual s siz = r at *
  obtain ⟨o1, t, m⟩ := r
  dsimp only at *
  have ht1 : t.ctr = s.ctr := by rw [s1]
  have ht2 : t.lo = s.lo := by rw [s1]
  have ht3 : t.aes = s.aes := by rw [s1]
  have hct : (R.put buf o1).bytes A.ctr 16 = t.ctr := by rw [bytes_put_apart (by apof acb), h.ctr, ht1]
  have hcl : t.ctr.length = 16 := by rw [← hct, bytes_length]
  obtain ⟨e2, i2, j2⟩ := blocks_eq (m / 16) (R.put buf o1) t (buf + o1.length) (by ownof oc) (by ownof ob) (by apof acb) hct
  obtain ⟨l2, k2⟩ := blocks_length (m / 16) t hcl
  rw [h.aes, ← ht3, e2, Option.bind_some]
  generalize PrngAes.blocks t (m / 16) = r at *
  obtain ⟨o2, u⟩ := r
  dsimp only at *
  rw [← put_append]
  have l12 : (o1 ++ o2).length = o1.length + 16 * (m / 16) := by rw [List.length_append, l2]
  have w2 : Wrote R ((R.put buf (o1 ++ o2)).put A.ctr u.ctr) [] [(buf, siz), (A.ctr, 16), (A.lo, 16)] :=
    RamHash.wrote_put _ _ k2 (by simp) (wrote_put_in (b := buf) (n := siz) _ _ le_rfl (by omega) (by simp) (wrote_refl _ _))
  have lo2 : ((R.put buf (o1 ++ o2)).put A.ctr u.ctr).bytes A.lo 16 = u.lo := by
    rw [bytes_put_apart (by rw [k2]; exact acl), bytes_put_apart (by rw [l12]; apof alb), h.lo, j2, ht2]
  have ct2 : ((R.put buf (o1 ++ o2)).put A.ctr u.ctr).bytes A.ctr 16 = u.ctr := bytes_put_same k2
  have bf2 : ((R.put buf (o1 ++ o2)).put A.ctr u.ctr).bytes buf (o1 ++ o2).length = o1 ++ o2 := by
    rw [bytes_put_apart (by rw [k2, l12]; apof acb), bytes_put_same rfl]
  generalize (R.put buf (o1 ++ o2)).put A.ctr u.ctr = R2 at *
  by_cases h0 : m % 16 ≠ 0
  · rw [if_pos h0, if_pos h0]
    have oc2 := owned_same w2.own oc
    have ol2 := owned_same w2.own ol
    have ob2 := owned_same w2.own ob
    rw [encrypt_eq u.aes oc2 ol2, Option.bind_some]
    dsimp only
    rw [ct2]
    have he : (Aes.encrypt u.aes u.ctr).1.length = 16 := encrypt_len _ k2
    have hc : (PrngAes.ctrInc 16 u.ctr).length = 16 := by rw [ctrInc_length, k2]
    rw [ctrInc_eq (by ownof oc2), Option.bind_some, bytes_put_apart (by rw [he]; apof acl), ct2,
      copyDown_eq (m % 16) _ (by ownof ol2) (by ownof ob2) (by apof alb), Option.map_some]
    generalize hS : (R2.put A.lo (Aes.encrypt u.aes u.ctr).1).put A.ctr (PrngAes.ctrInc 16 u.ctr) = S
    have loS : S.bytes A.lo 16 = (Aes.encrypt u.aes u.ctr).1 := by
      rw [← hS, bytes_put_apart (by rw [hc]; apof acl), bytes_put_same he]
    have ctS : S.bytes A.ctr 16 = PrngAes.ctrInc 16 u.ctr := by rw [← hS, bytes_put_same hc]
    have bfS : S.bytes buf (o1 ++ o2).length = o1 ++ o2 := by
      rw [← hS, bytes_put_apart (by rw [hc, l12]; apof acb), bytes_put_apart (by rw [he, l12]; apof alb), bf2]
    have wS : Wrote R S [] [(buf, siz), (A.ctr, 16), (A.lo, 16)] := by
      rw [← hS]
      exact RamHash.wrote_put _ _ hc (by simp) (RamHash.wrote_put _ _ he (by simp) w2)
    have loT : S.bytes A.lo (m % 16) = (Aes.encrypt u.aes u.ctr).1.take (m % 16) := bytes_take loS (by omega)
    have ll : ((Aes.encrypt u.aes u.ctr).1.take (m % 16)).length = m % 16 := by rw [List.length_take, he]; omega
    rw [loT]
    refine ⟨_, _, rfl, ⟨rfl, rfl, ?_, ?_, Nat.mod_lt _ (by omega)⟩, ?_, ?_, ?_⟩
    · rw [bytes_put_apart (by rw [ll]; apof acb), ctS]
    · rw [bytes_put_apart (by rw [ll]; apof alb), loS]
    · rw [List.length_append, l12, ll]; omega
    · have : siz = (o1 ++ o2).length + m % 16 := by omega
      rw [this, bytes_add, bytes_put_apart (by rw [ll]; unfold Apart; omega), bfS, l12, ← Nat.add_assoc, bytes_put_same ll]
    · exact wrote_put_in (b := buf) (n := siz) _ _ (by omega) (by rw [ll]; omega) (by simp) wS
  · rw [if_neg h0, if_neg h0]
    have : (o1 ++ o2).length = siz := by omega
    exact ⟨R2, _, rfl, ⟨rfl, i2.symm, ct2, lo2, by rw [i2]; exact x1⟩, this, by rw [← this]; exact bf2, w2⟩

end Verif.RamPrng
