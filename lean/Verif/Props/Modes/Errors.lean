import Verif.Lemmas.Modes.Errors
import Verif.Props.Modes.Cfb
import Verif.Props.Modes.Ctr
import Verif.Props.Modes.Gcm
import Verif.Props.Crypt.Arc4
import Verif.Props.Crypt.Trivium
/-!
# C109: how errors in a ciphertext spread

The full statement: a changed block of a CBC ciphertext changes the block and the same bits of the next, and nothing else; CFB8
recovers after as many good bytes as its register has, whatever happened before; CTR, GCM, ARC4 and Trivium change exactly the bits that were changed;
a changed block of a CFB ciphertext changes the same bits of the block and the next block, and nothing else.  The last is false
(`cfb_error_spreads`): all blocks that follow are changed.
-/
namespace Verif.Modes
variable {E D : List Byte → List Byte} {vlen c : Nat}

/-- C109: CBC, out of place and in place, with and without its buffer. -/
theorem cbc_error {k : Nat} (hk : k ≤ 4) (hD : ∀ b, b.length = 2 ^ k → (D b).length = 2 ^ k) (alloc : Bool) (iv pre y y' z post : List Byte)
    (hiv : iv.length = 2 ^ k) (hpre : 2 ^ k ∣ pre.length) (hpost : 2 ^ k ∣ post.length) (hy : y.length = 2 ^ k) (hy' : y'.length = 2 ^ k) (hz : z.length = 2 ^ k)
    (hlen : (pre ++ (y ++ (z ++ post))).length < 2 ^ 64) :
    ∃ p u u' w q v v', p.length = pre.length ∧ u.length = 2 ^ k ∧ u'.length = 2 ^ k ∧ w.length = 2 ^ k ∧
      cbcDecryptOut D (2 ^ k) iv (pre ++ (y ++ (z ++ post))) = some (p ++ (u ++ (w ++ q)), v) ∧
      cbcDecryptOut D (2 ^ k) iv (pre ++ (y' ++ (z ++ post))) = some (p ++ (u' ++ (xorB w (xorB y y') ++ q)), v') ∧
      cbcDecryptIn D (2 ^ k) alloc iv (pre ++ (y ++ (z ++ post))) = some (p ++ (u ++ (w ++ q)), v) ∧
      cbcDecryptIn D (2 ^ k) alloc iv (pre ++ (y' ++ (z ++ post))) = some (p ++ (u' ++ (xorB w (xorB y y') ++ q)), v') := by
  obtain ⟨as, ha, rfl⟩ := exists_blocks hpre
  obtain ⟨bs, hb, rfl⟩ := exists_blocks hpost
  have hlast := getLastD_length ha hiv
  have all : ∀ x : List Byte, x.length = 2 ^ k → ∀ al : Bool,
      cbcDecryptOut D (2 ^ k) iv (as.flatten ++ (x ++ (z ++ bs.flatten))) =
        some ((cbcDec D iv as).flatten ++ (xorB (D x) (as.getLastD iv) ++ (xorB (D z) x ++ (cbcDec D z bs).flatten)), bs.getLastD z) ∧
      cbcDecryptIn D (2 ^ k) al iv (as.flatten ++ (x ++ (z ++ bs.flatten))) =
        some ((cbcDec D iv as).flatten ++ (xorB (D x) (as.getLastD iv) ++ (xorB (D z) x ++ (cbcDec D z bs).flatten)), bs.getLastD z) := by
    intro x hx al
    have hB : Blocks (2 ^ k) (as ++ x :: z :: bs) := ha.append (Blocks.mk hx (Blocks.mk hz hb))
    have e : as.flatten ++ (x ++ (z ++ bs.flatten)) = (as ++ x :: z :: bs).flatten := by simp
    have hl : (as ++ x :: z :: bs).flatten.length < 2 ^ 64 := by
      rw [← e]; simp only [List.length_append, hx, hy] at hlen ⊢; exact hlen
    have hd : (cbcDec D iv (as ++ x :: z :: bs)).flatten =
        (cbcDec D iv as).flatten ++ (xorB (D x) (as.getLastD iv) ++ (xorB (D z) x ++ (cbcDec D z bs).flatten)) := by
      rw [cbcDec_append, cbcDec, cbcDec, List.flatten_append, List.flatten_cons, List.flatten_cons]
    have hg : (as ++ x :: z :: bs).getLastD iv = bs.getLastD z := by
      rw [List.getLastD_eq_getLast?, List.getLast?_append, List.getLastD_eq_getLast?]; cases bs <;> simp [List.getLast?_cons]
    rw [e, cbcDecryptOut_spec (by omega) hD hiv hB (by simp) hl, cbcDecryptIn_blocks hk hD al hiv hB (by simp) hl, hd, hg]
    exact ⟨rfl, rfl⟩
  have hm : xorB (D z) y' = xorB (xorB (D z) y) (xorB y y') := (xorB_mid _ _ _ (by rw [hD z hz, hy])).symm
  refine ⟨(cbcDec D iv as).flatten, xorB (D y) (as.getLastD iv), xorB (D y') (as.getLastD iv), xorB (D z) y, (cbcDec D z bs).flatten, _, _,
    ?_, ?_, ?_, ?_, (all y hy alloc).1, hm ▸ (all y' hy' alloc).1, (all y hy alloc).2, hm ▸ (all y' hy' alloc).2⟩
  · obtain ⟨i1, i2⟩ := cbcDec_whole hD as iv hiv ha
    rw [i1.length, ha.length, i2]
  · rw [xorB_length, hD y hy, hlast]; omega
  · rw [xorB_length, hD y' hy', hlast]; omega
  · rw [xorB_length, hD z hz, hy]; omega

/-- C109: CFB8.  Whatever the receiver got before (`r`: bytes may be lost, added or changed), with whatever register it began, of a following
part of a ciphertext it gets everything right but the first `vlen` bytes. -/
theorem cfb8_resync (hv : 0 < vlen) (hv16 : vlen ≤ 16) (hE : ∀ b, b.length = vlen → (E b).length = vlen) (v v' m1 m2 r junk j1 j2 : List Byte)
    (hvl : v.length = vlen) (hvl' : v'.length = vlen) (hj : junk.length = 32) (h1 : j1.length = 32) (h2 : j2.length = 32) :
    ∃ y1 y2 w, cfb8Encrypt E vlen junk v (m1 ++ m2) = (y1 ++ y2, w) ∧ y1.length = m1.length ∧
      ∃ d1 d2 w', cfb8Decrypt E vlen j1 j2 v' (r ++ y2) = some (d1 ++ d2, w') ∧ d1.length = r.length ∧ d2.length = m2.length ∧ d2.drop vlen = m2.drop vlen := by
  have hne : v ≠ [] := by rintro rfl; simp at hvl; omega
  have hne' : v' ≠ [] := by rintro rfl; simp at hvl'; omega
  have hdec : ∀ src, ∃ w', cfb8Decrypt E vlen j1 j2 v' src = some (cfb8Dec E v' src, w') := by
    intro src
    by_cases h : src = [] ∨ vlen ≤ src.length
    · exact ⟨_, cfb8Decrypt_correct_partial hv hv16 hE v' src j1 j2 hvl' h1 h2 h⟩
    · exact ⟨_, cfb8Decrypt_short hv16 hE v' src j1 j2 hvl' h1 h2 (by rcases src with _ | _ <;> simp_all) (by omega)⟩
  refine ⟨cfb8Enc E v m1, cfb8Enc E (cfb8Reg v (cfb8Enc E v m1)) m2, _, by rw [cfb8Encrypt_correct hv hv16 v _ junk hvl hj, cfb8Enc_append _ _ _ hne], cfb8Enc_length _ _, ?_⟩
  generalize hy : cfb8Enc E (cfb8Reg v (cfb8Enc E v m1)) m2 = y2
  have hyl : y2.length = m2.length := by rw [← hy, cfb8Enc_length]
  obtain ⟨w', hw⟩ := hdec (r ++ y2)
  refine ⟨cfb8Dec E v' r, cfb8Dec E (cfb8Reg v' r) y2, w', by rw [hw, cfb8Dec_append _ _ _ hne'], cfb8Dec_length _ _, by rw [cfb8Dec_length, hyl], ?_⟩
  have hok : cfb8Dec E (cfb8Reg v (cfb8Enc E v m1)) y2 = m2 := by rw [← hy]; exact cfb8Dec_enc _ _
  rw [← hok]
  have key : ∀ u : List Byte, u.length = vlen → (cfb8Dec E u y2).drop vlen = cfb8Dec E (cfb8Reg u (y2.take vlen)) (y2.drop vlen) := by
    intro u hu
    have hun : u ≠ [] := by rintro rfl; simp at hu; omega
    by_cases hs : y2.length ≤ vlen
    · rw [List.drop_eq_nil_of_le (by rw [cfb8Dec_length]; exact hs), List.drop_eq_nil_of_le hs]; rfl
    · conv_lhs => rw [← List.take_append_drop vlen y2, cfb8Dec_append _ _ _ hun]
      exact List.drop_left' (by rw [cfb8Dec_length, List.length_take]; omega)
  rw [key _ (by rw [cfb8Reg_length, hvl']), key _ (by rw [cfb8Reg_length, hvl])]
  by_cases hs : y2.length ≤ vlen
  · rw [List.drop_eq_nil_of_le hs]; rfl
  · have ht : (y2.take vlen).length = vlen := by rw [List.length_take]; omega
    have hreg : ∀ u : List Byte, u.length = vlen → cfb8Reg u (y2.take vlen) = y2.take vlen := by
      intro u hu
      unfold cfb8Reg
      rw [ht, ← hu, List.drop_left]
    rw [hreg _ (by rw [cfb8Reg_length, hvl']), hreg _ (by rw [cfb8Reg_length, hvl])]

/-- C109: CTR, with buffers apart. -/
theorem ctr_error (hc : 2 ≤ c) (hE : ∀ b, b.length = c → (E b).length = c) (ctr src e : List Byte) (hctr : ctr.length = c) (he : e.length = src.length) :
    ∃ p v, ctrOut E c ctr src = some (p, v) ∧ ctrOut E c ctr (xorB src e) = some (xorB p e, v) := by
  have hl : (xorB src e).length = src.length := by rw [xorB_length]; omega
  exact ⟨_, _, ctrOut_standard hc hE ctr src hctr, by rw [ctrOut_standard hc hE ctr _ hctr, hl, xorB_right_comm]⟩

/-- C109: CTR in place. -/
theorem ctr_error_in (hE : ∀ b, b.length = 16 → (E b).length = 16) (junk ctr src e : List Byte) (hctr : ctr.length = 16) (hj : junk.length = 64) (he : e.length = src.length) :
    ∃ p v, ctrIn E 16 junk ctr src = some (p, v) ∧ ctrIn E 16 junk ctr (xorB src e) = some (xorB p e, v) := by
  rw [ctr_in_eq_out_partial hE _ _ _ hctr hj, ctr_in_eq_out_partial hE _ _ _ hctr hj]
  exact ctr_error (by omega) hE ctr src e hctr he

/-- C109: GCM, apart from the tag. -/
theorem gcm_error (hE : ∀ b, b.length = 16 → (E b).length = 16) (g : Gcm) (hg : g.ctr.length = 16) (ip : Bool) (src e : List Byte) (he : e.length = src.length) :
    (gcmDecrypt E ip g (xorB src e)).1 = xorB (gcmDecrypt E ip g src).1 e := by
  have hl : (xorB src e).length = src.length := by rw [xorB_length]; omega
  unfold gcmDecrypt
  dsimp only
  rw [gcmOperate_spec hE ip _ hg, gcmOperate_spec hE ip _ hg]
  unfold gctr
  rw [hl, xorB_right_comm]

/-- C109, where it fails: in CFB, with a cipher that is one-to-one, all blocks from the changed one on are changed. -/
theorem cfb_error_spreads (hv : 0 < vlen) (hE : ∀ b, b.length = vlen → (E b).length = vlen) (hinj : ∀ a b, a.length = vlen → b.length = vlen → E a = E b → a = b)
    (v y y' tail : List Byte) (hvl : v.length = vlen) (pre post : List (List Byte)) (hpre : ∀ b ∈ pre, b.length = vlen) (hpost : ∀ b ∈ post, b.length = vlen)
    (hy : y.length = vlen) (hy' : y'.length = vlen) (hne : y ≠ y') :
    ∃ (p q q' : List (List Byte)) (v1 v2 : List Byte), p.length = pre.length ∧ (∀ b ∈ q, b.length = vlen) ∧ (∀ b ∈ q', b.length = vlen) ∧
      cfbCrypt E vlen v (pre ++ y :: post).flatten tail = some ((p ++ q).flatten, v1) ∧
      cfbCrypt E vlen v (pre ++ y' :: post).flatten tail = some ((p ++ q').flatten, v2) ∧
      q.length = post.length + 1 ∧ q'.length = post.length + 1 ∧ ∀ i, i ≤ post.length → q[i]? ≠ q'[i]? := by
  obtain ⟨p1, p2⟩ := cfbEnc_whole hE pre v hvl hpre
  have hg := getLastD_length p1 hvl
  generalize hG : (cfbEnc E v pre).getLastD v = g at hg
  have run : ∀ x : List Byte, x.length = vlen → ∃ v1, cfbCrypt E vlen v (pre ++ x :: post).flatten tail =
      some ((cfbEnc E v pre ++ cfbEnc E g (x :: post)).flatten, v1) := by
    intro x hx
    have hB : Blocks vlen (pre ++ x :: post) := Blocks.append hpre (Blocks.mk hx hpost)
    have h := cfbLoop_spec hv hE tail (pre ++ x :: post) ((pre ++ x :: post).flatten.length + 1) v [] hvl hB (by simpa using hv)
      (by rw [Blocks.length hB]; have := Nat.le_mul_of_pos_right (pre ++ x :: post).length hv; omega)
    rw [List.append_nil, if_pos rfl, cfbEnc_app, hG] at h
    exact ⟨_, h⟩
  have l : ∀ x : List Byte, x.length = vlen → (xorB x (E g)).length = vlen := fun x hx => by rw [xorB_length, hE g hg, hx, min_self]
  have hx : xorB y (E g) ≠ xorB y' (E g) := fun e => hne (xorB_left_cancel (a := E g) (by rw [hE g hg, hy]) (by rw [hE g hg, hy']) (by rwa [xorB_comm, xorB_comm (E g)]))
  obtain ⟨v1, r1⟩ := run y hy
  obtain ⟨v2, r2⟩ := run y' hy'
  obtain ⟨q1, q2⟩ := cfbEnc_whole hE (y :: post) g hg (Blocks.mk hy hpost)
  obtain ⟨q3, q4⟩ := cfbEnc_whole hE (y' :: post) g hg (Blocks.mk hy' hpost)
  refine ⟨_, _, _, v1, v2, p2, q1, q3, r1, r2, q2, q4, fun i hi => ?_⟩
  cases i with
  | zero => simpa [cfbEnc] using hx
  | succ i => simpa [cfbEnc] using cfbEnc_apart hE hinj post _ _ (l y hy) (l y' hy') hx hpost i (by omega)

theorem toyD_length (b : List Byte) : (toyD b).length = b.length := by simp [toyD]
theorem toyE_length (b : List Byte) : (toyE b).length = b.length := by simp [toyE]

/-- Blocks of one byte: the second of four is changed by 0x10. -/
example : cbcDecryptOut toyD 1 [7] [1, 2, 3, 4] = some ([249, 254, 2, 2], [4]) ∧ cbcDecryptOut toyD 1 [7] [1, 0x12, 3, 4] = some ([249, 14, 18, 2], [4]) := by decide +kernel

example := cbc_error (D := toyD) (k := 3) (by omega) (fun b h => (toyD_length b).trans h) false (List.replicate 8 7) (List.replicate 8 1) (List.replicate 8 2) (List.replicate 8 0x12)
  (List.replicate 8 3) (List.replicate 16 4) (by simp) (by simp) (by simp) (by simp) (by simp) (by simp) (by simp)

/-- A register of two bytes, three bytes of ciphertext lost. -/
example : cfb8Encrypt toyE 2 (List.replicate 32 0) [7, 7] [1, 2, 3, 4, 5, 6, 7, 8] = ([11, 12, 12, 11, 11, 8, 12, 7], [12, 7]) ∧
    cfb8Decrypt toyE 2 (List.replicate 32 0) (List.replicate 32 0) [7, 7] [11, 11, 8, 12, 7] = some ([1, 5, 6, 7, 8], [12, 7]) := by decide +kernel

example : ctrOut toyE 8 [0, 0, 0, 0, 0, 0, 0, 1] [1, 2, 3] = some ([5, 1, 0], [0, 0, 0, 0, 0, 0, 0, 2]) ∧
    ctrOut toyE 8 [0, 0, 0, 0, 0, 0, 0, 1] [1, 0x82, 3] = some ([5, 0x81, 0], [0, 0, 0, 0, 0, 0, 0, 2]) := by decide +kernel

/-- All blocks that follow are changed. -/
example : cfbCrypt toyE 1 [7] [1, 2, 3, 4, 5] [] = some ([11, 12, 12, 11, 11], [11]) ∧ cfbCrypt toyE 1 [7] [1, 0x12, 3, 4, 5] [] = some ([11, 28, 28, 27, 27], [27]) := by decide +kernel

end Verif.Modes

namespace Verif
open Verif.Modes (xorB xorB_length xorB_right_comm)

/-- C109: ARC4. -/
theorem Arc4.arc4_error : ∀ (src e : List Byte) (c : Arc4.Ctx), e.length = src.length → Arc4.crypt c (xorB src e) = (xorB (Arc4.crypt c src).1 e, (Arc4.crypt c src).2)
  | [], [], _, _ => rfl
  | x :: src, y :: e, c, h => by
    show Arc4.crypt c ((x ^^^ y) :: xorB src e) = _
    rw [Arc4.crypt, Arc4.crypt]
    simp only [Arc4.arc4_error src e _ (by simpa using h)]
    refine Prod.ext ?_ rfl
    show _ :: _ = (_ ^^^ y) :: _
    congr 1
    rw [BitVec.xor_assoc, BitVec.xor_comm y, ← BitVec.xor_assoc]

/-- C109: Trivium. -/
theorem Trivium.trivium_error (c : Trivium.Ctx) (src e : List Byte) (he : e.length = src.length) : (Trivium.crypt c (xorB src e)).1 = xorB (Trivium.crypt c src).1 e := by
  have hl : (xorB src e).length = src.length := by rw [xorB_length]; omega
  rw [(Trivium.crypt_eq _ _).1, (Trivium.crypt_eq _ _).1, hl]
  exact xorB_right_comm _ _ _

example : (Arc4.keySet [1, 2, 3]).map (fun c => ((Arc4.crypt c [0x10, 0x20, 0x30]).1, (Arc4.crypt c [0x10, 0x21, 0x30]).1)) = some ([135, 22, 191], [135, 23, 191]) := by decide +kernel

end Verif
