import Verif.Model.Ram.Modes
import Verif.Lemmas.Ram.Core
/-! CBC in memory. -/
namespace Verif.Ram
open Verif.Modes (xorB cbcEnc cbcDec Blocks xorB_length xorB_comm)

variable {E D : List Byte → List Byte} {c : Nat}

theorem sub64_eq {a b : Nat} (h : b ≤ a) (ha : a < 2 ^ 64) : sub64 a b = a - b := by unfold sub64; omega

theorem cbcEncLoop_ram (hE : ∀ b, b.length = c → (E b).length = c) (hc : 0 < c) {ctx : Nat} :
    ∀ (bs : List (List Byte)) (k : Nat) (R : Ram) (d s : Nat) (iv : List Byte), Blocks c bs → bs.length ≤ k →
    bs.length * c < 2 ^ 64 → R.Owned ctx c → R.Owned s (bs.length * c) → R.Owned d (bs.length * c) →
    Apart ctx c s (bs.length * c) → Apart ctx c d (bs.length * c) → (d ≤ s ∨ s + bs.length * c ≤ d) →
    R.bytes ctx c = iv → R.bytes s (bs.length * c) = bs.flatten →
    cbcEncLoop E c ctx k R d s (bs.length * c) =
      some ((R.put d (cbcEnc E iv bs).flatten).put ctx ((cbcEnc E iv bs).getLastD iv))
  | [], k, R, d, s, iv, _, _, _, _, _, _, _, _, _, e, _ => by
    subst e
    cases k <;> simp [cbcEncLoop, cbcEnc, put_bytes]
  | b :: bs, 0, R, d, s, iv, _, h, _, _, _, _, _, _, _, _, _ => by simp at h
  | b :: bs, k + 1, R, d, s, iv, hb, hk, hlt, hx, hs, hd, hxs, hxd, hp, ei, e => by
    obtain ⟨hbl, hbs⟩ := hb.cons
    have hn : (b :: bs).length * c = c + bs.length * c := by rw [List.length_cons]; ring
    have hk' : bs.length ≤ k := by simpa using hk
    rw [hn] at hs hd hp e hxs hxd hlt ⊢
    rw [bytes_add, List.flatten_cons] at e
    obtain ⟨e1, e2⟩ := List.append_inj e (by simp [hbl])
    have hil : iv.length = c := by rw [← ei, bytes_length]
    have hxl : (xorB iv b).length = c := by rw [xorB_length]; omega
    have hyl := hE _ hxl
    unfold Apart at hxs hxd
    obtain ⟨n, hn'⟩ : ∃ n, c + bs.length * c = n + 1 := ⟨c + bs.length * c - 1, by omega⟩
    rw [hn', cbcEncLoop, ← hn', sub64_eq (by omega) hlt, Nat.add_sub_cancel_left,
      xor1_eq (by own) (by own), Option.bind_some, e1, ei,
      cipher_one (by own) (by own), Option.bind_some, bytes_put_same hxl,
      memcpy_eq (by own) (by own) (by apt), Option.bind_some, bytes_put_same hyl]
    · rw [put_comm (a := ctx) (b := d) (by apt), put_put_same (by omega),
        cbcEncLoop_ram hE hc bs k _ _ _ (E (xorB iv b)) hbs hk' (by omega) (by own) (by own)
          (by own) (by apt) (by apt) (by omega)]
      · have hl : ((cbcEnc E (E (xorB iv b)) bs).getLastD (E (xorB iv b))).length = c :=
          Modes.getLastD_length (Modes.cbcEnc_blocks hE hyl hbs).1 hyl
        have hfl : (cbcEnc E (E (xorB iv b)) bs).flatten.length = bs.length * c := by
          rw [(Modes.cbcEnc_blocks hE hyl hbs).1.length, (Modes.cbcEnc_blocks hE hyl hbs).2]
        rw [put_comm (a := ctx) (b := d + c) (by apt), put_put_same (by omega), cbcEnc, xorB_comm b iv,
          List.flatten_cons, put_append, hyl, List.getLastD_cons]
      · exact bytes_put_same hyl
      · rw [bytes_put_apart (by apt), bytes_put_apart (by apt), e2]
    · simp

/-- Encryption. -/
theorem cbcEncrypt_ram {k : Nat} (hk : k ≤ 4) (hE : ∀ b, b.length = 2 ^ k → (E b).length = 2 ^ k) {ctx : Nat}
    {R : Ram} {d s size : Nat} {bs : List (List Byte)} {iv : List Byte} (hsz : size < 2 ^ 64)
    (hb : Blocks (2 ^ k) bs) (hn : bs.length = size / 2 ^ k) (hx : R.Owned ctx (2 ^ k))
    (hs : R.Owned s (bs.length * 2 ^ k)) (hd : R.Owned d (bs.length * 2 ^ k))
    (hxs : Apart ctx (2 ^ k) s (bs.length * 2 ^ k)) (hxd : Apart ctx (2 ^ k) d (bs.length * 2 ^ k))
    (hp : d ≤ s ∨ s + bs.length * 2 ^ k ≤ d) (hi : R.bytes ctx (2 ^ k) = iv)
    (e : R.bytes s (bs.length * 2 ^ k) = bs.flatten) :
    cbcEncrypt E (2 ^ k) ctx R d s size =
      some ((R.put d (cbcEnc E iv bs).flatten).put ctx ((cbcEnc E iv bs).getLastD iv)) := by
  have hc := Nat.two_pow_pos k
  have hm : Modes.maskSize size (2 ^ k) = bs.length * 2 ^ k := by
    rw [Modes.maskSize_eq (by omega) hsz, hn, Nat.div_mul_self_eq_mod_sub_self]
  have := Nat.div_mul_le_self size (2 ^ k)
  unfold cbcEncrypt
  dsimp only
  rw [hm]
  exact cbcEncLoop_ram hE hc bs _ R d s iv hb (Nat.le_mul_of_pos_right _ hc) (by rw [hn]; omega) hx hs hd hxs hxd hp hi e

/-- Decryption between buffers. -/
theorem cbcDecOut_ram (hD : ∀ b, b.length = c → (D b).length = c) (hc : 0 < c) {ctx : Nat} {R : Ram} {d s : Nat}
    {bs : List (List Byte)} {iv : List Byte} (hb : Blocks c bs) (hne : bs ≠ []) (hlt : bs.length * c < 2 ^ 64)
    (hx : R.Owned ctx c) (hs : R.Owned s (bs.length * c)) (hd : R.Owned d (bs.length * c))
    (hxs : Apart ctx c s (bs.length * c)) (hxd : Apart ctx c d (bs.length * c))
    (hp : Apart d (bs.length * c) s (bs.length * c)) (hi : R.bytes ctx c = iv)
    (e : R.bytes s (bs.length * c) = bs.flatten) :
    cbcDecOut D c ctx R d s (bs.length * c) =
      some ((R.put d (cbcDec D iv bs).flatten).put ctx (bs.getLastD iv)) := by
  have hil : iv.length = c := by rw [← hi, bytes_length]
  match bs, hne with
  | b :: bs, _ =>
    obtain ⟨hbl, hbs⟩ := hb.cons
    have hn : (b :: bs).length * c = c + bs.length * c := by rw [List.length_cons]; ring
    unfold Apart at hxs hxd hp
    have hml : ((b :: bs).map D).flatten.length = (b :: bs).length * c := by
      rw [(hb.map hD).length, List.length_map]
    have hlast := Modes.last_block hb iv
    have hll := Modes.getLastD_length hb hil
    unfold cbcDecOut
    rw [Nat.mul_div_cancel _ hc, cipher_eq hD (b :: bs) R d s hb hs hd (by omega) e, Option.bind_some,
      sub64_eq (by omega) hlt]
    have hd1 : (D b).length = c := hD b hbl
    have hfl : (bs.map D).flatten.length = bs.length * c := by rw [(hbs.map hD).length, List.length_map]
    have hxl : (xorB (D b) iv).length = c := by rw [xorB_length]; omega
    rw [xor1_eq (by own) (by own), Option.bind_some,
      bytes_put_part (by omega) (by omega), Nat.sub_self, List.drop_zero, List.map_cons, List.flatten_cons]
    rw [List.map_cons, List.flatten_cons] at hml
    rw [bytes_put_apart (a := d) (b := ctx) (by apt), hi, List.take_left' hd1,
      put_append (R := R), hd1, put_comm (a := d + c) (b := d) (by apt), put_put_same (by omega)]
    have hsz : (b :: bs).length * c - c = bs.length * c := by omega
    rw [hsz, xor1_eq (by own) (by own), Option.bind_some,
      bytes_put_same (a := d + c) hfl, put_put_same (by rw [xorB_length, bytes_length]; omega),
      bytes_put_apart (a := d + c) (by apt), bytes_put_apart (a := d) (by apt)]
    have e3 : R.bytes s (bs.length * c) = (b ++ bs.flatten).take (bs.length * c) := by
      rw [hn, Nat.add_comm, bytes_add, List.flatten_cons] at e
      rw [← e, List.take_left' (bytes_length _ _)]
    have e4 : R.bytes (s + (b :: bs).length * c - c) c = (b :: bs).getLastD iv := by
      rw [← hlast, ← e, hn, Nat.add_comm c, bytes_add, Nat.add_sub_cancel, List.drop_left' (bytes_length _ _)]
      congr 1
      omega
    have hxx : (xorB (bs.map D).flatten (R.bytes s (bs.length * c))).length = bs.length * c := by
      rw [xorB_length, bytes_length]; omega
    rw [memcpy_eq (by own) (by own) (by apt),
      bytes_put_apart (a := d + c) (by apt), bytes_put_apart (a := d) (by apt), e4, e3,
      Modes.xorB_take_right _ _ _ (by omega), ← Modes.cbcDec_flatten hD bs b hbl hbs, cbcDec, List.flatten_cons,
      put_append, hxl]

set_option maxHeartbeats 800000 in
/-- One pass in place. -/
theorem cbcInPass_ram (hD : ∀ b, b.length = c → (D b).length = c) (hc : 0 < c) {ctx buf ivA : Nat} {R : Ram} {d : Nat}
    {bs : List (List Byte)} {iv : List Byte} (hb : Blocks c bs) (hne : bs ≠ []) (hlt : bs.length * c < 2 ^ 64)
    (hx : R.Owned ctx c) (hd : R.Owned d (bs.length * c)) (hbuf : R.Owned buf (bs.length * c)) (hv : R.Owned ivA c)
    (hxd : Apart ctx c d (bs.length * c)) (hxb : Apart ctx c buf (bs.length * c)) (hxv : Apart ctx c ivA c)
    (hdb : Apart d (bs.length * c) buf (bs.length * c)) (hdv : Apart d (bs.length * c) ivA c)
    (hbv : Apart buf (bs.length * c) ivA c) (hi : R.bytes ctx c = iv)
    (e : R.bytes d (bs.length * c) = bs.flatten) :
    cbcInPass D c ctx buf ivA R d d (bs.length * c) =
      some ((((R.put buf (bs.map D).flatten).put ivA iv).put d (cbcDec D iv bs).flatten).put ctx (bs.getLastD iv)) := by
  have hil : iv.length = c := by rw [← hi, bytes_length]
  match bs, hne with
  | b :: bs, _ =>
    obtain ⟨hbl, hbs⟩ := hb.cons
    have hn : (b :: bs).length * c = c + bs.length * c := by rw [List.length_cons]; ring
    unfold Apart at hxd hxb hxv hdb hdv hbv
    have hml : ((b :: bs).map D).flatten.length = (b :: bs).length * c := by
      rw [(hb.map hD).length, List.length_map]
    have hlast := Modes.last_block hb iv
    have hll := Modes.getLastD_length hb hil
    have hd1 : (D b).length = c := hD b hbl
    have hfl : (bs.map D).flatten.length = bs.length * c := by rw [(hbs.map hD).length, List.length_map]
    have hxl : (xorB (D b) iv).length = c := by rw [xorB_length]; omega
    have hsz : (b :: bs).length * c - c = bs.length * c := by omega
    have e3 : R.bytes d (bs.length * c) = (b ++ bs.flatten).take (bs.length * c) := by
      rw [hn, Nat.add_comm, bytes_add, List.flatten_cons] at e
      rw [← e, List.take_left' (bytes_length _ _)]
    have e4 : R.bytes (d + (b :: bs).length * c - c) c = (b :: bs).getLastD iv := by
      rw [← hlast, ← e, hn, Nat.add_comm c, bytes_add, Nat.add_sub_cancel, List.drop_left' (bytes_length _ _)]
      congr 1
      omega
    have hxx : (xorB (bs.map D).flatten (R.bytes d (bs.length * c))).length = bs.length * c := by
      rw [xorB_length, bytes_length]; omega
    unfold cbcInPass
    rw [Nat.mul_div_cancel _ hc, cipher_eq hD (b :: bs) R buf d hb hd hbuf (by omega) e, Option.bind_some,
      sub64_eq (by omega) hlt, hsz]
    rw [memcpy_eq (by own) (by own) (by apt), Option.bind_some, bytes_put_apart (a := buf) (by apt),
      hi, memcpy_eq (by own) (by own) (by apt), Option.bind_some,
      bytes_put_apart (a := ivA) (by apt), bytes_put_apart (a := buf) (by apt), e4]
    rw [xor2_eq' (by own) (by own)
      (by own) (by apt), Option.bind_some]
    have hr : ∀ (a n : Nat), Apart a n ctx c → Apart a n ivA c →
        (((R.put buf ((b :: bs).map D).flatten).put ivA iv).put ctx ((b :: bs).getLastD iv)).bytes a n =
        (R.put buf ((b :: bs).map D).flatten).bytes a n := by
      intro a n h1 h2
      unfold Apart at h1 h2
      rw [bytes_put_apart (a := ctx) (by apt), bytes_put_apart (a := ivA) (by apt)]
    rw [hr (buf + c) _ (by apt) (by apt), hr d _ (by apt)
      (by apt), bytes_put_apart (a := buf) (b := d) (by apt),
      bytes_put_part (by omega) (by omega), Nat.add_sub_cancel_left, List.map_cons, List.flatten_cons,
      List.drop_left' hd1, ← hfl, List.take_length, hfl]
    rw [List.map_cons, List.flatten_cons] at hml hr
    rw [xor2_eq' (by own) (by own) (by own)
      (by apt), bytes_put_apart (a := d + c) (by apt),
      bytes_put_apart (a := d + c) (by apt), hr buf _ (by apt) (by apt),
      bytes_put_part (by omega) (by omega), Nat.sub_self, List.drop_zero, List.take_left' hd1,
      bytes_put_apart (a := ctx) (by apt), bytes_put_same hil]
    rw [put_comm (a := d + c) (b := d) (by apt)]
    have hmerge : ∀ Q : Ram, (Q.put d (xorB (D b) iv)).put (d + c) (xorB (bs.map D).flatten (R.bytes d (bs.length * c))) =
        Q.put d (cbcDec D iv (b :: bs)).flatten := by
      intro Q
      rw [e3, Modes.xorB_take_right _ _ _ (by omega), ← Modes.cbcDec_flatten hD bs b hbl hbs, cbcDec, List.flatten_cons,
        put_append, hxl]
    rw [hmerge, put_comm (a := ctx) (b := d)]
    have : (cbcDec D iv (b :: bs)).flatten.length = (b :: bs).length * c := by
      rw [Modes.cbcDec_flatten hD (b :: bs) iv hil hb, xorB_length, (hb.map hD).length, List.length_map,
        List.length_append, hb.length]; omega
    apt

end Verif.Ram
