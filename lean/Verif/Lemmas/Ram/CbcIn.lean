import Verif.Lemmas.Ram.Cbc
import Verif.Spec.Ram
/-! CBC decryption in place. -/
namespace Verif.Ram
open Verif.Modes (xorB cbcEnc cbcDec Blocks xorB_length xorB_comm)

variable {E D : List Byte → List Byte} {c : Nat}

/-- Bytes of a range that is not touched. -/
theorem Wrote.bytes_else {R R' : Ram} {ws scratch} (h : Wrote R R' ws scratch) {a n : Nat}
    (h1 : ∀ w ∈ ws, Apart a n w.1 w.2.length) (h2 : ∀ r ∈ scratch, Apart a n r.1 r.2) : R'.bytes a n = R.bytes a n := by
  apply bytes_ext
  intro i hi
  apply h.else_
  · intro w hw
    have := h1 w hw
    unfold Apart at this
    unfold Outside
    omega
  · intro w hw
    have := h2 w hw
    unfold Apart at this
    unfold Outside
    omega

theorem cbcDec_length (hD : ∀ b, b.length = c → (D b).length = c) {bs : List (List Byte)} {iv : List Byte}
    (hil : iv.length = c) (hb : Blocks c bs) : (cbcDec D iv bs).flatten.length = bs.length * c := by
  rw [Modes.cbcDec_flatten hD bs iv hil hb, xorB_length, (hb.map hD).length, List.length_map, List.length_append, hb.length]
  omega

/-- A pass as a change of memory. -/
theorem cbcInPass_wrote (hD : ∀ b, b.length = c → (D b).length = c) (hc : 0 < c) {ctx buf ivA : Nat} {R : Ram} {d q : Nat}
    {bs : List (List Byte)} {iv : List Byte} (hb : Blocks c bs) (hne : bs ≠ []) (hq : bs.length ≤ q)
    (hlt : bs.length * c < 2 ^ 64)
    (hx : R.Owned ctx c) (hd : R.Owned d (bs.length * c)) (hbuf : R.Owned buf (q * c)) (hv : R.Owned ivA c)
    (hxd : Apart ctx c d (bs.length * c)) (hxb : Apart ctx c buf (q * c)) (hxv : Apart ctx c ivA c)
    (hdb : Apart d (bs.length * c) buf (q * c)) (hdv : Apart d (bs.length * c) ivA c)
    (hbv : Apart buf (q * c) ivA c) (hi : R.bytes ctx c = iv)
    (e : R.bytes d (bs.length * c) = bs.flatten) :
    ∃ R', cbcInPass D c ctx buf ivA R d d (bs.length * c) = some R' ∧
      Wrote R R' [(d, (cbcDec D iv bs).flatten), (ctx, bs.getLastD iv)] [(buf, q * c), (ivA, c)] := by
  have hqc := Nat.mul_le_mul_right c hq
  have hil : iv.length = c := by rw [← hi, bytes_length]
  have hll := Modes.getLastD_length hb hil
  have hdl := cbcDec_length hD hil hb
  have hml : (bs.map D).flatten.length = bs.length * c := by
      rw [(hb.map hD).length, List.length_map]
  unfold Apart at hxd hxb hxv hdb hdv hbv
  refine ⟨_, cbcInPass_ram hD hc hb hne hlt hx hd (by own) hv (by apt) (by apt) (by apt) (by apt) (by apt) (by apt) hi e,
    rfl, rfl, ?_, ?_⟩
  · intro w hw
    simp only [List.mem_cons, List.not_mem_nil, or_false] at hw
    rcases hw with rfl | rfl
    · dsimp only
      rw [bytes_put_apart (by apt), bytes_put_same rfl]
    · exact bytes_put_same rfl
  · intro x h1 h2
    simp only [List.mem_cons, List.not_mem_nil, or_false, forall_eq_or_imp, forall_eq, Outside] at h1 h2
    rw [put_mem_out (by omega), put_mem_out (by omega), put_mem_out (by omega), put_mem_out (by omega)]

theorem cbcInLoop_ram (hD : ∀ b, b.length = c → (D b).length = c) (hc : 0 < c) {ctx buf ivA q : Nat} (hq : 0 < q) :
    ∀ (k : Nat) (bs : List (List Byte)) (R : Ram) (d : Nat) (iv : List Byte), Blocks c bs → bs ≠ [] → bs.length ≤ k →
    bs.length * c < 2 ^ 64 → R.Owned ctx c → R.Owned d (bs.length * c) → R.Owned buf (q * c) → R.Owned ivA c →
    Apart ctx c d (bs.length * c) → Apart ctx c buf (q * c) → Apart ctx c ivA c →
    Apart d (bs.length * c) buf (q * c) → Apart d (bs.length * c) ivA c →
    Apart buf (q * c) ivA c → R.bytes ctx c = iv → R.bytes d (bs.length * c) = bs.flatten →
    ∃ R', cbcInLoop D c ctx buf ivA (q * c) k R d d (bs.length * c) = some R' ∧
      Wrote R R' [(d, (cbcDec D iv bs).flatten), (ctx, bs.getLastD iv)] [(buf, q * c), (ivA, c)] := by
  intro k
  induction k with
  | zero =>
    intro bs R d iv _ hne hk
    cases bs with
    | nil => exact absurd rfl hne
    | cons b bs => simp at hk
  | succ k ih =>
    intro bs R d iv hb hne hk hlt hx hd hbuf hv hxd hxb hxv hdb hdv hbv hi e
    have hil : iv.length = c := by rw [← hi, bytes_length]
    have hbl : 0 < bs.length := List.length_pos_iff.2 hne
    have hqc : c ≤ q * c := Nat.le_mul_of_pos_left c hq
    rw [cbcInLoop]
    by_cases hgt : bs.length * c > q * c
    · have hgt' : q < bs.length := by
        by_contra hcon
        have := Nat.mul_le_mul_right c (Nat.not_lt.1 hcon); omega
      rw [if_pos hgt]
      have htl : (bs.take q).length = q := by rw [List.length_take]; omega
      have htne : bs.take q ≠ [] := by
        intro h; rw [h] at htl; simp at htl; omega
      have hdl : (bs.drop q).length * c = bs.length * c - q * c := by rw [List.length_drop, Nat.sub_mul]
      have hdne : bs.drop q ≠ [] := by
        intro h
        have : (bs.drop q).length = 0 := by rw [h]; rfl
        rw [List.length_drop] at this; omega
      have hsplit : bs.flatten = (bs.take q).flatten ++ (bs.drop q).flatten := by
        rw [← List.flatten_append, List.take_append_drop]
      have hsum : bs.length * c = q * c + (bs.length * c - q * c) := by omega
      have e' := e
      rw [hsum, bytes_add, hsplit] at e'
      obtain ⟨e1, e2⟩ := List.append_inj e' (by rw [bytes_length, (hb.take q).length, htl])
      unfold Apart at hxd hxb hxv hdb hdv hbv
      obtain ⟨R1, h1, w1⟩ := cbcInPass_wrote (iv := iv) (d := d) hD hc (hb.take q) htne (le_of_eq htl) (by rw [htl]; omega) hx
        (by rw [htl]; own) hbuf hv (by rw [htl]; apt) (by apt) (by apt) (by rw [htl]; apt) (by rw [htl]; apt) (by apt) hi
        (by rw [htl]; exact e1)
      rw [htl] at h1
      have hdec := cbcDec_length hD hil (hb.take q)
      rw [htl] at hdec
      have hll := Modes.getLastD_length (hb.take q) hil
      have hll2 := Modes.getLastD_length (hb.drop q) hll
      have hdec2 := cbcDec_length hD hll (hb.drop q)
      have ho : R1.own = R.own := w1.own
      have hO : ∀ a n, R.Owned a n → R1.Owned a n := fun a n h i hi => by rw [ho]; exact h i hi
      have ec : R1.bytes ctx c = (bs.take q).getLastD iv := by
        have := w1.at_ (ctx, (bs.take q).getLastD iv) (by simp)
        dsimp only at this
        rwa [hll] at this
      have ed : R1.bytes (d + q * c) ((bs.drop q).length * c) = (bs.drop q).flatten := by
        rw [w1.bytes_else, hdl, e2]
        · simp only [List.mem_cons, List.not_mem_nil, or_false, forall_eq_or_imp, forall_eq]
          exact ⟨by apt, by apt⟩
        · simp only [List.mem_cons, List.not_mem_nil, or_false, forall_eq_or_imp, forall_eq]
          exact ⟨by apt, by apt⟩
      obtain ⟨R2, h2, w2⟩ := ih (bs.drop q) R1 (d + q * c) _ (hb.drop q) hdne (by rw [List.length_drop]; omega)
        (by rw [hdl]; omega) (hO _ _ hx) (hO _ _ (by rw [hdl]; own)) (hO _ _ hbuf) (hO _ _ hv) (by apt) (by apt) (by apt)
        (by apt) (by apt) (by apt) ec ed
      rw [h1, Option.bind_some, ← hdl, h2]
      refine ⟨R2, rfl, w2.own.trans w1.own, w2.tmp.trans w1.tmp, ?_, ?_⟩
      · intro w hw
        simp only [List.mem_cons, List.not_mem_nil, or_false] at hw
        rcases hw with rfl | rfl
        · dsimp only
          have hs2 : (cbcDec D iv bs).flatten =
              (cbcDec D iv (bs.take q)).flatten ++ (cbcDec D ((bs.take q).getLastD iv) (bs.drop q)).flatten := by
            rw [← List.flatten_append, ← Modes.cbcDec_append, List.take_append_drop]
          rw [hs2, List.length_append, bytes_add]
          congr 1
          · rw [w2.bytes_else]
            · exact w1.at_ (d, (cbcDec D iv (bs.take q)).flatten) (by simp)
            · simp only [List.mem_cons, List.not_mem_nil, or_false, forall_eq_or_imp, forall_eq]
              exact ⟨by apt, by apt⟩
            · simp only [List.mem_cons, List.not_mem_nil, or_false, forall_eq_or_imp, forall_eq]
              exact ⟨by apt, by apt⟩
          · rw [hdec]
            exact w2.at_ (d + q * c, (cbcDec D ((bs.take q).getLastD iv) (bs.drop q)).flatten) (by simp)
        · have hl : bs.getLastD iv = (bs.drop q).getLastD ((bs.take q).getLastD iv) := by
            conv_lhs => rw [← List.take_append_drop q bs]
            rw [List.getLastD_eq_getLast?, List.getLastD_eq_getLast?, List.getLastD_eq_getLast?,
              List.getLast?_append]
            cases e : (bs.drop q).getLast? with
            | none => exact absurd (List.getLast?_eq_none_iff.1 e) hdne
            | some x => simp
          rw [hl]
          exact w2.at_ (ctx, (bs.drop q).getLastD ((bs.take q).getLastD iv)) (by simp)
      · intro x k1 k2
        have hdecA := cbcDec_length hD hil hb
        have hllA := Modes.getLastD_length hb hil
        simp only [List.mem_cons, List.not_mem_nil, or_false, forall_eq_or_imp, forall_eq, Outside] at k1 k2
        rw [w2.else_ x, w1.else_ x]
        all_goals
          simp only [List.mem_cons, List.not_mem_nil, or_false, forall_eq_or_imp, forall_eq, Outside]
          omega
    · rw [if_neg hgt]
      have hle : bs.length ≤ q := Nat.le_of_mul_le_mul_right (Nat.not_lt.1 hgt) hc
      exact cbcInPass_wrote hD hc hb hne hle hlt hx hd hbuf hv hxd hxb hxv hdb hdv hbv hi e

end Verif.Ram
