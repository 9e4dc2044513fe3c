import Verif.Lemmas.Ram.Cbc
import Verif.Props.Modes.Cfb
/-! CFB in memory. -/
namespace Verif.Ram
open Verif.Modes (xorB cfbEnc Blocks xorB_length xorB_comm)

variable {E : List Byte → List Byte} {c : Nat}

theorem cfbEnc_blocks (hE : ∀ b, b.length = c → (E b).length = c) : ∀ {bs : List (List Byte)} {v : List Byte},
    v.length = c → Blocks c bs → Blocks c (cfbEnc E v bs) ∧ (cfbEnc E v bs).length = bs.length
  | [], _, _, _ => by simp [cfbEnc, Blocks]
  | b :: bs, v, hv, h => by
    obtain ⟨h1, h2⟩ := h.cons
    have hy : (xorB b (E v)).length = c := by rw [xorB_length, hE v hv]; omega
    obtain ⟨i1, i2⟩ := cfbEnc_blocks hE hy h2
    exact ⟨Blocks.mk hy i1, by rw [cfbEnc, List.length_cons, i2, List.length_cons]⟩

theorem cfbEnc_append : ∀ (as bs : List (List Byte)) (v : List Byte),
    cfbEnc E v (as ++ bs) = cfbEnc E v as ++ cfbEnc E ((cfbEnc E v as).getLastD v) bs
  | [], bs, v => by simp [cfbEnc]
  | a :: as, bs, v => by
    have := cfbEnc_append as bs (xorB a (E v))
    simp only [cfbEnc, List.cons_append, List.getLastD_cons, this]

theorem cfbLoop_ram (hE : ∀ b, b.length = c → (E b).length = c) {ctx : Nat} (m k : Nat) :
    ∀ (bs : List (List Byte)) (R : Ram) (d s : Nat) (v : List Byte), Blocks c bs →
    R.Owned ctx c → R.Owned s (bs.length * c) → R.Owned d (bs.length * c) →
    Apart ctx c s (bs.length * c) → Apart ctx c d (bs.length * c) → (d ≤ s ∨ s + bs.length * c ≤ d) →
    R.bytes ctx c = v → R.bytes s (bs.length * c) = bs.flatten →
    cfbLoop E c ctx (k + bs.length) R d s (bs.length * c + m) =
      cfbLoop E c ctx k ((R.put d (cfbEnc E v bs).flatten).put ctx ((cfbEnc E v bs).getLastD v))
        (d + bs.length * c) (s + bs.length * c) m
  | [], R, d, s, v, _, _, _, _, _, _, _, e, _ => by
    subst e
    simp [cfbEnc, put_bytes]
  | b :: bs, R, d, s, v, hb, hx, hs, hd, hxs, hxd, hp, ei, e => by
    obtain ⟨hbl, hbs⟩ := hb.cons
    have hn : (b :: bs).length * c = c + bs.length * c := by rw [List.length_cons]; ring
    rw [hn] at hs hd hp e hxs hxd ⊢
    rw [bytes_add, List.flatten_cons] at e
    obtain ⟨e1, e2⟩ := List.append_inj e (by simp [hbl])
    have hil : v.length = c := by rw [← ei, bytes_length]
    have hel := hE v hil
    have hyl : (xorB b (E v)).length = c := by rw [xorB_length]; omega
    unfold Apart at hxs hxd
    rw [List.length_cons, show k + (bs.length + 1) = (k + bs.length) + 1 by omega, cfbLoop, if_pos (by omega),
      cipher_one (by own) (by own), Option.bind_some, ei, xor2_eq (by own) (by own) (by own) (by apt), Option.bind_some,
      bytes_put_apart (a := ctx) (b := s) (by apt), e1, bytes_put_same hel,
      memcpy_eq (by own) (by own) (by apt), Option.bind_some, bytes_put_same hyl,
      put_comm (a := ctx) (b := d) (by apt), put_put_same (by omega),
      show c + bs.length * c + m - c = bs.length * c + m by omega,
      cfbLoop_ram hE m k bs _ _ _ (xorB b (E v)) hbs (by own) (by own) (by own) (by apt) (by apt) (by omega)
        (bytes_put_same hyl) (by rw [bytes_put_apart (by apt), bytes_put_apart (by apt), e2])]
    have hl : ((cfbEnc E (xorB b (E v)) bs).getLastD (xorB b (E v))).length = c :=
      Modes.getLastD_length (cfbEnc_blocks hE hyl hbs).1 hyl
    have hfl : (cfbEnc E (xorB b (E v)) bs).flatten.length = bs.length * c := by
      rw [(cfbEnc_blocks hE hyl hbs).1.length, (cfbEnc_blocks hE hyl hbs).2]
    rw [put_comm (a := ctx) (b := d + c) (by apt), put_put_same (by omega), cfbEnc,
      List.flatten_cons, put_append, hyl, List.getLastD_cons, Nat.add_assoc, Nat.add_assoc]

/-- Whole blocks. -/
theorem cfbCrypt_whole (hE : ∀ b, b.length = c → (E b).length = c) (hc : 0 < c) {ctx : Nat} {R : Ram} {d s : Nat}
    {bs : List (List Byte)} {v : List Byte} (hb : Blocks c bs)
    (hx : R.Owned ctx c) (hs : R.Owned s (bs.length * c)) (hd : R.Owned d (bs.length * c))
    (hxs : Apart ctx c s (bs.length * c)) (hxd : Apart ctx c d (bs.length * c)) (hp : d ≤ s ∨ s + bs.length * c ≤ d)
    (ei : R.bytes ctx c = v) (e : R.bytes s (bs.length * c) = bs.flatten) :
    cfbCrypt E c ctx R d s (bs.length * c) =
      some ((R.put d (cfbEnc E v bs).flatten).put ctx ((cfbEnc E v bs).getLastD v)) := by
  have hle := Nat.le_mul_of_pos_right bs.length hc
  unfold cfbCrypt
  have := cfbLoop_ram hE 0 (bs.length * c + 1 - bs.length) bs R d s v hb hx hs hd hxs hxd hp ei e
  rw [show bs.length * c + 1 - bs.length + bs.length = bs.length * c + 1 by omega,
    show bs.length * c + 1 - bs.length = (bs.length * c - bs.length) + 1 by omega] at this
  refine this.trans ?_
  rw [cfbLoop, if_neg (by omega), if_neg (by simp)]

/-- Whole blocks and a rest: the last copy reads `c` bytes from the last, shorter block of the output on. -/
theorem cfbCrypt_rest (hE : ∀ b, b.length = c → (E b).length = c) {ctx : Nat} {R : Ram} {d s : Nat}
    {bs : List (List Byte)} {r v : List Byte} (hb : Blocks c bs) (hr : r ≠ []) (hrl : r.length < c)
    (hx : R.Owned ctx c) (hs : R.Owned s (bs.length * c + r.length)) (hd : R.Owned d (bs.length * c + c))
    (hxs : Apart ctx c s (bs.length * c + r.length)) (hxd : Apart ctx c d (bs.length * c + c))
    (hp : d ≤ s ∨ s + (bs.length * c + r.length) ≤ d)
    (ei : R.bytes ctx c = v) (e : R.bytes s (bs.length * c + r.length) = bs.flatten ++ r) :
    cfbCrypt E c ctx R d s (bs.length * c + r.length) =
      some ((R.put d (cfbEnc E v (bs ++ [r])).flatten).put ctx
        ((cfbEnc E v (bs ++ [r])).getLastD v ++ R.bytes (d + (bs.length * c + r.length)) (c - r.length))) := by
  have hle := Nat.le_mul_of_pos_right bs.length (show 0 < c by omega)
  have hr0 : 0 < r.length := List.length_pos_iff.2 hr
  have hil : v.length = c := by rw [← ei, bytes_length]
  rw [bytes_add] at e
  obtain ⟨e1, e2⟩ := List.append_inj e (by rw [bytes_length, hb.length])
  unfold Apart at hxs hxd
  unfold cfbCrypt
  have := cfbLoop_ram hE r.length (bs.length * c + r.length + 1 - bs.length) bs R d s v hb hx (by own) (by own) (by apt)
    (by apt) (by omega) ei e1
  rw [show bs.length * c + r.length + 1 - bs.length + bs.length = bs.length * c + r.length + 1 by omega,
    show bs.length * c + r.length + 1 - bs.length = (bs.length * c + r.length - bs.length) + 1 by omega] at this
  rw [this]
  have hl : ((cfbEnc E v bs).getLastD v).length = c := Modes.getLastD_length (cfbEnc_blocks hE hil hb).1 hil
  have hfl : (cfbEnc E v bs).flatten.length = bs.length * c := by
    rw [(cfbEnc_blocks hE hil hb).1.length, (cfbEnc_blocks hE hil hb).2]
  rw [cfbEnc_append, List.flatten_append]
  generalize (cfbEnc E v bs).getLastD v = u at *
  generalize (cfbEnc E v bs).flatten = y at *
  have hul := hE u hl
  have hzl : (xorB r (E u)).length = r.length := by rw [xorB_length]; omega
  have hxt : xorB r ((E u).take r.length) = xorB r (E u) := Modes.xorB_take_right _ _ _ le_rfl
  rw [cfbLoop, if_neg (by omega), if_pos (by omega), cipher_one (by own) (by own), Option.bind_some,
    xor2_eq (by own) (by own) (by own) (by apt), Option.bind_some, bytes_put_same (n := c) hl, put_put_same (by omega),
    bytes_put_apart (a := ctx) (b := s + bs.length * c) (by apt),
    bytes_put_apart (a := d) (b := s + bs.length * c) (by apt), e2, bytes_put_part (by omega) (by omega), Nat.sub_self,
    List.drop_zero, hxt, memcpy_eq (by own) (by own) (by apt), put_comm (a := ctx) (b := d + bs.length * c) (by apt)]
  have hz : ∀ Q : Ram, (Q.put (d + bs.length * c) (xorB r (E u))).bytes (d + bs.length * c) c =
      xorB r (E u) ++ Q.bytes (d + (bs.length * c + r.length)) (c - r.length) := by
    intro Q
    conv_lhs => rw [show c = r.length + (c - r.length) by omega]
    rw [bytes_add]
    rw [show r.length + (c - r.length) = c by omega]
    rw [bytes_put_same hzl, bytes_put_apart (by apt), Nat.add_assoc]
  have hwl : ∀ Q : Ram, (xorB r (E u) ++ Q.bytes (d + (bs.length * c + r.length)) (c - r.length)).length = c := by
    intro Q; rw [List.length_append, bytes_length]; omega
  rw [bytes_put_apart (a := ctx) (by apt), hz, put_put_same (by rw [hwl]; omega), bytes_put_apart (a := d) (by apt)]
  simp only [cfbEnc, List.flatten_cons, List.flatten_nil, List.append_nil, put_append, hfl,
    List.getLastD_eq_getLast?, List.getLast?_append, List.getLast?_singleton, Option.some_or, Option.getD_some]

end Verif.Ram
