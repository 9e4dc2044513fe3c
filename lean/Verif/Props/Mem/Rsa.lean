import Verif.Lemmas.Mem.Rsa
import Verif.Spec.MemRsa
import Verif.Props.Mem.Elgamal
/-!
# C97: RSA in memory

The objects of the context, the two blocks of bytes that each call allocates, and every pattern of failing allocations.
-/
namespace Verif.Mem
open Verif.Mpi

section
variable {w sp n e d N X : Nat} {s : St}

theorem same_of {s' : St} (h : At (ctxOf sp s) (Now s) sp s') : SameBut sp 0 s s' := by
  obtain ⟨f1, f2⟩ := At.same rfl h
  exact ⟨f1, by omega, h.orc⟩

theorem same_more {s' : St} (h : At (ctxOf sp s).more (Now s) sp s') : SameBut sp 1 s s' := by
  have h2 : At (ctxOf sp s) (Now s) sp { s' with live := s'.live - 1 } := ⟨h.objs, by
    have := h.bal
    show s'.live - 1 = _
    rw [this]
    show (ctxOf sp s).B + 1 + _ - 1 = _
    ring, h.orc, h.tick⟩
  obtain ⟨f1, f2, f3⟩ := same_of h2
  have f2 : s'.live - 1 = s.live + 0 := f2
  exact ⟨f1, by omega, f3⟩

theorem keyAt {x : Nat} (hn : n < sp) (hx : x < sp) (an : (s.obj n).Shows w N) (ax : (s.obj x).Shows w X) (hN : 1 < N) (hX : 0 < X) : KeyAt w (Now s) sp n x N X :=
  ⟨hn, hx, fun o ho => by rw [show o = s.obj n from ho]; exact an, fun o ho => by rw [show o = s.obj x from ho]; exact ax, hN, hX⟩

/-- One block on values, without reference to a key. -/
theorem encBlock_pkcs (hw : DigitWidth w) (c : Rsa.Ctx) (sign : Bool) (cn : NatRep w c.n N) (cx : NatRep w (if sign then c.d else c.e) X) (cp : c.padding = 1) (hN : 1 < N)
    (src : List Byte) (rnd : Nat → Byte) (h : src.length + 11 ≤ (N.size + 7) / 8) :
    ∃ eb blk, Pkcs.Block ((N.size + 7) / 8) sign src eb ∧ Rsa.encryptBlock w c src sign rnd = .ok blk ∧ blk.length = (N.size + 7) / 8 ∧
      beVal blk = beVal eb ^ X % N := by
  have hlen : Mpi.countBytes w c.n = (N.size + 7) / 8 := by unfold Mpi.countBytes; rw [cn.countBits hw]
  obtain ⟨eb, h1, h2⟩ := Rsa.padding_add_pkcs ((N.size + 7) / 8) src sign rnd h
  obtain ⟨m, blk, e1, e2, e3, e4⟩ := Rsa.power_block hw cn hN cx eb
  refine ⟨eb, blk, h2, ?_, by rw [e3, hlen], e4⟩
  unfold Rsa.encryptBlock
  dsimp only
  rw [if_pos (by rw [cp]; decide), cp, hlen, h1]
  dsimp only [Rsa.Res.bind]
  rw [e1]
  dsimp only [Rsa.ofOption]
  rw [← hlen, e2]

theorem encLoop_blocks (hw : DigitWidth w) (c : Rsa.Ctx) (sign : Bool) (cn : NatRep w c.n N) (cx : NatRep w (if sign then c.d else c.e) X) (cp : c.padding = 1) (hN : 1 < N)
    (h12 : 12 ≤ (N.size + 7) / 8) (rnd : Nat → Nat → Byte) : ∀ (fuel i bsz : Nat) (inp : List Byte), inp.length < fuel →
    (bsz = (N.size + 7) / 8 - 11 ∨ inp = []) →
    ∃ ct, Rsa.encLoop w c sign rnd fuel i bsz inp = .ok ct ∧ RsaBlocks ((N.size + 7) / 8) sign N X inp ct := by
  intro fuel
  induction fuel with
  | zero => intro i bsz inp h; omega
  | succ fuel ih =>
    intro i bsz inp hf hb
    unfold Rsa.encLoop
    by_cases h0 : inp = []
    · rw [if_pos h0]; subst h0; exact ⟨[], rfl, .nil⟩
    rw [if_neg h0]
    have hpos := List.length_pos_iff.2 h0
    have hb : bsz = (N.size + 7) / 8 - 11 := hb.elim id fun h => absurd h h0
    dsimp only
    generalize hz : (if inp.length < bsz then inp.length else bsz) = bz
    have hz1 : 0 < bz ∧ bz ≤ inp.length ∧ bz ≤ bsz ∧ (bz = bsz ∨ bz = inp.length) := by split_ifs at hz <;> omega
    have hlt : (inp.take bz).length = bz := by rw [List.length_take]; omega
    obtain ⟨eb, blk, q1, q2, q3, q4⟩ := encBlock_pkcs hw c sign cn cx cp hN (inp.take bz) (rnd i) (by omega)
    have hrest : bz = (N.size + 7) / 8 - 11 ∨ inp.drop bz = [] := by
      rcases hz1.2.2.2 with h | h
      · left; omega
      · right; rw [h]; exact List.drop_length
    obtain ⟨ct, r1, r2⟩ := ih (i + 1) bz (inp.drop bz) (by rw [List.length_drop]; omega) hrest
    refine ⟨blk ++ ct, ?_, ?_⟩
    · rw [q2]; dsimp only [Rsa.Res.bind]; rw [r1]
    · have := RsaBlocks.cons (m := inp.take bz) (by rw [← List.length_pos_iff]; omega) (by omega)
        (fun h => by rcases hrest with h' | h'
                     · omega
                     · exact absurd h' h) q1 q3 q4 r2
      rwa [List.take_append_drop] at this

/-- C97, partial.  Full statement: `cry_rsa_encrypt` and `cry_rsa_sign` give the message in PKCS#1 blocks raised to the exponent, in
one new block of memory, or report that an allocation failed and have then given everything back; the context is unchanged.
Proved for messages of any length, moduli of twelve bytes or more and every pattern of failing allocations, except that when
one fails the behaviour may be undefined (`mem_rsa_encrypt_ub`, because of C70).  Missing as well, because false: the empty
message (`mem_rsa_empty`). -/
theorem mem_rsa_encrypt_partial (hw : DigitWidth w) (sign : Bool) (hn : n < sp) (hx : (if sign then d else e) < sp) (an : (s.obj n).Shows w N)
    (ax : (s.obj (if sign then d else e)).Shows w X) (hN : 12 ≤ (N.size + 7) / 8) (h64 : (N.size + 7) / 8 < 2 ^ 64) (hX : 0 < X) (rnd : Nat → Nat → Byte)
    (msg : List Byte) (h0 : msg ≠ []) :
    (∃ ct s', rsaEncrypt w sp n e d 1 sign rnd msg s = .ok ((0, some (ct.map some), ct.length), s') ∧ SameBut sp 1 s s' ∧
      RsaBlocks ((N.size + 7) / 8) sign N X msg ct) ∨
    (∃ s', rsaEncrypt w sp n e d 1 sign rnd msg s = .ok ((-1, none, 0), s') ∧ SameBut sp 0 s s' ∧ Failed s s') ∨
    (rsaEncrypt w sp n e d 1 sign rnd msg s = .ub ∧ SomeFails s) := by
  have hN1 : 1 < N := by
    by_contra hc
    have : N.size ≤ 1 := Nat.size_le.2 (by omega)
    omega
  obtain ⟨mn, cn, -⟩ := shows_nat an
  obtain ⟨mx, cx, -⟩ := shows_nat ax
  let c : Rsa.Ctx := ⟨mn, mx, mx, 1⟩
  have cx' : NatRep w (if sign then c.d else c.e) X := by cases sign <;> exact cx
  have hlen : Mpi.countBytes w c.n = (N.size + 7) / 8 := by unfold Mpi.countBytes; rw [NatRep.countBits hw cn]
  obtain ⟨ct, v1, v2⟩ := encLoop_blocks (c := c) hw sign cn cx' rfl hN1 hN rnd (msg.length + 1) 0 ((N.size + 7) / 8 - 11) msg (by omega) (Or.inl rfl)
  have hv : Rsa.encrypt w c sign rnd msg = .ok ct := by
    unfold Rsa.encrypt
    dsimp only
    rw [if_neg h0, if_pos (show (1 : Nat) ≠ 0 by decide), hlen, Rsa.blockSiz_eq (by omega) h64, v1]
  rcases rsaEncrypt_any (padding := 1) hw (at_now sp s) sign (keyAt hn hx an ax hN1 hX) cn cx' rfl rnd msg with
    ⟨q, r⟩ | ⟨q, r⟩ | ⟨s', q, h, f⟩ | ⟨v, b, len, s', r, q, h, g1, g2⟩
  · refine Or.inr (Or.inr ⟨q, ?_⟩)
    rcases r with r | r
    · rw [hv] at r; cases r
    · exact r
  · rw [hv] at r; cases r
  · refine Or.inr (Or.inl ⟨s', q, same_of h, ?_⟩)
    rcases f with f | f
    · rw [hv] at f; cases f
    · exact f
  · rw [hv] at r
    cases r
    exact Or.inl ⟨ct, s', by rw [q, g1, g2], same_more h, v2⟩

/-- The block that decryption makes. -/
theorem dec_pkcs (hw : DigitWidth w) (c : Rsa.Ctx) (sign : Bool) (cn : NatRep w c.n N) (cx : NatRep w (if sign then c.e else c.d) X) (cp : c.padding = 1) (hN : 1 < N)
    (src : List Byte) (hl : src.length = (N.size + 7) / 8) :
    ∃ eb, PowerBytes ((N.size + 7) / 8) N X (beVal src) eb ∧ Rsa.decrypt w c sign src =
      (Rsa.paddingDel eb.length eb sign).bind fun r => .ok ((r.map some ++ (List.replicate ((N.size + 7) / 8) none).drop r.length).take r.length) := by
  have hlen : Mpi.countBytes w c.n = (N.size + 7) / 8 := by unfold Mpi.countBytes; rw [cn.countBits hw]
  obtain ⟨m, eb, e1, e2, e3, e4⟩ := Rsa.power_block hw cn hN cx src
  rw [hlen] at e3
  refine ⟨eb, ⟨e3, e4⟩, ?_⟩
  have := Nat.size_pos.2 (show 0 < N by omega)
  rw [Rsa.decrypt_one c sign src (by rw [hlen, hl]) (by rw [← List.length_pos_iff]; omega), hlen, e3]
  congr 1
  unfold Rsa.decryptBlock
  dsimp only
  rw [hlen, if_neg (by omega), e1]
  dsimp only [Rsa.Res.bind, Rsa.ofOption]
  rw [← hlen, e2]
  dsimp only
  rw [if_pos (by rw [cp]; decide)]

theorem paddingDel_cases (eb : List Byte) (sign : Bool) (h2 : 2 ≤ eb.length) :
    (∃ ps m, Pkcs.Form sign ps m eb ∧ Rsa.paddingDel eb.length eb sign = .ok m) ∨
    ((¬ ∃ ps m, Pkcs.Form sign ps m eb) ∧ Rsa.paddingDel eb.length eb sign = .fail) := by
  by_cases h : ∃ ps m, Pkcs.Form sign ps m eb
  · obtain ⟨ps, m, h⟩ := h
    exact Or.inl ⟨ps, m, h, (Rsa.padding_del_iff eb sign h2 m).2 ⟨ps, h⟩⟩
  · exact Or.inr ⟨h, Rsa.padding_del_rejects eb sign h2 h⟩

/-- C97, partial.  Full statement: `cry_rsa_decrypt` gives the messages of all blocks, in one new block of memory, if they have the
form of PKCS#1, and otherwise, or if an allocation fails, reports failure and has given everything back; the context is
unchanged.  Proved for an input of the size of the modulus and every pattern of failing allocations, except that when one fails
the behaviour may be undefined.  Missing, because false: inputs of several blocks (`mem_rsa_multiblock`) and the empty input. -/
theorem mem_rsa_decrypt_partial (hw : DigitWidth w) (sign : Bool) (hn : n < sp) (hx : (if sign then e else d) < sp) (an : (s.obj n).Shows w N)
    (ax : (s.obj (if sign then e else d)).Shows w X) (hN : 2 ≤ (N.size + 7) / 8) (hX : 0 < X) (src : List Byte) (hl : src.length = (N.size + 7) / 8) :
    ∃ eb, PowerBytes ((N.size + 7) / 8) N X (beVal src) eb ∧
    ((∃ ps msg b s', Pkcs.Form sign ps msg eb ∧ rsaDecrypt w sp n e d 1 sign src s = .ok ((0, some b, msg.length), s') ∧ b.take msg.length = msg.map some ∧
        SameBut sp 1 s s') ∨
     (∃ s', rsaDecrypt w sp n e d 1 sign src s = .ok ((-1, none, 0), s') ∧ SameBut sp 0 s s' ∧ ((¬ ∃ ps msg, Pkcs.Form sign ps msg eb) ∨ Failed s s')) ∨
     (rsaDecrypt w sp n e d 1 sign src s = .ub ∧ SomeFails s)) := by
  have hN1 : 1 < N := by
    by_contra hc
    have : N.size ≤ 1 := Nat.size_le.2 (by omega)
    omega
  obtain ⟨mn, cn, -⟩ := shows_nat an
  obtain ⟨mx, cx, -⟩ := shows_nat ax
  let c : Rsa.Ctx := ⟨mn, mx, mx, 1⟩
  have cx' : NatRep w (if sign then c.e else c.d) X := by cases sign <;> exact cx
  obtain ⟨eb, p1, p2⟩ := dec_pkcs (c := c) hw sign cn cx' rfl hN1 src hl
  refine ⟨eb, p1, ?_⟩
  have hu : Rsa.decrypt w c sign src ≠ .ub ∧ Rsa.decrypt w c sign src ≠ .hang := by
    rcases paddingDel_cases eb sign (by rw [p1.1]; exact hN) with ⟨ps, m, -, h⟩ | ⟨-, h⟩ <;> rw [p2, h] <;> exact ⟨by simp [Rsa.Res.bind], by simp [Rsa.Res.bind]⟩
  rcases rsaDecrypt_any (padding := 1) hw (at_now sp s) sign (keyAt hn hx an ax hN1 hX) cn cx' rfl src with
    ⟨q, r⟩ | ⟨q, r⟩ | ⟨s', q, h, f⟩ | ⟨v, b, len, s', r, q, h, g1, g2⟩
  · exact Or.inr (Or.inr ⟨q, r.elim (fun r => absurd r hu.1) id⟩)
  · exact absurd r hu.2
  · refine Or.inr (Or.inl ⟨s', q, same_of h, ?_⟩)
    rcases f with f | f
    · left
      rcases paddingDel_cases eb sign (by rw [p1.1]; exact hN) with ⟨ps, m, -, h⟩ | ⟨h, -⟩
      · rw [p2, h] at f; cases f
      · exact h
    · exact Or.inr f
  · left
    rcases paddingDel_cases eb sign (by rw [p1.1]; exact hN) with ⟨ps, m, hf, h'⟩ | ⟨-, h'⟩
    · rw [p2, h'] at r
      have r : v = (m.map some ++ (List.replicate ((N.size + 7) / 8) none).drop m.length).take m.length := by cases r; rfl
      rw [List.take_left' (by simp)] at r
      have hlen : len = m.length := by
        have := congrArg List.length (g1.symm.trans r)
        simp at this; omega
      subst hlen
      exact ⟨ps, m, b, s', hf, q, by rw [← g1, r], same_more h⟩
    · rw [p2, h'] at r; cases r

theorem differ_some : ∀ {m l : List Byte}, l.length ≤ m.length → Rsa.differ (m.map some) l ≠ none
  | _, [], _ => by simp [Rsa.differ]
  | [], _ :: _, h => by simp at h
  | a :: m, b :: l, h => by
    show Rsa.differ (some a :: m.map some) (b :: l) ≠ none
    unfold Rsa.differ
    split_ifs
    · simp
    · exact differ_some (by simpa using h)

/-- C97, partial.  Full statement: `cry_rsa_verify` returns 0 if the signature raised to the public exponent is a PKCS#1 block with
the message, -1 if not or if an allocation failed; nothing is changed and everything given back.  Proved for a signature of the
size of the modulus and every pattern of failing allocations, except that when one fails the behaviour may be undefined. -/
theorem mem_rsa_verify_partial (hw : DigitWidth w) (hn : n < sp) (hx : e < sp) (an : (s.obj n).Shows w N) (ax : (s.obj e).Shows w X)
    (hN : 2 ≤ (N.size + 7) / 8) (hX : 0 < X) (sig msg : List Byte) (hl : sig.length = (N.size + 7) / 8) :
    ∃ eb, PowerBytes ((N.size + 7) / 8) N X (beVal sig) eb ∧
    ((∃ s', rsaVerify w sp n e d 1 sig msg s = .ok (0, s') ∧ SameBut sp 0 s s' ∧ ∃ ps, Pkcs.Form true ps msg eb) ∨
     (∃ s', rsaVerify w sp n e d 1 sig msg s = .ok (-1, s') ∧ SameBut sp 0 s s' ∧ ((¬ ∃ ps, Pkcs.Form true ps msg eb) ∨ Failed s s')) ∨
     (rsaVerify w sp n e d 1 sig msg s = .ub ∧ SomeFails s)) := by
  have hN1 : 1 < N := by
    by_contra hc
    have : N.size ≤ 1 := Nat.size_le.2 (by omega)
    omega
  obtain ⟨mn, cn, -⟩ := shows_nat an
  obtain ⟨mx, cx, -⟩ := shows_nat ax
  let c : Rsa.Ctx := ⟨mn, mx, mx, 1⟩
  obtain ⟨eb, p1, p2⟩ := dec_pkcs (c := c) hw true cn cx rfl hN1 sig hl
  have h2 : 2 ≤ eb.length := by rw [p1.1]; exact hN
  refine ⟨eb, p1, ?_⟩
  have hv : ((∃ ps, Pkcs.Form true ps msg eb) ∧ Rsa.verify w c sig msg = .ok ()) ∨ ((¬ ∃ ps, Pkcs.Form true ps msg eb) ∧ Rsa.verify w c sig msg = .fail) := by
    have huniq : ∀ {m}, Rsa.paddingDel eb.length eb true = .ok m → ((∃ ps, Pkcs.Form true ps msg eb) ↔ m = msg) := fun {m} h => by
      rw [← Rsa.padding_del_iff eb true h2 msg, h]; simp
    unfold Rsa.verify
    rw [p2]
    rcases paddingDel_cases eb true h2 with ⟨ps, m, hf, h'⟩ | ⟨hf, h'⟩
    · rw [h']
      dsimp only [Rsa.Res.bind]
      rw [List.take_left' (by simp), List.length_map, huniq h']
      by_cases hlm : m.length ≠ msg.length
      · rw [if_pos (Or.inr ⟨show (1 : Nat) ≠ 0 by decide, hlm⟩)]
        exact Or.inr ⟨fun h => hlm (by rw [h]), rfl⟩
      · rw [if_neg (by
          rintro (⟨h, -⟩ | ⟨-, h⟩)
          · exact absurd h (show ¬ (1 : Nat) = 0 by decide)
          · exact hlm h)]
        by_cases he : m = msg
        · left; subst he; rw [Rsa.differ_self]; exact ⟨rfl, rfl⟩
        · right
          refine ⟨he, ?_⟩
          cases hd : Rsa.differ (m.map some) msg with
          | none => exact absurd hd (differ_some (by omega))
          | some t =>
            cases t with
            | true => rfl
            | false =>
              have := Rsa.differ_false hd
              rw [List.take_of_length_le (by simp; omega)] at this
              exact absurd (List.map_injective_iff.2 (Option.some_injective _) this) he
    · right
      refine ⟨fun ⟨ps, h⟩ => hf ⟨ps, msg, h⟩, ?_⟩
      rw [h']; rfl
  rcases rsaVerify_any (padding := 1) (d := d) hw (at_now sp s) (keyAt hn hx an ax hN1 hX) (c := c) cn cx rfl sig msg with
    ⟨q, r⟩ | ⟨q, r⟩ | ⟨s', q, h, f⟩ | ⟨s', q, h, f⟩
  · refine Or.inr (Or.inr ⟨q, ?_⟩)
    rcases r with r | r
    · rcases hv with ⟨-, h⟩ | ⟨-, h⟩ <;> rw [h] at r <;> cases r
    · exact r
  · rcases hv with ⟨-, h⟩ | ⟨-, h⟩ <;> rw [h] at r <;> cases r
  · refine Or.inr (Or.inl ⟨s', q, same_of h, ?_⟩)
    rcases f with f | f
    · left
      rcases hv with ⟨-, h⟩ | ⟨h, -⟩
      · rw [h] at f; cases f
      · exact h
    · exact Or.inr f
  · refine Or.inl ⟨s', q, same_of h, ?_⟩
    rcases hv with ⟨h, -⟩ | ⟨-, h⟩
    · exact h
    · rw [h] at f; cases f

theorem plenty_may (h : Plenty s) : ¬ (ctxOf sp s).May := fun ⟨k, _, hk⟩ => by
  have : s.fails k = true := hk
  rw [h k] at this; cases this

theorem plenty_bad {s' : St} (h : Plenty s) : ¬ Bad (ctxOf sp s) s' := fun hb => plenty_may h hb.may

/-- The numbers of an RSA key. -/
structure RsaNums (p q E D : Nat) : Prop where
  pP : p.Prime
  qP : q.Prime
  ne : p ≠ q
  inv : E * D ≡ 1 [MOD Nat.lcm (p - 1) (q - 1)]

theorem RsaNums.pos {p q E D : Nat} (h : RsaNums p q E D) : 0 < E ∧ 0 < D := by
  have := Rsa.lcm_ne_zero_exp h.pP h.qP h.ne h.inv
  constructor <;> rw [Nat.pos_iff_ne_zero] <;> rintro rfl <;> simp at this

variable {p q E D sp' n' e' d' : Nat} {t : St}

/-- The key as values, for a sender and a receiver. -/
theorem rsa_values (hw : DigitWidth w) (k : RsaNums p q E D) (sign : Bool) (padding : Nat)
    (an : (s.obj n).Shows w ((p * q : Nat) : Int)) (ax : (s.obj (if sign then d else e)).Shows w ((if sign then D else E : Nat) : Int))
    (ay : (t.obj (if sign then e' else d')).Shows w ((if sign then E else D : Nat) : Int)) :
    ∃ c, Rsa.Key w c p q E D ∧ c.padding = padding ∧ Mpi.countBytes w c.n = ((p * q).size + 7) / 8 := by
  obtain ⟨mn, cn, -⟩ := shows_nat an
  obtain ⟨mx, cx, -⟩ := shows_nat ax
  obtain ⟨my, cy, -⟩ := shows_nat ay
  have hlen : Mpi.countBytes w mn = ((p * q).size + 7) / 8 := by unfold Mpi.countBytes; rw [NatRep.countBits hw cn]
  cases sign with
  | true => exact ⟨⟨mn, my, mx, padding⟩, ⟨cn, cy, cx, k.pP, k.qP, k.ne, k.inv⟩, rfl, hlen⟩
  | false => exact ⟨⟨mn, mx, my, padding⟩, ⟨cn, cx, cy, k.pP, k.qP, k.ne, k.inv⟩, rfl, hlen⟩

theorem enc_of_value (hw : DigitWidth w) (k : RsaNums p q E D) (sign : Bool) {padding : Nat} (hs : Plenty s) (hn : n < sp) (hx : (if sign then d else e) < sp)
    (an : (s.obj n).Shows w ((p * q : Nat) : Int)) (ax : (s.obj (if sign then d else e)).Shows w ((if sign then D else E : Nat) : Int))
    {c : Rsa.Ctx} (kc : Rsa.Key w c p q E D) (cp : c.padding = padding) (rnd : Nat → Nat → Byte) (msg : List Byte) :
    ∀ {ct}, Rsa.encrypt w c sign rnd msg = .ok ct →
      ∃ s', rsaEncrypt w sp n e d padding sign rnd msg s = .ok ((0, some (ct.map some), ct.length), s') ∧ SameBut sp 1 s s' := by
  intro ct hv
  have hX : 0 < (if sign then D else E) := by cases sign; exacts [k.pos.1, k.pos.2]
  have cx : NatRep w (if sign then c.d else c.e) (if sign then D else E) := by cases sign; exacts [kc.eR, kc.dR]
  rcases rsaEncrypt_any hw (at_now sp s) sign (keyAt hn hx an ax kc.one_lt hX) kc.nR cx cp rnd msg with
    ⟨q, r⟩ | ⟨q, r⟩ | ⟨s', q, h, f⟩ | ⟨v, b, len, s', r, q, h, g1, g2⟩
  · have r := r.elim id fun r => absurd r (plenty_may hs)
    rw [hv] at r; cases r
  · rw [hv] at r; cases r
  · have f := f.elim id fun f => absurd f (plenty_bad hs)
    rw [hv] at f; cases f
  · rw [hv] at r; cases r; exact ⟨s', by rw [q, g1, g2], same_more h⟩

theorem dec_of_value (hw : DigitWidth w) (k : RsaNums p q E D) (sign : Bool) {padding : Nat} (hs : Plenty s) (hn : n < sp) (hx : (if sign then e else d) < sp)
    (an : (s.obj n).Shows w ((p * q : Nat) : Int)) (ax : (s.obj (if sign then e else d)).Shows w ((if sign then E else D : Nat) : Int))
    {c : Rsa.Ctx} (kc : Rsa.Key w c p q E D) (cp : c.padding = padding) (ct : List Byte) {v : Buf} (hv : Rsa.decrypt w c sign ct = .ok v) :
    ∃ b s', rsaDecrypt w sp n e d padding sign ct s = .ok ((0, some b, v.length), s') ∧ b.take v.length = v ∧ SameBut sp 1 s s' := by
  have hX : 0 < (if sign then E else D) := by cases sign; exacts [k.pos.2, k.pos.1]
  have cx : NatRep w (if sign then c.e else c.d) (if sign then E else D) := by cases sign; exacts [kc.dR, kc.eR]
  rcases rsaDecrypt_any hw (at_now sp s) sign (keyAt hn hx an ax kc.one_lt hX) kc.nR cx cp ct with
    ⟨q, r⟩ | ⟨q, r⟩ | ⟨s', q, h, f⟩ | ⟨v, b, len, s', r, q, h, g1, g2⟩
  · have r := r.elim id fun r => absurd r (plenty_may hs)
    rw [hv] at r; cases r
  · rw [hv] at r; cases r
  · have f := f.elim id fun f => absurd f (plenty_bad hs)
    rw [hv] at f; cases f
  · rw [hv] at r; cases r
    have hl : v.length = len := by rw [g1, List.length_take]; omega
    exact ⟨b, s', by rw [q, hl], by rw [hl, g1], same_more h⟩

/-- C97, partial.  Full statement: what `cry_rsa_encrypt` makes with the public key in one memory, `cry_rsa_decrypt` with the private
key in another takes apart again (with `sign` true, the same for the other two).  Proved for messages that fit one block with
PKCS#1 v1.5; for longer messages it is false (`mem_rsa_multiblock`). -/
theorem mem_rsa_roundtrip_partial (hw : DigitWidth w) (k : RsaNums p q E D) (sign : Bool) (hs : Plenty s) (ht : Plenty t)
    (hn : n < sp) (hx : (if sign then d else e) < sp) (an : (s.obj n).Shows w ((p * q : Nat) : Int))
    (ax : (s.obj (if sign then d else e)).Shows w ((if sign then D else E : Nat) : Int))
    (hn' : n' < sp') (hy : (if sign then e' else d') < sp') (an' : (t.obj n').Shows w ((p * q : Nat) : Int))
    (ay : (t.obj (if sign then e' else d')).Shows w ((if sign then E else D : Nat) : Int))
    (h64 : ((p * q).size + 7) / 8 < 2 ^ 64) (rnd : Nat → Nat → Byte) (msg : List Byte) (h0 : msg ≠ []) (h : msg.length + 11 ≤ ((p * q).size + 7) / 8) :
    ∃ ct b s' t', rsaEncrypt w sp n e d 1 sign rnd msg s = .ok ((0, some (ct.map some), ct.length), s') ∧ SameBut sp 1 s s' ∧
      ct.length = ((p * q).size + 7) / 8 ∧
      rsaDecrypt w sp' n' e' d' 1 sign ct t = .ok ((0, some b, msg.length), t') ∧ b.take msg.length = msg.map some ∧ SameBut sp' 1 t t' := by
  obtain ⟨c, kc, cp, hc⟩ := rsa_values hw k sign 1 an ax ay
  obtain ⟨ct, v1, v2, v3⟩ := Rsa.rsa_roundtrip_partial hw c kc cp (by rw [hc]; exact h64) rnd sign msg h0 (by rw [hc]; exact h)
  obtain ⟨s', e1, f1⟩ := (enc_of_value hw k sign hs hn hx an ax kc cp rnd msg) v1
  obtain ⟨b, t', e2, f2, f3⟩ := dec_of_value (e := e') (d := d') hw k sign ht hn' hy an' ay kc cp ct v3
  rw [List.length_map] at e2 f2
  exact ⟨ct, b, s', t', e1, f1, by rw [v2, hc], e2, f2, f3⟩

/-- C97: without padding the message comes back with zeros after it if, as a number, it is below the modulus, and only then. -/
theorem mem_rsa_nopad (hw : DigitWidth w) (k : RsaNums p q E D) (sign : Bool) (hs : Plenty s) (ht : Plenty t)
    (hn : n < sp) (hx : (if sign then d else e) < sp) (an : (s.obj n).Shows w ((p * q : Nat) : Int))
    (ax : (s.obj (if sign then d else e)).Shows w ((if sign then D else E : Nat) : Int))
    (hn' : n' < sp') (hy : (if sign then e' else d') < sp') (an' : (t.obj n').Shows w ((p * q : Nat) : Int))
    (ay : (t.obj (if sign then e' else d')).Shows w ((if sign then E else D : Nat) : Int))
    (rnd : Nat → Nat → Byte) (msg : List Byte) (h0 : msg ≠ []) (h : msg.length ≤ ((p * q).size + 7) / 8) :
    ∃ ct out b s' t', rsaEncrypt w sp n e d 0 sign rnd msg s = .ok ((0, some (ct.map some), ct.length), s') ∧ SameBut sp 1 s s' ∧
      rsaDecrypt w sp' n' e' d' 0 sign ct t = .ok ((0, some b, out.length), t') ∧ b.take out.length = out.map some ∧ SameBut sp' 1 t t' ∧
      (out = msg ++ List.replicate (((p * q).size + 7) / 8 - msg.length) 0#8 ↔
        beVal (msg ++ List.replicate (((p * q).size + 7) / 8 - msg.length) 0#8) < p * q) := by
  obtain ⟨c, kc, cp, hc⟩ := rsa_values hw k sign 0 an ax ay
  obtain ⟨ct, out, v1, -, v3, v4⟩ := Rsa.rsa_nopad_partial hw c kc cp rnd sign msg h0 (by rw [hc]; exact h)
  obtain ⟨s', e1, f1⟩ := (enc_of_value hw k sign hs hn hx an ax kc cp rnd msg) v1
  obtain ⟨b, t', e2, f2, f3⟩ := dec_of_value (e := e') (d := d') hw k sign ht hn' hy an' ay kc cp ct v3
  rw [List.length_map] at e2 f2
  rw [hc] at v4
  exact ⟨ct, out, b, s', t', e1, f1, e2, f2, f3, v4⟩

/-- C97, where it fails: a message of more than one block is encrypted, and decryption reports success and the right length, but the
byte after the first block's worth of message was never written. -/
theorem mem_rsa_multiblock (hw : DigitWidth w) (k : RsaNums p q E D) (sign : Bool) (hs : Plenty s) (ht : Plenty t)
    (hn : n < sp) (hx : (if sign then d else e) < sp) (an : (s.obj n).Shows w ((p * q : Nat) : Int))
    (ax : (s.obj (if sign then d else e)).Shows w ((if sign then D else E : Nat) : Int))
    (hn' : n' < sp') (hy : (if sign then e' else d') < sp') (an' : (t.obj n').Shows w ((p * q : Nat) : Int))
    (ay : (t.obj (if sign then e' else d')).Shows w ((if sign then E else D : Nat) : Int))
    (h64 : ((p * q).size + 7) / 8 < 2 ^ 64) (rnd : Nat → Nat → Byte) (msg : List Byte) (h12 : 12 ≤ ((p * q).size + 7) / 8)
    (h : ((p * q).size + 7) / 8 < msg.length + 11) :
    ∃ ct b s' t', rsaEncrypt w sp n e d 1 sign rnd msg s = .ok ((0, some (ct.map some), ct.length), s') ∧
      rsaDecrypt w sp' n' e' d' 1 sign ct t = .ok ((0, some b, msg.length), t') ∧ b[((p * q).size + 7) / 8 - 11]? = some none ∧
      b.take msg.length ≠ msg.map some := by
  obtain ⟨c, kc, cp, hc⟩ := rsa_values hw k sign 1 an ax ay
  obtain ⟨ct, out, v1, v2, v3, v4, v5⟩ := Rsa.rsa_multiblock_wrong hw c kc cp (by rw [hc]; exact h64) rnd sign msg (by rw [hc]; exact h12) (by rw [hc]; exact h)
  obtain ⟨s', e1, -⟩ := (enc_of_value hw k sign hs hn hx an ax kc cp rnd msg) v1
  obtain ⟨b, t', e2, f2, -⟩ := dec_of_value (e := e') (d := d') hw k sign ht hn' hy an' ay kc cp ct v2
  rw [v3] at e2 f2
  rw [← f2] at v4 v5
  rw [hc, List.getElem?_take, if_pos (by omega)] at v4
  exact ⟨ct, b, s', t', e1, e2, v4, v5⟩

/-- C97, where it fails: with a modulus of eleven bytes encryption does not end as long as allocations succeed. -/
theorem mem_rsa_eleven (hw : DigitWidth w) (sign : Bool) (hs : Plenty s) (hn : n < sp) (hx : (if sign then d else e) < sp) (an : (s.obj n).Shows w N)
    (ax : (s.obj (if sign then d else e)).Shows w X) (hX : 0 < X) (rnd : Nat → Nat → Byte) (msg : List Byte) (h0 : msg ≠ []) (h11 : (N.size + 7) / 8 = 11) :
    rsaEncrypt w sp n e d 1 sign rnd msg s = .hang := by
  have hN1 : 1 < N := by
    by_contra hc
    have : N.size ≤ 1 := Nat.size_le.2 (by omega)
    omega
  obtain ⟨mn, cn, -⟩ := shows_nat an
  obtain ⟨mx, cx, -⟩ := shows_nat ax
  let c : Rsa.Ctx := ⟨mn, mx, mx, 1⟩
  have cx' : NatRep w (if sign then c.d else c.e) X := by cases sign <;> exact cx
  have hlen : Mpi.countBytes w c.n = 11 := by unfold Mpi.countBytes; rw [NatRep.countBits hw cn, h11]
  have key : ∀ fuel i, Rsa.encLoop w c sign rnd fuel i 0 msg = .hang := by
    intro fuel
    induction fuel with
    | zero => intro i; rfl
    | succ fuel ih =>
      intro i
      obtain ⟨eb, blk, -, q2, -, -⟩ := encBlock_pkcs (c := c) hw sign cn cx' rfl hN1 [] (rnd i) (by simp [h11])
      unfold Rsa.encLoop
      rw [if_neg h0]
      dsimp only
      rw [if_neg (Nat.not_lt_zero _), List.take_zero, q2]
      dsimp only [Rsa.Res.bind]
      rw [List.drop_zero, ih]
  have hv : Rsa.encrypt w c sign rnd msg = .hang := by
    unfold Rsa.encrypt
    dsimp only
    rw [if_neg h0, if_pos (show (1 : Nat) ≠ 0 by decide), hlen]
    exact key _ _
  rcases rsaEncrypt_any (padding := 1) hw (at_now sp s) sign (keyAt hn hx an ax hN1 hX) cn cx' rfl rnd msg with
    ⟨q, r⟩ | ⟨q, r⟩ | ⟨s', q, h, f⟩ | ⟨v, b, len, s', r, q, h, g1, g2⟩
  · have r := r.elim id fun r => absurd r (plenty_may hs)
    rw [hv] at r; cases r
  · exact q
  · have f := f.elim id fun f => absurd f (plenty_bad hs)
    rw [hv] at f; cases f
  · rw [hv] at r; cases r

/-- C97: a signature made with the private key in one memory is accepted with the public key in another. -/
theorem mem_rsa_sign_verify_partial (hw : DigitWidth w) (k : RsaNums p q E D) (hs : Plenty s) (ht : Plenty t)
    (hn : n < sp) (hx : d < sp) (an : (s.obj n).Shows w ((p * q : Nat) : Int)) (ax : (s.obj d).Shows w D)
    (hn' : n' < sp') (hy : e' < sp') (an' : (t.obj n').Shows w ((p * q : Nat) : Int)) (ay : (t.obj e').Shows w E)
    (h64 : ((p * q).size + 7) / 8 < 2 ^ 64) (rnd : Nat → Nat → Byte) (msg : List Byte) (h0 : msg ≠ []) (h : msg.length + 11 ≤ ((p * q).size + 7) / 8) :
    ∃ sig s' t', rsaEncrypt w sp n e d 1 true rnd msg s = .ok ((0, some (sig.map some), sig.length), s') ∧ SameBut sp 1 s s' ∧
      rsaVerify w sp' n' e' d' 1 sig msg t = .ok (0, t') ∧ SameBut sp' 0 t t' := by
  obtain ⟨c, kc, cp, hc⟩ := rsa_values (e := e) (d' := d') hw k true 1 an ax ay
  obtain ⟨sig, v1, v2⟩ := Rsa.rsa_sign_verify_partial hw c kc cp (by rw [hc]; exact h64) rnd msg h0 (by rw [hc]; exact h)
  obtain ⟨s', e1, f1⟩ := (enc_of_value (e := e) hw k true hs hn hx an ax kc cp rnd msg) v1
  refine ⟨sig, s', ?_⟩
  rcases rsaVerify_any (d := d') hw (at_now sp' t) (keyAt hn' hy an' ay kc.one_lt k.pos.1) kc.nR kc.eR cp sig msg with
    ⟨q, r⟩ | ⟨q, r⟩ | ⟨t', q, h, f⟩ | ⟨t', q, h, f⟩
  · have r := r.elim id fun r => absurd r (plenty_may ht)
    rw [v2] at r; cases r
  · rw [v2] at r; cases r
  · have f := f.elim id fun f => absurd f (plenty_bad ht)
    rw [v2] at f; cases f
  · exact ⟨t', e1, f1, q, same_of h⟩

/-- C97, where it fails: for the empty input an uninitialised status is read. -/
theorem mem_rsa_empty (hw : DigitWidth w) (an : (s.obj n).Shows w N) (padding : Nat) (sign : Bool) (rnd : Nat → Nat → Byte) :
    rsaEncrypt w sp n e d padding sign rnd [] s = .ub ∧ rsaDecrypt w sp n e d padding sign [] s = .ub := by
  have e0 := countBytes_shows hw an
  constructor
  · unfold rsaEncrypt; rw [bind_ok e0]; rfl
  · unfold rsaDecrypt; rw [bind_ok e0]; rfl

/-- C97: `cry_rsa_init`, whichever allocations fail. -/
theorem mem_rsa_init (hw : 0 < w) (hn : [d, e, n, p, q].Nodup) (hs : ∀ a ∈ [d, e, n, p, q], a < sp) (h0 : ∀ a ∈ [d, e, n, p, q], (s.obj a).owns = 0) :
    ∃ st s', rsaInit d e n p q s = .ok (st, s') ∧ (∀ v, v < sp → v ∉ [d, e, n, p, q] → s'.obj v = s.obj v) ∧ Balanced sp s s' ∧
      ((st = 0 ∧ ∀ a ∈ [d, e, n, p, q], (s'.obj a).Is w 0) ∨ (st = -1 ∧ Failed s s' ∧ ∀ a ∈ [d, e, n, p, q], (s'.obj a).owns = 0)) :=
  mem_initList hw hn hs h0

/-- C97: `cry_rsa_clear` gives everything back that the context owns, and leaves zeros. -/
theorem mem_rsa_clear (hn : [d, e, n, p, q].Nodup) (hs : ∀ a ∈ [d, e, n, p, q], a < sp) (h0 : ∀ a ∈ [d, e, n, p, q], ∃ z, (s.obj a).Is w z) :
    ∃ s', rsaClear d e n p q s = .ok ((), s') ∧ (∀ v, v < sp → v ∉ [d, e, n, p, q] → s'.obj v = s.obj v) ∧ Balanced sp s s' ∧
      ∀ a ∈ [d, e, n, p, q], s'.obj a = ⟨some ⟨false, 0, 0⟩, .null⟩ :=
  clear_wipe hn hs h0

end

/-! ### Cases -/

/-- The key of `Rsa.toy`: the modulus at 0, the public exponent at 1, the private one at 2. -/
def exRsa (f : Nat → Bool) : St :=
  ⟨fun v => match [(Rsa.toy 1).n, (Rsa.toy 1).e, (Rsa.toy 1).d][v]? with
    | some m => ⟨some ⟨false, m.digs.length, m.digs.length⟩, .mem true (m.digs.map some)⟩
    | none => Obj.fresh, f, 0, 3⟩

theorem exRsa_is {m : Mpi} {k : Nat} (h : NatRep 64 m k) (h0 : m.digs ≠ []) : Obj.Is 64 k ⟨some ⟨false, m.digs.length, m.digs.length⟩, .mem true (m.digs.map some)⟩ := by
  have hv := h.value
  have hn := h.neg
  refine ⟨m, h.wf, by unfold Mpi.toInt; rw [hn, hv]; rfl, ?_, ⟨[], List.append_nil _⟩, Or.inr ⟨m.digs.map some, by simpa using h0, rfl⟩⟩
  show _ = some (Hdr.mk m.neg m.digs.length (m.digs.map some).length)
  rw [hn, List.length_map]

theorem exRsa_n (f : Nat → Bool) : ((exRsa f).obj 0).Is 64 (((2 ^ 61 - 1) * (2 ^ 89 - 1) : Nat) : Int) := exRsa_is (Rsa.toy_key 1).nR (by decide)
theorem exRsa_e (f : Nat → Bool) : ((exRsa f).obj 1).Is 64 ((65537 : Nat) : Int) := exRsa_is (Rsa.toy_key 1).eR (by decide)
theorem exRsa_d (f : Nat → Bool) : ((exRsa f).obj 2).Is 64 ((740443132154395775117746638826656402702473 : Nat) : Int) := exRsa_is (Rsa.toy_key 1).dR (by decide)

theorem exRsa_nums : RsaNums (2 ^ 61 - 1) (2 ^ 89 - 1) 65537 740443132154395775117746638826656402702473 :=
  ⟨(Rsa.toy_key 1).pP, (Rsa.toy_key 1).qP, (Rsa.toy_key 1).ne, (Rsa.toy_key 1).inv⟩

theorem exRsa_size : (Nat.size ((2 ^ 61 - 1) * (2 ^ 89 - 1)) + 7) / 8 = 19 := by
  rw [← NatRep.countBits (Or.inr (Or.inr (Or.inr rfl))) (Rsa.toy_key 1).nR]; decide

/-- Eight bytes make the round trip, nine are signed but their decryption is not what was signed, and a signature is accepted. -/
example (rnd : Nat → Nat → Byte) : (∃ (ct : List Byte) (b : Buf) (s' t' : St), rsaEncrypt 64 3 0 1 2 1 false rnd [1, 2, 3, 4, 5, 6, 7, 8] (exRsa fun _ => false) = .ok ((0, some (ct.map some), ct.length), s') ∧
      SameBut 3 1 (exRsa fun _ => false) s' ∧ ct.length = (Nat.size ((2 ^ 61 - 1) * (2 ^ 89 - 1)) + 7) / 8 ∧
      rsaDecrypt 64 3 0 1 2 1 false ct (exRsa fun _ => false) = .ok ((0, some b, 8), t') ∧ b.take 8 = [1, 2, 3, 4, 5, 6, 7, 8].map some ∧ SameBut 3 1 (exRsa fun _ => false) t') ∧
    (∃ (sig : List Byte) (s' t' : St), rsaEncrypt 64 3 0 1 2 1 true rnd [1, 2, 3, 4, 5, 6, 7, 8] (exRsa fun _ => false) = .ok ((0, some (sig.map some), sig.length), s') ∧ SameBut 3 1 (exRsa fun _ => false) s' ∧
      rsaVerify 64 3 0 1 2 1 sig [1, 2, 3, 4, 5, 6, 7, 8] (exRsa fun _ => false) = .ok (0, t') ∧ SameBut 3 0 (exRsa fun _ => false) t') ∧
    ∃ (ct : List Byte) (b : Buf) (s' t' : St), rsaEncrypt 64 3 0 1 2 1 false rnd [1, 2, 3, 4, 5, 6, 7, 8, 9] (exRsa fun _ => false) = .ok ((0, some (ct.map some), ct.length), s') ∧
      rsaDecrypt 64 3 0 1 2 1 false ct (exRsa fun _ => false) = .ok ((0, some b, 9), t') ∧ b[(Nat.size ((2 ^ 61 - 1) * (2 ^ 89 - 1)) + 7) / 8 - 11]? = some none ∧
      b.take 9 ≠ [1, 2, 3, 4, 5, 6, 7, 8, 9].map some := by
  have hw : DigitWidth 64 := Or.inr (Or.inr (Or.inr rfl))
  have h64 : (Nat.size ((2 ^ 61 - 1) * (2 ^ 89 - 1)) + 7) / 8 < 2 ^ 64 := by rw [exRsa_size]; decide
  exact ⟨mem_rsa_roundtrip_partial hw exRsa_nums false (fun _ => rfl) (fun _ => rfl) (by decide) (by decide) (exRsa_n _).shows (exRsa_e _).shows (by decide) (by decide)
      (exRsa_n _).shows (exRsa_d _).shows h64 rnd _ (by decide) (by rw [exRsa_size]; decide),
    mem_rsa_sign_verify_partial hw exRsa_nums (fun _ => rfl) (fun _ => rfl) (by decide) (by decide) (exRsa_n _).shows (exRsa_d _).shows (by decide) (by decide)
      (exRsa_n _).shows (exRsa_e _).shows h64 rnd _ (by decide) (by rw [exRsa_size]; decide),
    mem_rsa_multiblock hw exRsa_nums false (fun _ => rfl) (fun _ => rfl) (by decide) (by decide) (exRsa_n _).shows (exRsa_e _).shows (by decide) (by decide)
      (exRsa_n _).shows (exRsa_d _).shows h64 rnd _ (by rw [exRsa_size]; decide) (by rw [exRsa_size]; decide)⟩

/-- Twenty bytes, in three blocks, with any allocation failing. -/
example (f : Nat → Bool) (rnd : Nat → Nat → Byte) : (∃ (ct : List Byte) (s' : St), rsaEncrypt 64 3 0 1 2 1 false rnd (List.replicate 20 7) (exRsa f) = .ok ((0, some (ct.map some), ct.length), s') ∧ s'.live = 4) ∨
    (∃ s', rsaEncrypt 64 3 0 1 2 1 false rnd (List.replicate 20 7) (exRsa f) = .ok ((-1, none, 0), s') ∧ s'.live = 3) ∨
    ∃ k, f k = true := by
  have h64 : (Nat.size ((2 ^ 61 - 1) * (2 ^ 89 - 1)) + 7) / 8 < 2 ^ 64 := by rw [exRsa_size]; decide
  rcases mem_rsa_encrypt_partial (s := exRsa f) (sp := 3) (e := 1) (d := 2) (Or.inr (Or.inr (Or.inr rfl))) false (by decide) (by decide) (exRsa_n f).shows (exRsa_e f).shows (by rw [exRsa_size]; decide) h64 (by decide) rnd
      (List.replicate 20 7) (by decide) with ⟨ct, s', q, h, -⟩ | ⟨s', q, h, -⟩ | ⟨-, k, -, hk⟩
  · exact Or.inl ⟨ct, s', q, h.2.1⟩
  · exact Or.inr (Or.inl ⟨s', q, h.2.1⟩)
  · exact Or.inr (Or.inr ⟨k, hk⟩)

/-- A block of zeros is neither a ciphertext nor a signature. -/
example : (∃ s', rsaDecrypt 64 3 0 1 2 1 false (List.replicate 19 0) (exRsa fun _ => false) = .ok ((-1, none, 0), s') ∧ s'.live = 3) ∧
    ∃ s', rsaVerify 64 3 0 1 2 1 (List.replicate 19 0) [5] (exRsa fun _ => false) = .ok (-1, s') ∧ s'.live = 3 := by
  have hw : DigitWidth 64 := Or.inr (Or.inr (Or.inr rfl))
  have h2 : 2 ≤ (Nat.size ((2 ^ 61 - 1) * (2 ^ 89 - 1)) + 7) / 8 := by rw [exRsa_size]; decide
  have hz : beVal (List.replicate 19 (0 : Byte)) = 0 := by decide
  have key : ∀ {x eb sign ps msg}, PowerBytes ((Nat.size ((2 ^ 61 - 1) * (2 ^ 89 - 1)) + 7) / 8) ((2 ^ 61 - 1) * (2 ^ 89 - 1)) (x + 1) (beVal (List.replicate 19 (0 : Byte))) eb →
      ¬ Pkcs.Form sign ps msg eb := fun {x eb sign ps msg} hp hf => by
    have h := hp.2
    rw [hz, zero_pow (by omega), Nat.zero_mod, hf.1] at h
    have : beVal (0#8 :: ((if sign then 1#8 else 2#8) :: (ps ++ 0#8 :: msg))) = beVal ([0#8, if sign then 1#8 else 2#8] ++ (ps ++ 0#8 :: msg)) := rfl
    rw [this, beVal_append] at h
    cases sign <;> simp [beVal] at h
  constructor
  · obtain ⟨eb, hp, ⟨ps, msg, b, s', hf, -⟩ | ⟨s', q, h, -⟩ | ⟨-, k, -, hk⟩⟩ := mem_rsa_decrypt_partial (s := exRsa fun _ => false) (sp := 3) (e := 1) (d := 2) hw false (by decide) (by decide)
      (exRsa_n _).shows (exRsa_d _).shows h2 (by decide) (List.replicate 19 0) (by rw [exRsa_size]; rfl)
    · exact absurd hf (key hp)
    · exact ⟨s', q, h.2.1⟩
    · cases hk
  · obtain ⟨eb, hp, ⟨s', -, -, ps, hf⟩ | ⟨s', q, h, -⟩ | ⟨-, k, -, hk⟩⟩ := mem_rsa_verify_partial (s := exRsa fun _ => false) (sp := 3) (e := 1) (d := 2) hw (by decide) (by decide)
      (exRsa_n _).shows (exRsa_e _).shows h2 (by decide) (List.replicate 19 0) [5] (by rw [exRsa_size]; rfl)
    · exact absurd hf (key hp)
    · exact ⟨s', q, h.2.1⟩
    · cases hk

/-- n = 33, e = 3, d = 7. -/
def exRsa33 (f : Nat → Bool) : St :=
  ⟨fun v => match [33, 3, 7][v]? with
    | some n => exNum n
    | none => Obj.fresh, f, 0, 3⟩

/-- Whether a run has no defined behaviour. -/
def isUbOf {α : Type} (c : Out (α × St)) : Bool := match c with | .ub => true | _ => false

/-- C97, where it fails: the block and the two numbers of the first block are allocated, the next request fails. -/
theorem mem_rsa_encrypt_ub : isUbOf (rsaEncrypt 8 3 0 1 2 0 false (fun _ _ => 0) [2] (exRsa33 fun k => k == 4)) = true ∧
    isUbOf (rsaDecrypt 8 3 0 1 2 0 false [2] (exRsa33 fun k => k == 4)) = true ∧ isUbOf (rsaVerify 8 3 0 1 2 0 [2] [8] (exRsa33 fun k => k == 4)) = true := by decide +kernel

/-- 2³ = 8 and 8⁷ = 2 modulo 33; other requests that fail are reported. -/
example : (∃ s', rsaEncrypt 8 3 0 1 2 0 false (fun _ _ => 0) [2] (exRsa33 fun _ => false) = .ok ((0, some [some 8], 1), s') ∧ decide (s'.live = 4) = true) ∧
    (∃ s', rsaDecrypt 8 3 0 1 2 0 false [8] (exRsa33 fun _ => false) = .ok ((0, some [some 2], 1), s') ∧ decide (s'.live = 4) = true) ∧
    (∃ s', rsaVerify 8 3 0 1 2 0 [2] [8] (exRsa33 fun _ => false) = .ok (0, s') ∧ decide (s'.live = 3) = true) ∧
    (∃ s', rsaEncrypt 8 3 0 1 2 0 false (fun _ _ => 0) [2] (exRsa33 fun k => k == 1) = .ok ((-1, none, 0), s') ∧ decide (s'.live = 3) = true) :=
  ⟨returns_ok (by decide +kernel), returns_ok (by decide +kernel), returns_ok (by decide +kernel), returns_ok (by decide +kernel)⟩

/-- Without padding 2 comes back, 34 > 33 does not. -/
example : ∃ (ct out : List Byte) (b : Buf) (s' t' : St), rsaEncrypt 8 3 0 1 2 0 false (fun _ _ => 0) [34] (exRsa33 fun _ => false) = .ok ((0, some (ct.map some), ct.length), s') ∧
      rsaDecrypt 8 3 0 1 2 0 false ct (exRsa33 fun _ => false) = .ok ((0, some b, out.length), t') ∧ b.take out.length = out.map some ∧ out ≠ [34] := by
  have hk : RsaNums 3 11 3 7 := ⟨by norm_num, by norm_num, by decide, by decide⟩
  have h1 : (Nat.size (3 * 11) + 7) / 8 = 1 := by decide
  have a : ∀ v n : Nat, [33, 3, 7][v]? = some n → 0 < n → n < 256 → ((exRsa33 fun _ => false).obj v).Is 8 n := fun v n h h0 h2 => by
    have : (exRsa33 fun _ => false).obj v = exNum n := by
      show (match [33, 3, 7][v]? with
        | some n => exNum n
        | none => Obj.fresh) = _
      rw [h]
    rw [this]; exact exNum_is (by omega) h2
  obtain ⟨ct, out, b, s', t', q1, -, q2, q3, -, q4⟩ := mem_rsa_nopad (s := exRsa33 fun _ => false) (t := exRsa33 fun _ => false) (sp := 3) (sp' := 3) (n := 0) (n' := 0) (e := 1) (d := 2) (e' := 1) (d' := 2)
    (Or.inl rfl) hk false (fun _ => rfl) (fun _ => rfl) (by decide) (by decide) (a 0 33 rfl (by decide) (by decide)).shows (a 1 3 rfl (by decide) (by decide)).shows
    (by decide) (by decide) (a 0 33 rfl (by decide) (by decide)).shows (a 2 7 rfl (by decide) (by decide)).shows (fun _ _ => 0) [34] (by decide) (by decide)
  rw [h1] at q4
  exact ⟨ct, out, b, s', t', q1, q2, q3, fun h => absurd (q4.1 h) (by decide)⟩

/-- A modulus of eleven bytes. -/
example (rnd : Nat → Nat → Byte) : rsaEncrypt 64 3 0 1 2 1 false rnd [1]
    ⟨fun v => match [Rsa.toy11.n, Rsa.toy11.e, Rsa.toy11.d][v]? with
    | some m => ⟨some ⟨false, m.digs.length, m.digs.length⟩, .mem true (m.digs.map some)⟩
    | none => Obj.fresh, fun _ => false, 0, 3⟩ = .hang :=
  mem_rsa_eleven (Or.inr (Or.inr (Or.inr rfl))) false (fun _ => rfl) (by decide) (by decide) (exRsa_is Rsa.toy11_key.nR (by decide)).shows (exRsa_is Rsa.toy11_key.eR (by decide)).shows (by decide) rnd [1]
    (by decide) (by rw [← NatRep.countBits (Or.inr (Or.inr (Or.inr rfl))) Rsa.toy11_key.nR]; decide)

example (rnd : Nat → Nat → Byte) : rsaEncrypt 64 3 0 1 2 1 false rnd [] (exRsa fun _ => false) = .ub :=
  (mem_rsa_empty (Or.inr (Or.inr (Or.inr rfl))) (exRsa_n _).shows 1 false rnd (e := 1) (d := 2)).1

example (f : Nat → Bool) : ∃ st s', rsaInit 0 1 2 3 4 (exFresh f) = .ok (st, s') ∧ ((st = 0 ∧ (s'.obj 3).Is 8 0) ∨ (st = -1 ∧ Failed (exFresh f) s' ∧ (s'.obj 0).owns = 0)) := by
  obtain ⟨st, s', e, -, -, ⟨h, h1⟩ | ⟨h, h1, h2⟩⟩ := mem_rsa_init (w := 8) (sp := 5) (d := 0) (e := 1) (n := 2) (p := 3) (q := 4) (s := exFresh f) (by decide) (by decide) (by decide) (fun _ _ => rfl)
  · exact ⟨st, s', e, Or.inl ⟨h, h1 3 (by simp)⟩⟩
  · exact ⟨st, s', e, Or.inr ⟨h, h1, h2 0 (by simp)⟩⟩

/-- Initialised and cleared. -/
example : ∃ s s', rsaInit 0 1 2 3 4 (exFresh fun _ => false) = .ok (0, s) ∧ rsaClear 0 1 2 3 4 s = .ok ((), s') ∧ (s'.obj 2).owns = 0 := by
  obtain ⟨st, s, e, -, -, ⟨rfl, h1⟩ | ⟨h, ⟨k, -, -, hk⟩, -⟩⟩ := mem_rsa_init (w := 8) (sp := 5) (d := 0) (e := 1) (n := 2) (p := 3) (q := 4) (s := exFresh fun _ => false) (by decide) (by decide) (by decide) (fun _ _ => rfl)
  · obtain ⟨s', e', -, -, h2⟩ := mem_rsa_clear (w := 8) (sp := 5) (d := 0) (e := 1) (n := 2) (p := 3) (q := 4) (s := s) (by decide) (by decide) (fun a ha => ⟨0, h1 a ha⟩)
    exact ⟨s, s', e, e', by rw [h2 2 (by simp)]; rfl⟩
  · cases hk

end Verif.Mem
