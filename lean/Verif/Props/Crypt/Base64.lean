import Verif.Model.Crypt.Base64
import Mathlib.Tactic.IntervalCases
/-!
# C40: Base64
-/
namespace Verif.Base64

/-! ### Independent description (RFC 4648, section 4) -/

/-- The character of a 6-bit value: A-Z, a-z, 0-9, +, /. -/
def digit (v : Nat) : Nat :=
  if v < 26 then 65 + v else if v < 52 then 97 + (v - 26) else if v < 62 then 48 + (v - 52)
  else if v = 62 then 43 else 47

/-- The four 6-bit digits of a 24-bit group. -/
def group (n : Nat) : List Nat := [n / 64 ^ 3 % 64, n / 64 ^ 2 % 64, n / 64 % 64, n % 64]

/-- Base64: groups of three bytes; a last group of one or two bytes is filled with zero bits and padded with
two or one `=`. -/
def spec : List Byte → List Nat
  | [] => []
  | [a] => ((group (a.toNat * 65536)).take 2).map digit ++ [61, 61]
  | [a, b] => ((group (a.toNat * 65536 + b.toNat * 256)).take 3).map digit ++ [61]
  | a :: b :: c :: rest => (group (a.toNat * 65536 + b.toNat * 256 + c.toNat)).map digit ++ spec rest

/-- The 65 characters allowed in a text. -/
def InAlphabet (c : Byte) : Prop := c.toNat = 61 ∨ ∃ v < 64, c.toNat = digit v

instance (c : Byte) : Decidable (InAlphabet c) := by unfold InAlphabet; infer_instance

/-! ### Helper facts about the tables and one group -/

theorem b64_digit : ∀ v : Byte, v.toNat < 64 → (b64 v).toNat = digit v.toNat := by decide +kernel
theorem unb_b64 : ∀ v : Byte, v.toNat < 64 → unb (b64 v) = v ∧ illegal (b64 v) = false ∧ b64 v ≠ pad := by
  decide +kernel
theorem illegal_iff : ∀ c : Byte, illegal c = false ↔ InAlphabet c := by decide +kernel
theorem illegal_pad : illegal pad = false := by decide +kernel
theorem unb_pad : unb pad = 0 := by decide +kernel

theorem v0_eq (a : Byte) : ((a &&& 0xFC) >>> 2).toNat = a.toNat / 4 := by revert a; decide +kernel
theorem v1a_eq (a : Byte) : ((a &&& 0x03) <<< 4).toNat = a.toNat % 4 * 16 := by revert a; decide +kernel
theorem v1b_eq (b : Byte) : ((b &&& 0xF0) >>> 4).toNat = b.toNat / 16 := by revert b; decide +kernel
theorem v2a_eq (b : Byte) : ((b &&& 0x0F) <<< 2).toNat = b.toNat % 16 * 4 := by revert b; decide +kernel
theorem v2b_eq (c : Byte) : ((c &&& 0xC0) >>> 6).toNat = c.toNat / 64 := by revert c; decide +kernel
theorem v3_eq (c : Byte) : (c &&& 0x3F).toNat = c.toNat % 64 := by revert c; decide +kernel

theorem or_add {x y : Byte} {k p q : Nat} (hx : x.toNat = p * 2 ^ k) (hy : y.toNat = q) (hq : q < 2 ^ k) :
    (x ||| y).toNat = p * 2 ^ k + q := by
  rw [BitVec.toNat_or, hx, hy, Nat.mul_comm, ← Nat.two_pow_add_eq_or_of_lt hq]

theorem v1_eq (a b : Byte) : ((a &&& 0x03) <<< 4 ||| (b &&& 0xF0) >>> 4).toNat = a.toNat % 4 * 16 + b.toNat / 16 :=
  or_add (k := 4) (v1a_eq a) (v1b_eq b) (by have := b.isLt; omega)
theorem v2_eq (b c : Byte) : ((b &&& 0x0F) <<< 2 ||| (c &&& 0xC0) >>> 6).toNat = b.toNat % 16 * 4 + c.toNat / 64 :=
  or_add (k := 2) (v2a_eq b) (v2b_eq c) (by have := c.isLt; omega)

theorem o1_eq (v : Byte) (h : v.toNat < 64) : (v <<< 2).toNat = v.toNat * 4 := by
  rw [BitVec.toNat_shiftLeft, Nat.shiftLeft_eq]; omega
theorem o1b_eq (v : Byte) (h : v.toNat < 64) : ((v &&& 0x30) >>> 4).toNat = v.toNat / 16 := by
  revert v; decide +kernel
theorem o2a_eq (v : Byte) : ((v &&& 0x0F) <<< 4).toNat = v.toNat % 16 * 16 := by revert v; decide +kernel
theorem o2b_eq (v : Byte) (h : v.toNat < 64) : ((v &&& 0x3C) >>> 2).toNat = v.toNat / 4 := by
  revert v; decide +kernel
theorem o3a_eq (v : Byte) : ((v &&& 0x03) <<< 6).toNat = v.toNat % 4 * 64 := by revert v; decide +kernel

/-- First, second and third output byte from the values of the characters. -/
theorem out1 (v w : Byte) (hv : v.toNat < 64) (hw : w.toNat < 64) :
    (v <<< 2 ||| (w &&& 0x30) >>> 4).toNat = v.toNat * 4 + w.toNat / 16 :=
  or_add (k := 2) (o1_eq v hv) (o1b_eq w hw) (by omega)
theorem out2 (v w : Byte) (hw : w.toNat < 64) :
    ((v &&& 0x0F) <<< 4 ||| (w &&& 0x3C) >>> 2).toNat = v.toNat % 16 * 16 + w.toNat / 4 :=
  or_add (k := 4) (o2a_eq v) (o2b_eq w hw) (by omega)
theorem out3 (v w : Byte) (hw : w.toNat < 64) : ((v &&& 0x03) <<< 6 ||| w).toNat = v.toNat % 4 * 64 + w.toNat :=
  or_add (k := 6) (o3a_eq v) rfl hw

/-! ### C40 -/

/-- C40: encoding is the standard encoding, of `4*ceil(n/3)` characters. -/
theorem encode_correct : ∀ (n : Nat) (x : List Byte), x.length ≤ n → x ≠ [] →
    ∃ out, encode x = some out ∧ out.map BitVec.toNat = spec x ∧ out.length = 4 * ((x.length + 2) / 3)
  | 0, x, h, hx => absurd (List.length_eq_zero_iff.mp (by omega)) hx
  | n + 1, [], _, hx => absurd rfl hx
  | n + 1, [a], _, _ => by
    have ha := a.isLt
    have h0 := v0_eq a
    have h1 := v1a_eq a
    refine ⟨_, rfl, ?_, by simp⟩
    simp only [List.map_cons, List.map_nil, spec, group, List.take_succ_cons, List.take_zero, List.cons_append,
      List.nil_append]
    rw [b64_digit _ (by omega), b64_digit _ (by omega), h0, h1]
    rw [show a.toNat * 65536 / 64 ^ 3 % 64 = a.toNat / 4 by omega,
      show a.toNat * 65536 / 64 ^ 2 % 64 = a.toNat % 4 * 16 by omega]
    rfl
  | n + 1, [a, b], _, _ => by
    have ha := a.isLt
    have hb := b.isLt
    have h0 := v0_eq a
    have h1 := v1_eq a b
    have h2 := v2a_eq b
    refine ⟨_, rfl, ?_, by simp⟩
    simp only [List.map_cons, List.map_nil, spec, group, List.take_succ_cons, List.take_zero, List.cons_append,
      List.nil_append]
    rw [b64_digit _ (by omega), b64_digit _ (by omega), b64_digit _ (by omega), h0, h1, h2]
    rw [show (a.toNat * 65536 + b.toNat * 256) / 64 ^ 3 % 64 = a.toNat / 4 by omega,
      show (a.toNat * 65536 + b.toNat * 256) / 64 ^ 2 % 64 = a.toNat % 4 * 16 + b.toNat / 16 by omega,
      show (a.toNat * 65536 + b.toNat * 256) / 64 % 64 = b.toNat % 16 * 4 by omega]
    rfl
  | n + 1, a :: b :: c :: rest, h, _ => by
    have ha := a.isLt
    have hb := b.isLt
    have hc := c.isLt
    have h0 := v0_eq a
    have h1 := v1_eq a b
    have h2 := v2_eq b c
    have h3 := v3_eq c
    have hg : ([b64 ((a &&& 0xFC) >>> 2), b64 ((a &&& 0x03) <<< 4 ||| (b &&& 0xF0) >>> 4),
        b64 ((b &&& 0x0F) <<< 2 ||| (c &&& 0xC0) >>> 6), b64 (c &&& 0x3F)]).map BitVec.toNat =
        (group (a.toNat * 65536 + b.toNat * 256 + c.toNat)).map digit := by
      simp only [List.map_cons, List.map_nil, group]
      rw [b64_digit _ (by omega), b64_digit _ (by omega), b64_digit _ (by omega), b64_digit _ (by omega),
        h0, h1, h2, h3]
      rw [show (a.toNat * 65536 + b.toNat * 256 + c.toNat) / 64 ^ 3 % 64 = a.toNat / 4 by omega,
        show (a.toNat * 65536 + b.toNat * 256 + c.toNat) / 64 ^ 2 % 64 = a.toNat % 4 * 16 + b.toNat / 16 by omega,
        show (a.toNat * 65536 + b.toNat * 256 + c.toNat) / 64 % 64 = b.toNat % 16 * 4 + c.toNat / 64 by omega,
        show (a.toNat * 65536 + b.toNat * 256 + c.toNat) % 64 = c.toNat % 64 by omega]
    rw [encode]
    by_cases hr : rest = []
    · subst hr
      rw [if_pos rfl]
      exact ⟨_, rfl, by rw [hg]; simp [spec], by simp⟩
    · rw [if_neg hr]
      obtain ⟨out, e1, e2, e3⟩ := encode_correct n rest (by simp at h; omega) hr
      refine ⟨_, by rw [e1]; rfl, by rw [List.map_append, hg, e2]; rfl, ?_⟩
      simp only [List.length_append, List.length_cons, List.length_nil, e3]
      omega

/-- C40: decoding the encoding of any non-empty string returns it. -/
theorem decode_encode : ∀ (n : Nat) (x : List Byte), x.length ≤ n → x ≠ [] →
    ∃ out, encode x = some out ∧ decodeLoop out = some (some x) ∧ out ≠ [] ∧ out.length % 4 = 0
  | 0, x, h, hx => absurd (List.length_eq_zero_iff.mp (by omega)) hx
  | n + 1, [], _, hx => absurd rfl hx
  | n + 1, [a], _, _ => by
    have ha := a.isLt
    have h0 := v0_eq a
    have h1 := v1a_eq a
    obtain ⟨u0, i0, -⟩ := unb_b64 ((a &&& 0xFC) >>> 2) (by omega)
    obtain ⟨u1, i1, -⟩ := unb_b64 ((a &&& 0x03) <<< 4) (by omega)
    refine ⟨_, rfl, ?_, by simp, by simp⟩
    rw [decodeLoop, i0, i1, illegal_pad]
    simp only [Bool.or_self, Bool.false_eq_true, if_false, ne_eq, not_true_eq_false, if_true, List.append_nil, u0, u1]
    congr 3
    apply BitVec.eq_of_toNat_eq
    rw [out1 _ _ (by omega) (by omega), h0, h1]
    omega
  | n + 1, [a, b], _, _ => by
    have ha := a.isLt
    have hb := b.isLt
    have h0 := v0_eq a
    have h1 := v1_eq a b
    have h2 := v2a_eq b
    obtain ⟨u0, i0, -⟩ := unb_b64 ((a &&& 0xFC) >>> 2) (by omega)
    obtain ⟨u1, i1, -⟩ := unb_b64 ((a &&& 0x03) <<< 4 ||| (b &&& 0xF0) >>> 4) (by omega)
    obtain ⟨u2, i2, n2⟩ := unb_b64 ((b &&& 0x0F) <<< 2) (by omega)
    refine ⟨_, rfl, ?_, by simp, by simp⟩
    rw [decodeLoop, i0, i1, i2, illegal_pad]
    simp only [Bool.or_self, Bool.false_eq_true, if_false, ne_eq, not_true_eq_false, if_true, List.append_nil, u0, u1,
      u2, n2, not_false_eq_true, List.cons_append, List.nil_append]
    congr 3
    · apply BitVec.eq_of_toNat_eq
      rw [out1 _ _ (by omega) (by omega), h0, h1]
      omega
    · congr 1
      apply BitVec.eq_of_toNat_eq
      rw [out2 _ _ (by omega), h1, h2]
      omega
  | n + 1, a :: b :: c :: rest, h, _ => by
    have ha := a.isLt
    have hb := b.isLt
    have hc := c.isLt
    have h0 := v0_eq a
    have h1 := v1_eq a b
    have h2 := v2_eq b c
    have h3 := v3_eq c
    obtain ⟨u0, i0, -⟩ := unb_b64 ((a &&& 0xFC) >>> 2) (by omega)
    obtain ⟨u1, i1, -⟩ := unb_b64 ((a &&& 0x03) <<< 4 ||| (b &&& 0xF0) >>> 4) (by omega)
    obtain ⟨u2, i2, n2⟩ := unb_b64 ((b &&& 0x0F) <<< 2 ||| (c &&& 0xC0) >>> 6) (by omega)
    obtain ⟨u3, i3, n3⟩ := unb_b64 (c &&& 0x3F) (by omega)
    have e1 : ((a &&& 0xFC) >>> 2) <<< 2 |||
        (((a &&& 0x03) <<< 4 ||| (b &&& 0xF0) >>> 4) &&& 0x30) >>> 4 = a := by
      apply BitVec.eq_of_toNat_eq
      rw [out1 _ _ (by omega) (by omega), h0, h1]; omega
    have e2 : (((a &&& 0x03) <<< 4 ||| (b &&& 0xF0) >>> 4) &&& 0x0F) <<< 4 |||
        (((b &&& 0x0F) <<< 2 ||| (c &&& 0xC0) >>> 6) &&& 0x3C) >>> 2 = b := by
      apply BitVec.eq_of_toNat_eq
      rw [out2 _ _ (by omega), h1, h2]; omega
    have e3 : (((b &&& 0x0F) <<< 2 ||| (c &&& 0xC0) >>> 6) &&& 0x03) <<< 6 ||| (c &&& 0x3F) = c := by
      apply BitVec.eq_of_toNat_eq
      rw [out3 _ _ (by omega), h2, h3]; omega
    rw [encode]
    by_cases hr : rest = []
    · subst hr
      rw [if_pos rfl]
      refine ⟨_, rfl, ?_, by simp, by simp⟩
      rw [decodeLoop, i0, i1, i2, i3]
      simp only [Bool.or_self, Bool.false_eq_true, if_false, ne_eq, if_true, u0, u1, u2, u3, n2, n3, e1, e2, e3,
        not_false_eq_true, List.cons_append, List.nil_append]
    · rw [if_neg hr]
      obtain ⟨out, o1, o2, o3, o4⟩ := decode_encode n rest (by simp at h; omega) hr
      refine ⟨_, by rw [o1]; rfl, ?_, by simp, by simp; omega⟩
      simp only [List.cons_append, List.nil_append]
      rw [decodeLoop, i0, i1, i2, i3]
      simp only [Bool.or_self, Bool.false_eq_true, if_false, ne_eq, u0, u1, u2, u3, n2, n3, e1, e2, e3,
        not_false_eq_true, if_true, List.cons_append, List.nil_append, if_neg o3, o2, Option.map_some]

/-- C40: the round trip through the two functions. -/
theorem base64_roundtrip (x : List Byte) (hx : x ≠ []) :
    ∃ out, encode x = some out ∧ out.length = 4 * ((x.length + 2) / 3) ∧ decode out = some (some x) := by
  obtain ⟨out, h1, -, h2⟩ := encode_correct x.length x (le_refl _) hx
  obtain ⟨out', h1', h3, -, h4⟩ := decode_encode x.length x (le_refl _) hx
  have : out' = out := by rw [h1] at h1'; exact (Option.some.inj h1').symm
  subst this
  exact ⟨out', h1, h2, by rw [decode, if_neg (by omega), h3]⟩

/-- C40: a length that is not a multiple of four is rejected. -/
theorem decode_rejects_length (x : List Byte) (h : x.length % 4 ≠ 0) : decode x = some none := by
  rw [decode, if_pos h]

theorem decodeLoop_iff : ∀ (n : Nat) (x : List Byte), x.length = 4 * (n + 1) →
    ((∃ c ∈ x, ¬ InAlphabet c) → decodeLoop x = some none) ∧
    ((∀ c ∈ x, InAlphabet c) → ∃ out, decodeLoop x = some (some out) ∧ out.length ≤ 3 * (n + 1))
  | n, a :: b :: c :: d :: rest, h => by
    rw [decodeLoop]
    have hrest : rest.length = 4 * n := by simp at h; omega
    by_cases hi : illegal a || illegal b || illegal c || illegal d
    · rw [if_pos hi]
      refine ⟨fun _ => rfl, ?_⟩
      intro hall
      exfalso
      have ha := (illegal_iff a).2 (hall a (by simp))
      have hb := (illegal_iff b).2 (hall b (by simp))
      have hc := (illegal_iff c).2 (hall c (by simp))
      have hd := (illegal_iff d).2 (hall d (by simp))
      rw [ha, hb, hc, hd] at hi
      simp at hi
    · rw [if_neg hi]
      have hi' : illegal a = false ∧ illegal b = false ∧ illegal c = false ∧ illegal d = false := by
        simp only [Bool.or_eq_true, not_or, Bool.not_eq_true] at hi
        exact ⟨hi.1.1.1, hi.1.1.2, hi.1.2, hi.2⟩
      have hlen : ∀ (p q : Prop) [Decidable p] [Decidable q] (x y z : Byte),
          ([x] ++ (if p then [y] else []) ++ (if q then [z] else [])).length ≤ 3 := by
        intro p q _ _ x y z; split_ifs <;> simp
      dsimp only
      have hl := hlen (c ≠ pad) (d ≠ pad) (unb a <<< 2 ||| (unb b &&& 0x30) >>> 4)
        ((unb b &&& 0x0F) <<< 4 ||| (unb c &&& 0x3C) >>> 2) ((unb c &&& 0x03) <<< 6 ||| unb d)
      generalize [unb a <<< 2 ||| (unb b &&& 0x30) >>> 4] ++
        (if c ≠ pad then [(unb b &&& 0x0F) <<< 4 ||| (unb c &&& 0x3C) >>> 2] else []) ++
        (if d ≠ pad then [(unb c &&& 0x03) <<< 6 ||| unb d] else []) = o at hl ⊢
      match n, hrest with
      | 0, hrest =>
        have hr : rest = [] := List.length_eq_zero_iff.mp (by omega)
        subst hr
        rw [if_pos rfl]
        refine ⟨?_, fun _ => ⟨_, rfl, hl⟩⟩
        rintro ⟨z, hz, hnz⟩
        exfalso
        simp only [List.mem_cons, List.not_mem_nil, or_false] at hz
        rcases hz with rfl | rfl | rfl | rfl
        · exact hnz ((illegal_iff _).1 hi'.1)
        · exact hnz ((illegal_iff _).1 hi'.2.1)
        · exact hnz ((illegal_iff _).1 hi'.2.2.1)
        · exact hnz ((illegal_iff _).1 hi'.2.2.2)
      | n + 1, hrest =>
        have hr : rest ≠ [] := by intro h0; rw [h0] at hrest; simp at hrest
        rw [if_neg hr]
        obtain ⟨g1, g2⟩ := decodeLoop_iff n rest (by omega)
        constructor
        · rintro ⟨z, hz, hnz⟩
          have hz' : z ∈ rest := by
            simp only [List.mem_cons] at hz
            rcases hz with rfl | rfl | rfl | rfl | hz
            · exact absurd ((illegal_iff _).1 hi'.1) hnz
            · exact absurd ((illegal_iff _).1 hi'.2.1) hnz
            · exact absurd ((illegal_iff _).1 hi'.2.2.1) hnz
            · exact absurd ((illegal_iff _).1 hi'.2.2.2) hnz
            · exact hz
          rw [g1 ⟨z, hz', hnz⟩]
          rfl
        · intro hall
          obtain ⟨out, e1, e2⟩ := g2 (fun z hz => hall z (by simp [hz]))
          refine ⟨_, by rw [e1]; rfl, ?_⟩
          rw [List.length_append]; omega
  | n, [], h => by simp at h
  | n, [_], h => by simp at h; omega
  | n, [_, _], h => by simp at h; omega
  | n, [_, _, _], h => by simp at h; omega

/-- C40: a text of a positive multiple of four characters is rejected exactly when one of them is neither in
the alphabet nor `=`; otherwise at most `3/4` as many bytes are written. -/
theorem decode_rejects_iff (x : List Byte) (h0 : x ≠ []) (h4 : x.length % 4 = 0) :
    (decode x = some none ↔ ∃ c ∈ x, ¬ InAlphabet c) ∧
    (∀ out, decode x = some (some out) → 4 * out.length ≤ 3 * x.length) := by
  have hpos : 0 < x.length := List.length_pos_iff.mpr h0
  obtain ⟨g1, g2⟩ := decodeLoop_iff (x.length / 4 - 1) x (by omega)
  rw [decode, if_neg (by omega)]
  constructor
  · constructor
    · intro hd
      by_contra hne
      obtain ⟨out, e, -⟩ := g2 (fun c hc => by by_contra hn; exact hne ⟨c, hc, hn⟩)
      rw [e] at hd
      cases hd
    · exact g1
  · intro out ho
    by_cases hall : ∀ c ∈ x, InAlphabet c
    · obtain ⟨out', e, hl⟩ := g2 hall
      rw [e] at ho
      cases ho
      omega
    · have : ∃ c ∈ x, ¬ InAlphabet c := by
        by_contra hne
        exact hall (fun c hc => by by_contra hn; exact hne ⟨c, hc, hn⟩)
      rw [g1 this] at ho
      cases ho

/-- Both functions read beyond the buffer when the length is 0. -/
theorem base64_empty_ub : encode [] = none ∧ decode [] = none := ⟨rfl, rfl⟩

/-- Padding is accepted anywhere, and bits that padding leaves unused are not checked: "A=BC" and "QR==" decode. -/
theorem decode_accepts_bad_padding :
    decode [65, 61, 66, 67] = some (some [0, 0, 66]) ∧ decode [81, 82, 61, 61] = some (some [65]) ∧
    encode [65] = some [81, 81, 61, 61] := by decide +kernel

-- "Many hands" (10 bytes) and a bad character
example : encode [77, 97, 110, 121, 32, 104, 97, 110, 100, 115] =
    some ("TWFueSBoYW5kcw==".toList.map (fun c => BitVec.ofNat 8 c.toNat)) := by decide +kernel
example : decode [81, 82, 61, 0x80] = some none ∧ ¬ InAlphabet 0x80 ∧ InAlphabet 43 := by decide +kernel

end Verif.Base64
