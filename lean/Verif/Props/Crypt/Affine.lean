import Verif.Model.Crypt.Affine
import Verif.Props.LongInv
/-!
# C43: the affine cipher
-/
namespace Verif.Affine
open Verif.LongInv

theorem odd_coprime : ∀ a : Byte, a &&& 1#8 = 1#8 ↔ Nat.Coprime a.toNat 256 := by decide +kernel

/-- The inverse stored for an odd multiplier. -/
theorem inv_byte (a : Byte) (h : a &&& 1#8 = 1#8) :
    ∃ i, longInv (a.setWidth 64) 256 = some i ∧ a * i.setWidth 8 = 1 := by
  obtain ⟨i, h1, h2, -⟩ := longInv_correct (a.setWidth 64) 256 (by decide)
  refine ⟨i, h1, ?_⟩
  have ha : (a.setWidth 64).toNat = a.toNat := by
    rw [BitVec.toNat_setWidth, Nat.mod_eq_of_lt]; have := a.isLt; omega
  obtain ⟨h3, h4⟩ := h2 (by rw [ha]; exact (odd_coprime a).mp h)
  rw [ha] at h4
  have h5 : (256 : BitVec 64).toNat = 256 := rfl
  rw [h5] at h3 h4
  apply BitVec.eq_of_toNat_eq
  rw [BitVec.toNat_mul, BitVec.toNat_setWidth, Nat.mod_eq_of_lt (a := i.toNat) (by omega), Nat.mul_comm]
  exact h4

theorem invLoop_ok : ∀ as : List Byte, (∀ a ∈ as, a &&& 1#8 = 1#8) →
    ∃ l, invLoop as = some (0, l) ∧ List.Forall₂ (fun a i => a * i = 1) as l
  | [], _ => ⟨[], rfl, List.Forall₂.nil⟩
  | a :: as, h => by
    obtain ⟨i, h1, h2⟩ := inv_byte a (h a (by simp))
    obtain ⟨l, h3, h4⟩ := invLoop_ok as (fun x hx => h x (by simp [hx]))
    refine ⟨i.setWidth 8 :: l, ?_, List.Forall₂.cons h2 h4⟩
    rw [invLoop, if_neg (by simp [h a (by simp)]), h1]
    dsimp only
    rw [h3]; rfl

theorem invLoop_bad : ∀ as : List Byte, (¬ ∀ a ∈ as, a &&& 1#8 = 1#8) → ∃ l, invLoop as = some (-1, l)
  | [], h => absurd (by simp) h
  | a :: as, h => by
    by_cases ha : a &&& 1#8 = 1#8
    · obtain ⟨l, h3⟩ := invLoop_bad as (fun hc => h (by
        intro x hx
        rcases List.mem_cons.mp hx with rfl | hx
        · exact ha
        · exact hc x hx))
      obtain ⟨i, h1, -⟩ := inv_byte a ha
      refine ⟨i.setWidth 8 :: l, ?_⟩
      rw [invLoop, if_neg (by simp [ha]), h1]
      dsimp only
      rw [h3]; rfl
    · exact ⟨[], by rw [invLoop, if_pos (by simpa using ha)]⟩

/-- `cry_affine_init` succeeds exactly when every multiplier it keeps (the first 32) is invertible modulo 256. -/
theorem affine_init_iff (keya keyb : List Byte) (h : keyb.length = keya.length) :
    ∃ res c, init keya keyb keya.length = some (res, c) ∧ (res = 0 ∨ res = -1) ∧
      (res = 0 ↔ ∀ a ∈ keya.take 32, ∃ b : Byte, a * b = 1) := by
  unfold init
  dsimp only
  have ht : keya.take (if keya.length > 32 then 32 else keya.length) = keya.take 32 := by
    split_ifs with hc
    · rfl
    · rw [List.take_of_length_le (l := keya) (le_refl _), List.take_of_length_le (l := keya) (by omega)]
  have hl : ¬ (keya.length < (if keya.length > 32 then 32 else keya.length) ∨
      keyb.length < (if keya.length > 32 then 32 else keya.length)) := by split_ifs <;> omega
  have hu : ∀ a : Byte, a &&& 1#8 = 1#8 ↔ ∃ b : Byte, a * b = 1 := by
    intro a
    constructor
    · intro h
      obtain ⟨i, -, h2⟩ := inv_byte a h
      exact ⟨_, h2⟩
    · rintro ⟨b, hb⟩
      have h0 : ∀ a b : BitVec 8, (a * b) &&& 1#8 = (a &&& 1#8) &&& (b &&& 1#8) := by
        intro a b
        apply BitVec.eq_of_toNat_eq
        simp only [BitVec.toNat_and, BitVec.toNat_mul, BitVec.toNat_ofNat, Nat.reducePow, Nat.reduceMod, Nat.and_one_is_mod]
        rw [Nat.mod_mod_of_dvd _ (by decide), Nat.mul_mod]
        rcases Nat.mod_two_eq_zero_or_one a.toNat with h | h <;> rcases Nat.mod_two_eq_zero_or_one b.toNat with h' | h' <;>
          rw [h, h'] <;> rfl
      have h1 := h0 a b
      rw [hb] at h1
      have h2 : ∀ x y : Byte, x = 0 ∨ x = 1#8 → (1 : Byte) &&& 1#8 = x &&& y → x = 1#8 := by
        rintro x y (rfl | rfl) h
        · simp at h
        · rfl
      refine h2 _ _ ?_ h1
      clear hb h1
      revert a; decide +kernel
  rw [if_neg hl, ht]
  by_cases hc : ∀ a ∈ keya.take 32, a &&& 1#8 = 1#8
  · obtain ⟨l, h1, -⟩ := invLoop_ok _ hc
    exact ⟨0, _, by rw [h1]; rfl, Or.inl rfl, by simpa using fun a ha => (hu a).mp (hc a ha)⟩
  · obtain ⟨l, h1⟩ := invLoop_bad _ hc
    refine ⟨-1, _, by rw [h1]; rfl, Or.inr rfl, ?_⟩
    constructor
    · intro h; simp at h
    · intro h; exact absurd (fun a ha => (hu a).mpr (h a ha)) hc

/-- What a context holds after a successful initialisation. -/
structure Ok (c : Ctx) : Prop where
  pos : 0 < c.keylen
  inv : ∀ k, k < c.keylen → ∃ a b i, c.keya[k]? = some a ∧ c.keyb[k]? = some b ∧ c.inva[k]? = some i ∧ a * i = 1

theorem forall₂_get {R : Byte → Byte → Prop} : ∀ {as bs : List Byte}, List.Forall₂ R as bs → ∀ k, k < as.length →
    ∃ a b, as[k]? = some a ∧ bs[k]? = some b ∧ R a b
  | _, _, .nil, k, h => by simp at h
  | _, _, .cons h hs, 0, _ => ⟨_, _, rfl, rfl, h⟩
  | _, _, .cons h hs, k + 1, hk => by
    simpa using forall₂_get hs k (by simpa using hk)

theorem init_ok (keya keyb : List Byte) (h : keyb.length = keya.length) (hpos : 0 < keya.length) (c : Ctx)
    (hi : init keya keyb keya.length = some (0, c)) :
    Ok c ∧ c.keylen = min keya.length 32 ∧
      ∀ k, k < c.keylen → c.keya[k]? = keya[k]? ∧ c.keyb[k]? = keyb[k]? := by
  unfold init at hi
  dsimp only at hi
  have hn : (if keya.length > 32 then 32 else keya.length) = min keya.length 32 := by split_ifs <;> omega
  rw [hn] at hi
  rw [if_neg (by omega)] at hi
  by_cases hc : ∀ a ∈ keya.take (min keya.length 32), a &&& 1#8 = 1#8
  · obtain ⟨l, h1, h2⟩ := invLoop_ok _ hc
    rw [h1, Option.map_some] at hi
    simp only [Option.some.injEq, Prod.mk.injEq, true_and] at hi
    subst hi
    have hla : (keya.take (min keya.length 32)).length = min keya.length 32 := by rw [List.length_take]; omega
    have hlb : (keyb.take (min keya.length 32)).length = min keya.length 32 := by rw [List.length_take]; omega
    have hli : ∀ {as bs : List Byte}, List.Forall₂ (fun a i => a * i = 1) as bs → as.length = bs.length := by
      intro as bs h; induction h <;> simp_all
    have hli := hli h2
    have hp : ∀ (l : List Byte) k, k < l.length → (pad l)[k]? = l[k]? := by
      intro l k hk; rw [pad, List.getElem?_append_left hk]
    refine ⟨⟨by dsimp only; omega, ?_⟩, rfl, ?_⟩
    · intro k hk
      dsimp only at hk ⊢
      obtain ⟨a, i, ha, hi, hai⟩ := forall₂_get h2 k (by rw [hla]; exact hk)
      refine ⟨a, (keyb.take (min keya.length 32))[k]'(by omega), i, ?_, ?_, ?_, hai⟩
      · rw [hp _ _ (by omega), ha]
      · rw [hp _ _ (by omega), List.getElem?_eq_getElem]
      · rw [hp _ _ (by omega), hi]
    · intro k hk
      dsimp only at hk ⊢
      rw [hp _ _ (by omega), hp _ _ (by omega), List.getElem?_take_of_lt hk, List.getElem?_take_of_lt hk]
      exact ⟨rfl, rfl⟩
  · obtain ⟨l, h1⟩ := invLoop_bad _ hc
    rw [h1] at hi
    simp at hi

theorem next_lt {c : Ctx} (h : Ok c) {k : Nat} (hk : k < c.keylen) : (if k + 1 = c.keylen then 0 else k + 1) < c.keylen := by
  have := h.pos
  split_ifs <;> omega

theorem inv_mul {a i x b : Byte} (h : a * i = 1) : (x * a + b - b) * i = x := by
  rw [BitVec.add_sub_cancel, BitVec.mul_assoc, h]; exact BitVec.mul_one x

theorem mul_inv {a i x b : Byte} (h : a * i = 1) : (x - b) * i * a + b = x := by
  rw [BitVec.mul_assoc, BitVec.mul_comm i a, h, show (x - b) * (1 : Byte) = x - b from BitVec.mul_one _,
    BitVec.sub_add_cancel]

theorem dec_encLoop {c : Ctx} (h : Ok c) : ∀ (l : List Byte) (k : Nat), k < c.keylen →
    ∃ x, encLoop c k l = some x ∧ x.length = l.length ∧ decLoop c k x = some l
  | [], k, _ => ⟨[], rfl, rfl, rfl⟩
  | x :: l, k, hk => by
    obtain ⟨a, b, i, ha, hb, hi, hai⟩ := h.inv k hk
    obtain ⟨y, h1, h2, h3⟩ := dec_encLoop h l _ (next_lt h hk)
    refine ⟨(x * a + b) :: y, ?_, by simp [h2], ?_⟩
    · rw [encLoop, ha, hb]; dsimp only; rw [h1]; rfl
    · rw [decLoop, hi, hb]; dsimp only; rw [h3, inv_mul hai]; rfl

theorem enc_decLoop {c : Ctx} (h : Ok c) : ∀ (l : List Byte) (k : Nat), k < c.keylen →
    ∃ x, decLoop c k l = some x ∧ x.length = l.length ∧ encLoop c k x = some l
  | [], k, _ => ⟨[], rfl, rfl, rfl⟩
  | x :: l, k, hk => by
    obtain ⟨a, b, i, ha, hb, hi, hai⟩ := h.inv k hk
    obtain ⟨y, h1, h2, h3⟩ := enc_decLoop h l _ (next_lt h hk)
    refine ⟨((x - b) * i) :: y, ?_, by simp [h2], ?_⟩
    · rw [decLoop, hi, hb]; dsimp only; rw [h1]; rfl
    · rw [encLoop, ha, hb]; dsimp only; rw [h3, mul_inv hai]; rfl

/-- Full statement: after a successful `cry_affine_init` decrypting an encrypted message returns it.  Proved for every
key of at least one byte and every message (and so is the converse); missing is the empty key, for which it is false
(`affine_empty_key`). -/
theorem affine_roundtrip_partial (keya keyb : List Byte) (h : keyb.length = keya.length) (hpos : 0 < keya.length) (c : Ctx)
    (hi : init keya keyb keya.length = some (0, c)) (msg : List Byte) :
    (∃ x, encrypt c msg = some x ∧ x.length = msg.length ∧ decrypt c x = some msg) ∧
    (∃ x, decrypt c msg = some x ∧ x.length = msg.length ∧ encrypt c x = some msg) :=
  have hok := (init_ok keya keyb h hpos c hi).1
  ⟨dec_encLoop hok msg 0 hok.pos, enc_decLoop hok msg 0 hok.pos⟩

example : ∃ c, init [3, 5, 255] [7, 0, 9] 3 = some (0, c) := by
  obtain ⟨res, c, h1, h2, h3⟩ := affine_init_iff [3, 5, 255] [7, 0, 9] rfl
  have : res = 0 := h3.mpr (by
    intro a ha
    simp at ha
    rcases ha with rfl | rfl | rfl
    · exact ⟨171, by decide⟩
    · exact ⟨205, by decide⟩
    · exact ⟨255, by decide⟩)
  exact ⟨c, by rw [← this]; exact h1⟩

theorem enc_at {c : Ctx} (h : Ok c) : ∀ (l : List Byte) (k : Nat), k < c.keylen → ∀ x, encLoop c k l = some x →
    ∀ j, j < l.length → ∃ a b m, c.keya[(k + j) % c.keylen]? = some a ∧ c.keyb[(k + j) % c.keylen]? = some b ∧
      l[j]? = some m ∧ x[j]? = some (m * a + b)
  | [], k, _, x, _, j, hj => by simp at hj
  | y :: l, k, hk, x, hx, j, hj => by
    obtain ⟨a, b, i, ha, hb, hi, hai⟩ := h.inv k hk
    rw [encLoop, ha, hb] at hx
    dsimp only at hx
    obtain ⟨z, hz, -⟩ := dec_encLoop h l _ (next_lt h hk)
    rw [hz, Option.map_some, Option.some.injEq] at hx
    subst hx
    cases j with
    | zero => exact ⟨a, b, y, by rw [Nat.add_zero, Nat.mod_eq_of_lt hk, ha], by rw [Nat.add_zero, Nat.mod_eq_of_lt hk, hb], rfl, rfl⟩
    | succ j =>
      obtain ⟨a', b', m, h1, h2, h3, h4⟩ := enc_at h l _ (next_lt h hk) z hz j (by simpa using hj)
      have he : ((if k + 1 = c.keylen then 0 else k + 1) + j) % c.keylen = (k + (j + 1)) % c.keylen := by
        split_ifs with hc
        · rw [show k + (j + 1) = c.keylen + j by omega, Nat.add_mod_left, Nat.zero_add]
        · rw [show k + 1 + j = k + (j + 1) by omega]
      rw [he] at h1 h2
      exact ⟨a', b', m, h1, h2, by simpa using h3, by simpa using h4⟩

/-- The cipher text: byte `j` is the message byte times multiplier `j mod n` plus offset `j mod n`, where `n` is the key
length (at most 32). -/
theorem affine_standard (keya keyb : List Byte) (h : keyb.length = keya.length) (hpos : 0 < keya.length) (c : Ctx)
    (hi : init keya keyb keya.length = some (0, c)) (msg x : List Byte) (hx : encrypt c msg = some x) (j : Nat)
    (hj : j < msg.length) :
    ∃ a b m, keya[j % min keya.length 32]? = some a ∧ keyb[j % min keya.length 32]? = some b ∧ msg[j]? = some m ∧
      x[j]? = some (m * a + b) := by
  obtain ⟨hok, hl, hk⟩ := init_ok keya keyb h hpos c hi
  obtain ⟨a, b, m, h1, h2, h3, h4⟩ := enc_at hok msg 0 hok.pos x hx j hj
  rw [Nat.zero_add] at h1 h2
  have hlt : j % c.keylen < c.keylen := Nat.mod_lt _ hok.pos
  obtain ⟨e1, e2⟩ := hk _ hlt
  rw [← hl]
  exact ⟨a, b, m, by rw [← e1, h1], by rw [← e2, h2], h3, h4⟩

/-- With an empty key initialisation succeeds, but every message of up to 32 bytes is encrypted to zeros, and a longer
one makes the code read past its key arrays. -/
theorem affine_empty_key : ∃ c, init [] [] 0 = some (0, c) ∧ encrypt c [5] = some [0] ∧ decrypt c [0] = some [0] ∧
    encrypt c (List.replicate 33 5) = none := ⟨_, rfl, by decide +kernel, by decide +kernel, by decide +kernel⟩

end Verif.Affine
