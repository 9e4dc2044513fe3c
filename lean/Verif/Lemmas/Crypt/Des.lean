import Verif.Model.Crypt.Des
import Verif.Spec.Des
import Mathlib.Tactic.IntervalCases
/-! DES. -/
namespace Verif.Des
open Verif.DesS

/-! ### Bits of byte strings -/

def bit (l : List Byte) (k : Nat) : Bool := (l.getD (k / 8) 0).getLsbD (7 - k % 8)

theorem bits_eq (l : List Byte) : bits l = (List.range (8 * l.length)).map (bit l) := rfl

theorem bits_length (l : List Byte) : (bits l).length = 8 * l.length := by
  rw [bits_eq, List.length_map, List.length_range]

theorem bits_getD (l : List Byte) (k : Nat) : (bits l).getD k false = bit l k := by
  rw [bits_eq, List.getD_eq_getElem?_getD, List.getElem?_map]
  by_cases h : k < 8 * l.length
  · rw [List.getElem?_range h]; rfl
  · rw [List.getElem?_eq_none (by simp; omega), bit, List.getD_eq_getElem?_getD, List.getElem?_eq_none (by omega)]
    simp

theorem bits_ext {a b : List Byte} (hl : a.length = b.length) (h : ∀ k, k < 8 * a.length → bit a k = bit b k) :
    bits a = bits b := by
  rw [bits_eq, bits_eq, hl]
  apply List.map_congr_left
  intro k hk
  exact h k (by have := List.mem_range.1 hk; omega)

theorem bits_inj {a b : List Byte} (hl : a.length = b.length) (h : bits a = bits b) : a = b := by
  apply List.ext_getElem hl
  intro i h1 h2
  apply BitVec.eq_of_getLsbD_eq
  intro j hj
  have hk := congrArg (fun l => l.getD (8 * i + (7 - j)) false) h
  simp only [bits_getD, bit] at hk
  rw [show (8 * i + (7 - j)) / 8 = i by omega, show 7 - (8 * i + (7 - j)) % 8 = j by omega,
    List.getD_eq_getElem?_getD, List.getD_eq_getElem?_getD, List.getElem?_eq_getElem h1, List.getElem?_eq_getElem h2] at hk
  exact hk

/-- The bits of a byte. -/
def byteBits (b : Byte) : List Bool :=
  [b.getLsbD 7, b.getLsbD 6, b.getLsbD 5, b.getLsbD 4, b.getLsbD 3, b.getLsbD 2, b.getLsbD 1, b.getLsbD 0]

theorem bits_nil : bits [] = [] := rfl

theorem bits_cons (b : Byte) (l : List Byte) : bits (b :: l) = byteBits b ++ bits l := by
  rw [bits_eq, bits_eq, List.length_cons, show 8 * (l.length + 1) = 8 + 8 * l.length by omega, List.range_add,
    List.map_append, List.map_map]
  congr 1
  apply List.map_congr_left
  intro k _
  simp only [Function.comp, bit]
  rw [show (8 + k) / 8 = k / 8 + 1 by omega, show (8 + k) % 8 = k % 8 by omega, List.getD_cons_succ]

theorem bits_append (a b : List Byte) : bits (a ++ b) = bits a ++ bits b := by
  induction a with
  | nil => rfl
  | cons x a ih => rw [List.cons_append, bits_cons, bits_cons, ih, List.append_assoc]

theorem byteBits_length (b : Byte) : (byteBits b).length = 8 := rfl

/-! ### Permutations -/

theorem byte_get : ∀ (b : BitVec 8) (q : Nat), q < 8 → ((b &&& (0x80#8 >>> q)) != 0) = b.getLsbD (7 - q) := by
  decide +kernel

theorem byte_set : ∀ (b : BitVec 8) (q : Nat), q < 8 → ∀ r, r < 8 →
    (b ||| (0x80#8 >>> q)).getLsbD (7 - r) = (decide (r = q) || b.getLsbD (7 - r)) := by
  decide +kernel

theorem getBit_eq (l : List Byte) (k : Nat) : getBit l k = bit l k := byte_get _ _ (Nat.mod_lt _ (by omega))

theorem setBit_length (l : List Byte) (k : Nat) : (setBit l k).length = l.length := List.length_set

theorem setBit_bit {l : List Byte} {k : Nat} (h : k < 8 * l.length) (j : Nat) :
    bit (setBit l k) j = (decide (j = k) || bit l j) := by
  rw [bit, setBit, List.getD_eq_getElem?_getD, List.getElem?_set]
  by_cases he : k / 8 = j / 8
  · rw [if_pos he, if_pos (by omega)]
    have := byte_set (l.getD (k / 8) 0) (k % 8) (by omega) (j % 8) (by omega)
    rw [Option.getD_some, this, bit, he]
    congr 1
    exact decide_eq_decide.2 ⟨fun h => by omega, fun h => by omega⟩
  · rw [if_neg he, ← List.getD_eq_getElem?_getD, ← bit, decide_eq_false (by omega), Bool.false_or]

theorem replicate_bit (n j : Nat) : bit (List.replicate n 0) j = false := by
  rw [bit, List.getD_eq_getElem?_getD, List.getElem?_replicate]
  split_ifs <;> simp

theorem permute_fold (src : List Byte) (tab : List Nat) (len : Nat) : ∀ n, n ≤ len * 8 →
    let d := (List.range n).foldl (fun dst i => if getBit src (tab.getD i 0 - 1) then setBit dst i else dst)
      (List.replicate len 0)
    d.length = len ∧ ∀ j, bit d j = (decide (j < n) && bit src (tab.getD j 0 - 1)) := by
  intro n
  induction n with
  | zero =>
    intro _
    refine ⟨by simp, fun j => ?_⟩
    show bit (List.replicate len 0) j = _
    rw [replicate_bit]
    simp
  | succ n ih =>
    intro hn
    obtain ⟨h1, h2⟩ := ih (by omega)
    dsimp only at h1 h2 ⊢
    rw [List.range_succ, List.foldl_append, List.foldl_cons, List.foldl_nil]
    generalize (List.range n).foldl (fun dst i => if getBit src (tab.getD i 0 - 1) then setBit dst i else dst)
      (List.replicate len 0) = d at h1 h2 ⊢
    rw [getBit_eq]
    by_cases hb : bit src (tab.getD n 0 - 1) = true
    · rw [if_pos hb]
      refine ⟨by rw [setBit_length, h1], fun j => ?_⟩
      rw [setBit_bit (by omega), h2]
      by_cases hj : j = n
      · subst hj; simp [hb, -List.getD_eq_getElem?_getD]
      · by_cases hlt : j < n <;> simp [hj, hlt, show j < n + 1 ↔ j < n by omega]
    · rw [if_neg hb]
      refine ⟨h1, fun j => ?_⟩
      rw [h2]
      by_cases hj : j = n
      · subst hj
        rw [Bool.not_eq_true] at hb
        simp [hb, -List.getD_eq_getElem?_getD]
      · by_cases hlt : j < n <;> simp [hlt, show j < n + 1 ↔ j < n by omega]

theorem permute_length (src : List Byte) (tab : List Nat) (len : Nat) : (permute src tab len).length = len :=
  (permute_fold src tab len (len * 8) (le_refl _)).1

theorem permute_bits (src : List Byte) {tab : List Nat} {len : Nat} (h : tab.length = 8 * len) :
    bits (permute src tab len) = perm tab (bits src) := by
  obtain ⟨h1, h2⟩ := permute_fold src tab len (len * 8) (le_refl _)
  change (permute src tab len).length = len at h1
  change ∀ j, bit (permute src tab len) j = _ at h2
  rw [bits_eq, h1]
  apply List.ext_getElem
  · simp [perm, h]
  · intro k hk1 hk2
    rw [List.length_map, List.length_range] at hk1
    have hk : k < tab.length := by omega
    have he : (perm tab (bits src))[k] = (bits src).getD (tab[k] - 1) false := by simp only [perm, List.getElem_map]
    rw [he, List.getElem_map, List.getElem_range, h2, decide_eq_true (by omega), Bool.true_and, bits_getD,
      List.getD_eq_getElem?_getD, List.getElem?_eq_getElem hk]
    rfl

/-! ### Rotations -/

theorem seven_of_length {l : List Byte} (h : l.length = 7) : ∃ b0 b1 b2 b3 b4 b5 b6, l = [b0, b1, b2, b3, b4, b5, b6] := by
  match l, h with
  | [b0, b1, b2, b3, b4, b5, b6], _ => exact ⟨b0, b1, b2, b3, b4, b5, b6, rfl⟩

theorem rol_bits {l : List Byte} (h : l.length = 7) :
    bits (rol l) = ((bits l).take 28).rotate 1 ++ ((bits l).drop 28).rotate 1 := by
  obtain ⟨b0, b1, b2, b3, b4, b5, b6, rfl⟩ := seven_of_length h
  simp only [rol, bits_cons, bits_nil, byteBits, List.cons_append, List.nil_append, List.take_succ_cons, List.take_zero,
    List.drop_succ_cons, List.drop_zero, List.rotate_cons_succ, List.rotate_zero]
  simp only [List.cons.injEq, and_true]
  simp

theorem ror_bits {l : List Byte} (h : l.length = 7) :
    bits (ror l) = ((bits l).take 28).rotate 27 ++ ((bits l).drop 28).rotate 27 := by
  obtain ⟨b0, b1, b2, b3, b4, b5, b6, rfl⟩ := seven_of_length h
  simp only [ror, bits_cons, bits_nil, byteBits, List.cons_append, List.nil_append, List.take_succ_cons, List.take_zero,
    List.drop_succ_cons, List.drop_zero, List.rotate_cons_succ, List.rotate_zero]
  simp only [List.cons.injEq, and_true]
  simp

theorem rol_length {l : List Byte} (h : l.length = 7) : (rol l).length = 7 := by
  obtain ⟨b0, b1, b2, b3, b4, b5, b6, rfl⟩ := seven_of_length h
  rfl

theorem ror_length {l : List Byte} (h : l.length = 7) : (ror l).length = 7 := by
  obtain ⟨b0, b1, b2, b3, b4, b5, b6, rfl⟩ := seven_of_length h
  rfl

/-- The key register holds the two halves, rotated by `t`. -/
def KeyReg (C D : List Bool) (t : Nat) (l : List Byte) : Prop :=
  l.length = 7 ∧ C.length = 28 ∧ D.length = 28 ∧ bits l = C.rotate t ++ D.rotate t

theorem KeyReg.rol {C D : List Bool} {t : Nat} {l : List Byte} (h : KeyReg C D t l) : KeyReg C D (t + 1) (rol l) := by
  obtain ⟨h1, h2, h3, h4⟩ := h
  refine ⟨rol_length h1, h2, h3, ?_⟩
  rw [rol_bits h1, h4, List.take_left' (by rw [List.length_rotate, h2]), List.drop_left' (by rw [List.length_rotate, h2]),
    List.rotate_rotate, List.rotate_rotate]

theorem KeyReg.ror {C D : List Bool} {t : Nat} {l : List Byte} (h : KeyReg C D t l) : KeyReg C D (t + 27) (ror l) := by
  obtain ⟨h1, h2, h3, h4⟩ := h
  refine ⟨ror_length h1, h2, h3, ?_⟩
  rw [ror_bits h1, h4, List.take_left' (by rw [List.length_rotate, h2]), List.drop_left' (by rw [List.length_rotate, h2]),
    List.rotate_rotate, List.rotate_rotate]

theorem KeyReg.mod {C D : List Bool} {t u : Nat} {l : List Byte} (h : KeyReg C D t l) (hu : t % 28 = u % 28) :
    KeyReg C D u l := by
  obtain ⟨h1, h2, h3, h4⟩ := h
  refine ⟨h1, h2, h3, ?_⟩
  rw [h4, ← List.rotate_mod C t, ← List.rotate_mod D t, ← List.rotate_mod C u, ← List.rotate_mod D u, h2, h3, hu]

/-! ### Substitution -/

/-- The S-boxes of the code are those of the standard, in another order. -/
theorem sel_spec : ∀ j, j < 8 → ∀ x : BitVec 8, x.getLsbD 6 = false → x.getLsbD 7 = false →
    sel j [x.getLsbD 5, x.getLsbD 4, x.getLsbD 3, x.getLsbD 2, x.getLsbD 1, x.getLsbD 0] =
      [((sbox.getD j []).getD x.toNat 0).getLsbD 3, ((sbox.getD j []).getD x.toNat 0).getLsbD 2,
       ((sbox.getD j []).getD x.toNat 0).getLsbD 1, ((sbox.getD j []).getD x.toNat 0).getLsbD 0] ∧
    ((sbox.getD j []).getD x.toNat 0).getLsbD 4 = false ∧ ((sbox.getD j []).getD x.toNat 0).getLsbD 5 = false ∧
    ((sbox.getD j []).getD x.toNat 0).getLsbD 6 = false ∧ ((sbox.getD j []).getD x.toNat 0).getLsbD 7 = false := by
  decide +kernel

theorem nibbles {p q : Byte} (h4 : q.getLsbD 4 = false) (h5 : q.getLsbD 5 = false) (h6 : q.getLsbD 6 = false)
    (h7 : q.getLsbD 7 = false) : byteBits ((p <<< 4) ||| q) =
      [p.getLsbD 3, p.getLsbD 2, p.getLsbD 1, p.getLsbD 0] ++ [q.getLsbD 3, q.getLsbD 2, q.getLsbD 1, q.getLsbD 0] := by
  simp at h4 h5 h6 h7
  simp [byteBits, h4, h5, h6, h7]

theorem pair_spec {i j : Nat} (hi : i < 8) (hj : j < 8) {x y : Byte} (x6 : x.getLsbD 6 = false) (x7 : x.getLsbD 7 = false)
    (y6 : y.getLsbD 6 = false) (y7 : y.getLsbD 7 = false) :
    byteBits ((((sbox.getD i []).getD x.toNat 0) <<< 4) ||| ((sbox.getD j []).getD y.toNat 0)) =
      sel i [x.getLsbD 5, x.getLsbD 4, x.getLsbD 3, x.getLsbD 2, x.getLsbD 1, x.getLsbD 0] ++
      sel j [y.getLsbD 5, y.getLsbD 4, y.getLsbD 3, y.getLsbD 2, y.getLsbD 1, y.getLsbD 0] := by
  obtain ⟨hx, -⟩ := sel_spec i hi x x6 x7
  obtain ⟨hy, h4, h5, h6, h7⟩ := sel_spec j hj y y6 y7
  rw [nibbles h4 h5 h6 h7, hx, hy]

theorem six_of_length {l : List Byte} (h : l.length = 6) : ∃ b0 b1 b2 b3 b4 b5, l = [b0, b1, b2, b3, b4, b5] := by
  match l, h with
  | [b0, b1, b2, b3, b4, b5], _ => exact ⟨b0, b1, b2, b3, b4, b5, rfl⟩

theorem subst_bits {e : List Byte} (h : e.length = 6) :
    bits (subst e) = (List.range 8).flatMap fun j => sel j (((bits e).drop (6 * j)).take 6) := by
  obtain ⟨b0, b1, b2, b3, b4, b5, rfl⟩ := six_of_length h
  have hr : (List.range 8).flatMap (fun j => sel j (((bits [b0, b1, b2, b3, b4, b5]).drop (6 * j)).take 6)) =
      (sel 0 [b0.getLsbD 7, b0.getLsbD 6, b0.getLsbD 5, b0.getLsbD 4, b0.getLsbD 3, b0.getLsbD 2] ++
       sel 1 [b0.getLsbD 1, b0.getLsbD 0, b1.getLsbD 7, b1.getLsbD 6, b1.getLsbD 5, b1.getLsbD 4]) ++
      ((sel 2 [b1.getLsbD 3, b1.getLsbD 2, b1.getLsbD 1, b1.getLsbD 0, b2.getLsbD 7, b2.getLsbD 6] ++
       sel 3 [b2.getLsbD 5, b2.getLsbD 4, b2.getLsbD 3, b2.getLsbD 2, b2.getLsbD 1, b2.getLsbD 0]) ++
      ((sel 4 [b3.getLsbD 7, b3.getLsbD 6, b3.getLsbD 5, b3.getLsbD 4, b3.getLsbD 3, b3.getLsbD 2] ++
       sel 5 [b3.getLsbD 1, b3.getLsbD 0, b4.getLsbD 7, b4.getLsbD 6, b4.getLsbD 5, b4.getLsbD 4]) ++
      ((sel 6 [b4.getLsbD 3, b4.getLsbD 2, b4.getLsbD 1, b4.getLsbD 0, b5.getLsbD 7, b5.getLsbD 6] ++
       sel 7 [b5.getLsbD 5, b5.getLsbD 4, b5.getLsbD 3, b5.getLsbD 2, b5.getLsbD 1, b5.getLsbD 0]) ++ []))) := by
    simp only [show List.range 8 = [0, 1, 2, 3, 4, 5, 6, 7] from rfl, List.flatMap_cons, List.flatMap_nil, bits_cons,
      bits_nil, byteBits, List.append_assoc, Nat.reduceMul, List.cons_append, List.nil_append, List.drop_succ_cons,
      List.drop_zero, List.take_succ_cons, List.take_zero, List.append_nil]
  rw [hr, subst]
  dsimp only
  rw [bits_cons, bits_cons, bits_cons, bits_cons, bits_nil]
  refine congrArg₂ _ ?_ (congrArg₂ _ ?_ (congrArg₂ _ ?_ (congrArg₂ _ ?_ rfl)))
  · refine (pair_spec (i := 0) (j := 1) (by omega) (by omega) (by simp) (by simp) (by simp) (by simp)).trans ?_
    simp
  · refine (pair_spec (i := 2) (j := 3) (by omega) (by omega) (by simp) (by simp) (by simp) (by simp)).trans ?_
    simp
  · refine (pair_spec (i := 4) (j := 5) (by omega) (by omega) (by simp) (by simp) (by simp) (by simp)).trans ?_
    simp
  · refine (pair_spec (i := 6) (j := 7) (by omega) (by omega) (by simp) (by simp) (by simp) (by simp)).trans ?_
    simp

theorem mxor_bits : ∀ {a b : List Byte}, a.length = b.length → bits (mxor a b) = DesS.xor (bits a) (bits b)
  | [], [], _ => rfl
  | x :: a, y :: b, h => by
    have := mxor_bits (a := a) (b := b) (by simpa using h)
    rw [mxor, List.zipWith_cons_cons, bits_cons, bits_cons, bits_cons, ← mxor, this]
    simp [DesS.xor, byteBits]

theorem mxor_length {a b : List Byte} (h : a.length = b.length) : (mxor a b).length = a.length := by
  rw [mxor, List.length_zipWith, ← h, Nat.min_self]

end Verif.Des
