import Verif.Spec.Hash
import Verif.Lemmas.Modes.Ctr
import Verif.Lemmas.Bytes
/-! Iterating a compression function over a message that arrives in parts. -/
namespace Verif.HashL
open Verif.Modes Verif.HashS

variable {σ : Type} {B : Nat} {f : σ → List Byte → σ} {iv st : σ} {m r : List Byte}

theorem mdFold_cons (hB : 0 < B) {a : List Byte} (ha : a.length = B) (l : List Byte) :
    mdFold B f iv (a ++ l) = mdFold B f (f iv a) l := by
  unfold mdFold
  have : (a ++ l).length / B = l.length / B + 1 := by
    rw [List.length_append, ha, Nat.add_comm, Nat.add_div_right _ hB]
  rw [this, List.range_succ_eq_map, List.map_cons, List.map_map, List.foldl_cons, Nat.mul_zero, List.drop_zero,
    ← ha, List.take_left]
  congr 1
  apply List.map_congr_left
  intro i _
  simp only [Function.comp]
  rw [Nat.mul_succ, Nat.add_comm, ← List.drop_drop, List.drop_left]

theorem mdFold_blocks (hB : 0 < B) : ∀ (bs : List (List Byte)) (iv : σ) (l : List Byte), Blocks B bs →
    mdFold B f iv (bs.flatten ++ l) = mdFold B f (bs.foldl f iv) l
  | [], _, _, _ => rfl
  | b :: bs, iv, l, h => by
    obtain ⟨h1, h2⟩ := h.cons
    rw [List.flatten_cons, List.append_assoc, mdFold_cons hB h1, mdFold_blocks hB bs _ _ h2, List.foldl_cons]

theorem mdFold_nil : mdFold B f iv [] = iv := by simp [mdFold]

theorem mdFold_one (hB : 0 < B) {a : List Byte} (ha : a.length = B) : mdFold B f iv a = f iv a := by
  have := mdFold_cons (f := f) (iv := iv) hB ha []
  rwa [List.append_nil, mdFold_nil] at this

theorem mdFold_congr (hB : 0 < B) {g : σ → List Byte → σ} (h : ∀ s b, b.length = B → f s b = g s b) (s : σ)
    (l : List Byte) : mdFold B f s l = mdFold B g s l := by
  have hgen : ∀ (bs : List (List Byte)) (s : σ), (∀ b ∈ bs, b.length = B) → bs.foldl f s = bs.foldl g s := by
    intro bs
    induction bs with
    | nil => intro s _; rfl
    | cons b bs ih =>
      intro s hb
      rw [List.foldl_cons, List.foldl_cons, h s b (hb b (by simp)), ih _ (fun x hx => hb x (by simp [hx]))]
  unfold mdFold
  apply hgen
  intro b hb
  obtain ⟨i, hi, rfl⟩ := List.mem_map.1 hb
  have hi := List.mem_range.1 hi
  have h1 : (i + 1) * B ≤ l.length := le_trans (Nat.mul_le_mul_right B hi) (Nat.div_mul_le_self _ _)
  rw [List.length_take, List.length_drop]
  rw [Nat.succ_mul, Nat.mul_comm i B] at h1
  omega

/-- `m` has been consumed: `st` is the state after its whole blocks, `r` the rest. -/
def Md (B : Nat) (f : σ → List Byte → σ) (iv : σ) (m : List Byte) (st : σ) (r : List Byte) : Prop :=
  r.length < B ∧ ∃ bs, Blocks B bs ∧ m = bs.flatten ++ r ∧ st = bs.foldl f iv

theorem Md.nil (hB : 0 < B) : Md B f iv [] iv [] := ⟨hB, [], by intro b hb; simp at hb, rfl, rfl⟩

theorem Md.rest_length (h : Md B f iv m st r) : r.length = m.length % B := by
  obtain ⟨hr, bs, hb, rfl, -⟩ := h
  rw [List.length_append, hb.length, Nat.mul_add_mod_self_right, Nat.mod_eq_of_lt hr]

/-- More bytes that do not fill the block. -/
theorem Md.short (h : Md B f iv m st r) {d : List Byte} (hd : r.length + d.length < B) :
    Md B f iv (m ++ d) st (r ++ d) := by
  obtain ⟨hr, bs, hb, rfl, hst⟩ := h
  exact ⟨by rw [List.length_append]; exact hd, bs, hb, by rw [List.append_assoc], hst⟩

/-- Bytes that fill the block exactly. -/
theorem Md.full (h : Md B f iv m st r) {d : List Byte} (hd : r.length + d.length = B) :
    Md B f iv (m ++ d) (f st (r ++ d)) [] := by
  obtain ⟨hr, bs, hb, rfl, hst⟩ := h
  refine ⟨by simp; omega, bs ++ [r ++ d], ?_, ?_, ?_⟩
  · exact hb.append (Blocks.mk (by rw [List.length_append]; exact hd) (by intro b hb; simp at hb))
  · simp
  · rw [List.foldl_append, ← hst]; rfl

/-- Whole blocks after whole blocks. -/
theorem Md.blocks (h : Md B f iv m st []) {ds : List (List Byte)} (hd : Blocks B ds) :
    Md B f iv (m ++ ds.flatten) (ds.foldl f st) [] := by
  obtain ⟨hr, bs, hb, rfl, hst⟩ := h
  refine ⟨hr, bs ++ ds, hb.append hd, by simp, by rw [List.foldl_append, hst]⟩

theorem Md.fold (h : Md B f iv m st r) (l : List Byte) : mdFold B f iv (m ++ l) = mdFold B f st (r ++ l) := by
  obtain ⟨hr, bs, hb, rfl, rfl⟩ := h
  rw [List.append_assoc, mdFold_blocks (by omega) bs _ _ hb]

theorem Md.done (h : Md B f iv m st []) : mdFold B f iv m = st := by
  have := h.fold []
  rwa [List.append_nil, List.append_nil, mdFold_nil] at this

/-- The number of zeros in the padding. -/
theorem pad_zeros {L x y : Nat} (hL : L < B) (hy : y = x % B) :
    (B - (x + 1 + L) % B) % B = if y + 1 + L ≤ B then B - (y + 1 + L) else 2 * B - (y + 1 + L) := by
  subst hy
  have hB : 0 < B := by omega
  have h1 : (x + 1 + L) % B = (x % B + 1 + L) % B := by
    rw [Nat.add_assoc, Nat.add_assoc, Nat.mod_add_mod]
  rw [h1]
  have hlt := Nat.mod_lt x hB
  generalize x % B = y at *
  split_ifs with h
  · by_cases he : y + 1 + L = B
    · rw [he, Nat.mod_self, Nat.sub_zero, Nat.mod_self, Nat.sub_self]
    · have h2 : (y + 1 + L) % B = y + 1 + L := Nat.mod_eq_of_lt (by omega)
      rw [h2, Nat.mod_eq_of_lt (by omega)]
  · have h2 : (y + 1 + L) % B = y + 1 + L - B := by
      rw [Nat.mod_eq_sub_mod (by omega)]
      exact Nat.mod_eq_of_lt (by omega)
    rw [h2, Nat.mod_eq_of_lt (by omega)]
    omega

/-- Hashing the padded message from the state and the rest, when the padding fits into the block. -/
theorem Md.pad_one (h : Md B f iv m st r) {L : Nat} {len : List Byte} (hl : len.length = L) (hL : L < B)
    (hr : r.length + 1 + L ≤ B) :
    mdFold B f iv (mdPad B L len m) = f st (r ++ [0x80] ++ List.replicate (B - (r.length + 1 + L)) 0 ++ len) := by
  rw [mdPad, List.append_assoc, List.append_assoc, h.fold, pad_zeros hL h.rest_length, if_pos hr,
    ← List.append_assoc, ← List.append_assoc, mdFold_one (by omega)]
  simp only [List.length_append, List.length_replicate, List.length_singleton]
  omega

/-- Hashing the padded message from the state and the rest, when the padding needs another block. -/
theorem Md.pad_two (h : Md B f iv m st r) {L : Nat} {len : List Byte} (hl : len.length = L) (hL : L < B)
    (hr : B < r.length + 1 + L) :
    mdFold B f iv (mdPad B L len m) = f (f st (r ++ [0x80] ++ List.replicate (B - (r.length + 1)) 0))
      (List.replicate (B - L) 0 ++ len) := by
  have hr' := h.1
  rw [mdPad, List.append_assoc, List.append_assoc, h.fold, pad_zeros hL h.rest_length, if_neg (by omega),
    show 2 * B - (r.length + 1 + L) = (B - (r.length + 1)) + (B - L) by omega, ← List.replicate_append_replicate,
    ← List.append_assoc, ← List.append_assoc, ← List.append_assoc, List.append_assoc _ _ len,
    mdFold_cons (by omega), mdFold_one (by omega)]
  · simp only [List.length_append, List.length_replicate]; omega
  · simp only [List.length_append, List.length_replicate, List.length_singleton]; omega

/-! ### Words -/

theorem beVal_four (a b c d : Byte) : Modes.beVal [a, b, c, d] = (read32be a b c d).toNat := by
  rw [read32be_eq, BitVec.toNat_append, BitVec.toNat_append, BitVec.toNat_append]
  simp only [Modes.beVal, List.foldl_cons, List.foldl_nil]
  have ha := a.isLt; have hb := b.isLt; have hc := c.isLt; have hd := d.isLt
  rw [← Nat.shiftLeft_add_eq_or_of_lt hb, ← Nat.shiftLeft_add_eq_or_of_lt hc, ← Nat.shiftLeft_add_eq_or_of_lt hd,
    Nat.shiftLeft_eq, Nat.shiftLeft_eq, Nat.shiftLeft_eq]
  omega

theorem read64be_eq (a b c d e f g h : Byte) :
    read64be a b c d e f g h = read32be a b c d ++ read32be e f g h := by
  rw [read32be_eq, read32be_eq]
  apply BitVec.eq_of_getLsbD_eq
  intro i hi
  simp only [read64be, BitVec.getLsbD_append, BitVec.getLsbD_or, BitVec.getLsbD_shiftLeft,
    BitVec.getLsbD_setWidth]
  interval_cases i <;> simp

theorem beVal_eight (a b c d e f g h : Byte) :
    Modes.beVal [a, b, c, d, e, f, g, h] = (read64be a b c d e f g h).toNat := by
  rw [read64be_eq, BitVec.toNat_append, ← Nat.shiftLeft_add_eq_or_of_lt (read32be e f g h).isLt, ← beVal_four,
    ← beVal_four, Nat.shiftLeft_eq]
  simp only [Modes.beVal, List.foldl_cons, List.foldl_nil]
  omega

theorem write32be_encode (v : BitVec 32) : write32be v = encodeBE 4 v.toNat := by
  obtain ⟨a, b, c, d, hw, hr⟩ := exists_write32be v
  rw [hw, ← hr, ← beVal_four]
  exact (encodeBE_beVal [a, b, c, d]).symm

theorem write64be_encode (v : BitVec 64) : write64be v = encodeBE 8 v.toNat := by
  have h : read64be ((v >>> 56 &&& 0xff#64).setWidth 8) ((v >>> 48 &&& 0xff#64).setWidth 8)
      ((v >>> 40 &&& 0xff#64).setWidth 8) ((v >>> 32 &&& 0xff#64).setWidth 8)
      ((v >>> 24 &&& 0xff#64).setWidth 8) ((v >>> 16 &&& 0xff#64).setWidth 8)
      ((v >>> 8 &&& 0xff#64).setWidth 8) ((v &&& 0xff#64).setWidth 8) = v := by
    apply BitVec.eq_of_getLsbD_eq
    intro i hi
    simp only [read64be, BitVec.getLsbD_or, BitVec.getLsbD_shiftLeft, BitVec.getLsbD_setWidth,
      BitVec.getLsbD_and, BitVec.getLsbD_ushiftRight]
    interval_cases i <;> simp
  conv_rhs => rw [← h, ← beVal_eight]
  exact (encodeBE_beVal _).symm

theorem write32be_pair (u v : BitVec 32) :
    write32be u ++ write32be v = encodeBE 8 (u.toNat * 4294967296 + v.toNat) := by
  obtain ⟨a, b, c, d, hu, hru⟩ := exists_write32be u
  obtain ⟨e, f, g, h, hv, hrv⟩ := exists_write32be v
  rw [hu, hv, ← hru, ← hrv, ← beVal_four, ← beVal_four]
  refine Eq.trans (encodeBE_beVal [a, b, c, d, e, f, g, h]).symm ?_
  congr 1
  simp only [Modes.beVal, List.foldl_cons, List.foldl_nil]
  omega

theorem beVal_append' (u : List Byte) : ∀ v : List Byte, Modes.beVal (u ++ v) = Modes.beVal u * 256 ^ v.length + Modes.beVal v := by
  intro v
  induction v using List.reverseRecOn with
  | nil => simp [Modes.beVal]
  | append_singleton v x ih =>
    rw [← List.append_assoc, beVal_append_one, beVal_append_one, ih, List.length_append, List.length_singleton, Nat.pow_succ]
    ring

theorem write64be_pair (u v : BitVec 64) :
    write64be u ++ write64be v = encodeBE 16 (u.toNat * 18446744073709551616 + v.toNat) := by
  have hv : v.toNat < 256 ^ 8 := by have := v.isLt; norm_num at this ⊢; omega
  have hlen : (encodeBE 8 v.toNat).length = 8 := encodeBE_length _ _
  have hu : u.toNat < 256 ^ 8 := by have := u.isLt; norm_num at this ⊢; omega
  have h := encodeBE_beVal (encodeBE 8 u.toNat ++ encodeBE 8 v.toNat)
  rw [List.length_append, encodeBE_length, encodeBE_length, beVal_append', beVal_encodeBE, beVal_encodeBE, hlen,
    Nat.mod_eq_of_lt hu, Nat.mod_eq_of_lt hv] at h
  rw [write64be_encode, write64be_encode, ← h]
  norm_num

theorem four_of_length {l : List Byte} {j : Nat} (h : j + 4 ≤ l.length) :
    (l.drop j).take 4 = [l.getD j 0, l.getD (j + 1) 0, l.getD (j + 2) 0, l.getD (j + 3) 0] := by
  apply List.ext_getElem?
  intro i
  rw [List.getElem?_take, List.getElem?_drop]
  by_cases hi : i < 4
  · rw [if_pos hi]
    interval_cases i <;> simp [List.getD_eq_getElem?_getD, List.getElem?_eq_getElem, show j < l.length by omega,
      show j + 1 < l.length by omega, show j + 2 < l.length by omega, show j + 3 < l.length by omega]
  · rw [if_neg hi]
    exact (List.getElem?_eq_none (by simp; omega)).symm

theorem wordBE_four {l : List Byte} {t : Nat} (h : 4 * t + 4 ≤ l.length) :
    wordBE 4 l t = read32be (l.getD (4 * t) 0) (l.getD (4 * t + 1) 0) (l.getD (4 * t + 2) 0) (l.getD (4 * t + 3) 0) := by
  rw [wordBE, four_of_length h, beVal_four]
  apply BitVec.eq_of_toNat_eq
  rw [BitVec.toNat_ofNat]
  exact Nat.mod_eq_of_lt (BitVec.isLt _)

theorem toNat_ofNat64 (n : Nat) : (BitVec.ofNat 64 n).toNat = n % 18446744073709551616 := by
  rw [BitVec.toNat_ofNat]

theorem encodeBE_mod8 (n : Nat) : encodeBE 8 (n % 18446744073709551616) = encodeBE 8 n := by
  have h := encodeBE_mod 8 n
  rw [show 256 ^ 8 = 18446744073709551616 by norm_num] at h
  exact h

theorem len_bytes (n : Nat) : write64be (BitVec.ofNat 64 n) = encodeBE 8 n := by
  rw [write64be_encode, toNat_ofNat64, encodeBE_mod8]

end Verif.HashL
