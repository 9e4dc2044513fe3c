import Verif.Lemmas.Hash.Md
/-! Collisions of an iterated hash function. -/
namespace Verif.HashL
open Verif.Modes Verif.HashS

variable {σ : Type} {B : Nat} {f : σ → List Byte → σ}

/-- Two different inputs of the compression function `f`, a chaining value and a block of `B` bytes, with the same output. -/
def Collides (B : Nat) (f : σ → List Byte → σ) : Prop :=
  ∃ s t a b, a.length = B ∧ b.length = B ∧ (s ≠ t ∨ a ≠ b) ∧ f s a = f t b

theorem mdFold_append (hB : 0 < B) : ∀ (n : Nat) (p l : List Byte) (iv : σ), p.length = B * n → mdFold B f iv (p ++ l) = mdFold B f (mdFold B f iv p) l
  | 0, p, l, iv, h => by
    obtain rfl : p = [] := List.length_eq_zero_iff.1 (by simpa using h)
    rw [List.nil_append, mdFold_nil]
  | n + 1, p, l, iv, h => by
    rw [Nat.mul_succ] at h
    have h1 : (p.take B).length = B := by rw [List.length_take]; omega
    have h2 : (p.drop B).length = B * n := by rw [List.length_drop]; omega
    rw [← List.take_append_drop B p, List.append_assoc, mdFold_cons hB h1, mdFold_cons hB h1, mdFold_append hB n _ _ _ h2]

theorem mdFold_inj (hB : 0 < B) : ∀ (n : Nat) (p q : List Byte) (s t : σ), p.length = B * n → q.length = B * n → mdFold B f s p = mdFold B f t q → (s = t ∧ p = q) ∨ Collides B f
  | 0, p, q, s, t, hp, hq, h => by
    obtain rfl : p = [] := List.length_eq_zero_iff.1 (by simpa using hp)
    obtain rfl : q = [] := List.length_eq_zero_iff.1 (by simpa using hq)
    rw [mdFold_nil, mdFold_nil] at h
    exact .inl ⟨h, rfl⟩
  | n + 1, p, q, s, t, hp, hq, h => by
    rw [Nat.mul_succ] at hp hq
    have p1 : (p.take B).length = B := by rw [List.length_take]; omega
    have q1 : (q.take B).length = B := by rw [List.length_take]; omega
    have p2 : (p.drop B).length = B * n := by rw [List.length_drop]; omega
    have q2 : (q.drop B).length = B * n := by rw [List.length_drop]; omega
    rw [← List.take_append_drop B p, ← List.take_append_drop B q, mdFold_cons hB p1, mdFold_cons hB q1] at h
    rcases mdFold_inj hB n _ _ _ _ p2 q2 h with ⟨h1, h2⟩ | h
    · by_cases he : s = t ∧ p.take B = q.take B
      · exact .inl ⟨he.1, by rw [← List.take_append_drop B p, ← List.take_append_drop B q, he.2, h2]⟩
      · exact .inr ⟨s, t, p.take B, q.take B, p1, q1, by rwa [← not_and_or], h1⟩
    · exact .inr h

/-- A padded message consists of whole blocks and ends with the length. -/
theorem mdPad_length {L : Nat} {len m : List Byte} (hL : L < B) (hl : len.length = L) : ∃ n, (mdPad B L len m).length = B * (n + 1) := by
  unfold mdPad
  rw [List.length_append, List.length_append, List.length_append, List.length_replicate, hl, pad_zeros hL rfl]
  have := Nat.div_add_mod m.length B
  have := Nat.mod_lt m.length (show 0 < B by omega)
  split
  · exact ⟨m.length / B, by rw [Nat.mul_succ, List.length_singleton]; omega⟩
  · exact ⟨m.length / B + 1, by rw [Nat.mul_succ, Nat.mul_succ, List.length_singleton]; omega⟩

theorem mdPad_drop {L : Nat} {len m : List Byte} (hl : len.length = L) : (mdPad B L len m).drop ((mdPad B L len m).length - L) = len := by
  unfold mdPad
  rw [List.length_append (bs := len), hl, Nat.add_sub_cancel, List.drop_left]

/-- Different messages, padded with their lengths, with the same final value. -/
theorem mdPad_collides {L : Nat} {l1 l2 a b : List Byte} {iv : σ} (hL : L < B) (h1 : l1.length = L) (h2 : l2.length = L)
    (hlen : a.length = b.length ↔ l1 = l2) (hne : a ≠ b) (h : mdFold B f iv (mdPad B L l1 a) = mdFold B f iv (mdPad B L l2 b)) : Collides B f := by
  have hB : 0 < B := by omega
  obtain ⟨n, e1⟩ := mdPad_length (m := a) hL h1
  obtain ⟨m, e2⟩ := mdPad_length (m := b) hL h2
  by_cases hab : a.length = b.length
  · have hlp : (mdPad B L l1 a).length = (mdPad B L l2 b).length := by unfold mdPad; simp only [List.length_append, hab, h1, h2]
    rcases mdFold_inj hB (n + 1) _ _ _ _ e1 (hlp ▸ e1) h with ⟨-, h⟩ | h
    · refine absurd ?_ hne
      unfold mdPad at h
      simp only [List.append_assoc] at h
      exact (List.append_inj h hab).1
    · exact h
  · have last : ∀ (p l : List Byte) (n : Nat), p.length = B * (n + 1) → p.drop (p.length - L) = l →
        ∃ s x, x.length = B ∧ mdFold B f iv p = f s x ∧ x.drop (B - L) = l := by
      intro p l n hp hd
      rw [Nat.mul_succ] at hp
      have hx : (p.drop (B * n)).length = B := by rw [List.length_drop]; omega
      refine ⟨mdFold B f iv (p.take (B * n)), p.drop (B * n), hx, ?_, ?_⟩
      · rw [← mdFold_one (f := f) hB hx, ← mdFold_append hB n _ _ _ (by rw [List.length_take]; omega), List.take_append_drop]
      · rw [List.drop_drop, ← hd]; congr 1; omega
    obtain ⟨s, x, x1, x2, x3⟩ := last _ _ _ e1 (mdPad_drop h1)
    obtain ⟨t, y, y1, y2, y3⟩ := last _ _ _ e2 (mdPad_drop h2)
    refine ⟨s, t, x, y, x1, y1, .inr ?_, by rw [← x2, ← y2, h]⟩
    rintro rfl
    exact hab (hlen.2 (x3.symm.trans y3))

/-! ### Encodings -/

theorem encodeBE_inj {n x y : Nat} (hx : x < 256 ^ n) (hy : y < 256 ^ n) (h : encodeBE n x = encodeBE n y) : x = y := by
  have := congrArg Modes.beVal h
  rwa [beVal_encodeBE, beVal_encodeBE, Nat.mod_eq_of_lt hx, Nat.mod_eq_of_lt hy] at this

/-- The encodings of lists of words of the same number determine the words. -/
theorem words_inj {k w : Nat} {e : Nat → List Byte} (hk : ∀ x, (e x).length = k) (hi : ∀ x y, x < 2 ^ w → y < 2 ^ w → e x = e y → x = y) :
    ∀ (p q : List (BitVec w)), (p.map fun v => e v.toNat).flatten = (q.map fun v => e v.toNat).flatten → p.length = q.length → p = q
  | [], [], _, _ => rfl
  | x :: p, y :: q, h, hl => by
    rw [List.map_cons, List.map_cons, List.flatten_cons, List.flatten_cons] at h
    obtain ⟨h1, h2⟩ := List.append_inj h (by rw [hk, hk])
    rw [BitVec.eq_of_toNat_eq (hi _ _ x.isLt y.isLt h1), words_inj hk hi p q h2 (by simpa using hl)]

end Verif.HashL
