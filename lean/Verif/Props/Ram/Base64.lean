import Verif.Lemmas.Ram.Base64
import Verif.Props.Ram.Stream
/-!
# C94: Base64 on buffers in memory
-/
namespace Verif.Ram
open Verif.Base64

/-- C94: encoding a non-empty message of `n` bytes writes the standard encoding, nothing else, and returns its length, on all
memories, exactly for the placements where the output starts at least `ceil(n/3)` bytes before the input or behind it.  In
particular not in place. -/
theorem b64_encode_iff {n d s : Nat} (hn : 0 < n) :
    (∀ R : Ram, R.Owned s n → R.Owned d (4 * ((n + 2) / 3)) →
      ∃ R' out, b64Encode R d s n = some (R', 4 * ((n + 2) / 3)) ∧ out.map BitVec.toNat = spec (R.bytes s n) ∧ out.length = 4 * ((n + 2) / 3) ∧ Wrote R R' [(d, out)] []) ↔
    d + (n + 2) / 3 ≤ s ∨ s + n ≤ d := by
  constructor
  · intro h
    by_contra hp
    obtain ⟨R', e, j, hj, hne⟩ := b64Encode_wrong d n n ⟨fun _ => true, fun _ => 0, []⟩ d s le_rfl hn (fun _ => rfl) le_rfl
      (fun x => by rw [if_neg (by omega)]) (by omega) (by omega)
    obtain ⟨R2, out, e2, hs, -, hw⟩ := h ⟨fun _ => true, fun _ => 0, []⟩ (fun _ _ => rfl) (fun _ _ => rfl)
    rw [e, Option.some.injEq, Prod.mk.injEq] at e2
    obtain ⟨rfl, -⟩ := e2
    have hb : Ram.bytes ⟨fun _ => true, fun _ => 0, []⟩ s n = List.replicate n 0 := by
      rw [Ram.bytes, List.eq_replicate_iff]
      simp
    rw [hb] at hs
    obtain ⟨o, ho, hl, hz⟩ := encode_zeros n n le_rfl hn
    obtain ⟨o', ho', hs', -⟩ := encode_correct n (List.replicate n 0) (by simp) (by
      intro hh
      have := congrArg List.length hh
      simp at this
      omega)
    rw [ho, Option.some.injEq] at ho'
    subst ho'
    have : out = o := by
      have := hs.trans hs'.symm
      exact List.map_injective_iff.2 (fun a b h => BitVec.eq_of_toNat_eq h) this
    subst this
    have ha := hw.at_ (d, out) (by simp)
    have hg := congrArg (·[j]?) ha
    simp only [bytes_get] at hg
    rw [if_pos (by omega), hz j hj, Option.some.injEq] at hg
    exact hne hg
  · intro hp R os od
    obtain ⟨out, e, hs, hl⟩ := encode_correct n (R.bytes s n) (by rw [bytes_length]) (by
      intro hh
      have := congrArg List.length hh
      rw [bytes_length, List.length_nil] at this
      omega)
    rw [bytes_length] at hl
    exact ⟨_, out, b64Encode_ram n n R d s le_rfl os od hp e, hs, hl, wrote_put _ _ _⟩

/-- A text is the encoding of one message only. -/
theorem text_eq {x t : List Byte} (hx : x ≠ []) (h : t.map BitVec.toNat = spec x) : encode x = some t ∧ decode t = some (some x) ∧ t.length = 4 * ((x.length + 2) / 3) := by
  obtain ⟨out, e, hs, hl⟩ := encode_correct x.length x le_rfl hx
  obtain ⟨out', e', -, hd⟩ := base64_roundtrip x hx
  rw [e, Option.some.injEq] at e'
  subst e'
  have : t = out := List.map_injective_iff.2 (fun a b h => BitVec.eq_of_toNat_eq h) (h.trans hs.symm)
  subst this
  exact ⟨e, hd, hl⟩

theorem b64Decode_of {R : Ram} {d s len : Nat} {x : List Byte} (os : R.Owned s len) (od : R.Owned d x.length) (hp : d ≤ s ∨ s + len ≤ d)
    (h0 : 0 < len) (h : decode (R.bytes s len) = some (some x)) : b64Decode R d s len = some (R.put d x, some x.length) := by
  rw [decode, bytes_length] at h
  split at h
  · cases h
  · rename_i h4
    have : ∃ q, len = 4 * (q + 1) := ⟨len / 4 - 1, by omega⟩
    obtain ⟨q, rfl⟩ := this
    rw [b64Decode, if_neg h4, show 4 * (q + 1) / 4 = q + 1 by omega]
    exact b64DecodeLoop_ram q R d s os od hp h

/-- C94: decoding the encoding of any message writes the message, nothing else (an output buffer of the length of the message is
enough), and returns its length, on all memories, exactly for the placements where the output does not start inside the text.
In particular in place. -/
theorem b64_decode_iff {len d s : Nat} (h0 : 0 < len) (h4 : len % 4 = 0) :
    (∀ (R : Ram) (x : List Byte), x ≠ [] → R.Owned s len → R.Owned d x.length → (R.bytes s len).map BitVec.toNat = spec x →
      ∃ R', b64Decode R d s len = some (R', some x.length) ∧ Wrote R R' [(d, x)] []) ↔
    d ≤ s ∨ s + len ≤ d := by
  constructor
  · intro h
    by_contra hp
    have : ∃ q, len = 4 * (q + 1) := ⟨len / 4 - 1, by omega⟩
    obtain ⟨q, rfl⟩ := this
    have hb : Ram.bytes ⟨fun _ => true, fun _ => 65, []⟩ s (4 * (q + 1)) = List.replicate (4 * (q + 1)) 65 := by
      rw [Ram.bytes, List.eq_replicate_iff]
      simp
    have hx : List.replicate (3 * (q + 1)) (0 : Byte) ≠ [] := by
      intro hh
      have := congrArg List.length hh
      simp at this
    obtain ⟨o, ho, hl, hz⟩ := encode_zeros (3 * (q + 1)) (3 * (q + 1)) le_rfl (by omega)
    obtain ⟨o', ho', hs', -⟩ := encode_correct (3 * (q + 1)) (List.replicate (3 * (q + 1)) 0) (by simp) hx
    rw [ho, Option.some.injEq] at ho'
    subst ho'
    have hr : o = List.replicate (4 * (q + 1)) 65 := by
      apply List.ext_getElem?
      intro j
      rw [List.getElem?_replicate]
      by_cases hj : j < 4 * (q + 1)
      · rw [if_pos hj, hz j (by omega)]
      · rw [if_neg hj, List.getElem?_eq_none (by omega)]
    obtain ⟨R', e, hw⟩ := h ⟨fun _ => true, fun _ => 65, []⟩ (List.replicate (3 * (q + 1)) 0) hx (fun _ _ => rfl) (fun _ _ => rfl) (by rw [hb, ← hr]; exact hs')
    rw [b64Decode, if_neg (by omega), show 4 * (q + 1) / 4 = q + 1 by omega] at e
    obtain ⟨j, hj, hne⟩ := b64DecodeLoop_wrong d q ⟨fun _ => true, fun _ => 65, []⟩ R' d s _ (fun _ => rfl) le_rfl (by omega) (by omega)
      (fun x => by rw [if_neg (by omega)]) e
    have hg := congrArg (·[j]?) (hw.at_ _ (List.mem_singleton.2 rfl))
    simp only [bytes_get, List.length_replicate] at hg
    rw [if_pos hj, List.getElem?_replicate, if_pos hj, Option.some.injEq] at hg
    exact hne hg
  · intro hp R x hx os od hs
    exact ⟨_, b64Decode_of os od hp h0 (text_eq hx hs).2.1, wrote_put _ _ _⟩

/-- C94: a text with a character outside of the alphabet, or of the wrong length, is rejected; groups before the character have
been written, and nothing else. -/
theorem b64_decode_rejects {R : Ram} {len d s : Nat} (h0 : 0 < len) :
    (len % 4 ≠ 0 → b64Decode R d s len = some (R, none)) ∧
    (len % 4 = 0 → R.Owned s len → R.Owned d (3 * (len / 4 - 1)) → (d ≤ s ∨ s + len ≤ d) → (∃ c ∈ R.bytes s len, ¬ InAlphabet c) →
      ∃ R' w, b64Decode R d s len = some (R', none) ∧ w.length ≤ 3 * (len / 4 - 1) ∧ Wrote R R' [(d, w)] []) := by
  constructor
  · intro h
    rw [b64Decode, if_pos h]
  · intro h4 os od hp hc
    have : ∃ q, len = 4 * (q + 1) := ⟨len / 4 - 1, by omega⟩
    obtain ⟨q, rfl⟩ := this
    have hi := (decodeLoop_iff q (R.bytes s (4 * (q + 1))) (bytes_length _ _)).1 hc
    rw [show 4 * (q + 1) / 4 - 1 = q by omega] at od ⊢
    obtain ⟨w, hw, e⟩ := b64DecodeLoop_illegal q R d s os od hp hi
    refine ⟨_, w, ?_, hw, wrote_put _ _ _⟩
    rw [b64Decode, if_neg (by omega), show 4 * (q + 1) / 4 = q + 1 by omega]
    exact e

/-- C94: an empty input is undefined, wherever it is. -/
theorem b64_empty_ram (R : Ram) (d s : Nat) : b64Encode R d s 0 = none ∧ b64Decode R d s 0 = none := ⟨rfl, rfl⟩

-- ten bytes: four before the input are enough, three are not
example : 96 + (10 + 2) / 3 ≤ 100 ∧ ¬ (97 + (10 + 2) / 3 ≤ 100 ∨ 100 + 10 ≤ 97) := by omega

-- the text "QQ==" of a memory with exactly its four bytes and no more is decoded in place
example : ∃ R', b64Decode ⟨fun x => decide (100 ≤ x ∧ x < 104), fun x => if x = 100 then 81 else if x = 101 then 81 else 61, []⟩ 100 100 4 = some (R', some 1) ∧ R'.mem 100 = 65 :=
  ⟨_, b64Decode_of (x := [65]) (by decide) (by decide) (by omega) (by omega) (by decide +kernel), by decide +kernel⟩

end Verif.Ram
