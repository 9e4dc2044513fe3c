import Verif.Lemmas.Mpi.Str
import Verif.Props.Mpi.NumTheory
/-!
# C15: string import/export
-/
namespace Verif.Mpi

/-- No digit is a sign character. -/
theorem digit_not_sign {radix : Nat} {c : Byte} (h : IsDigit radix c) : c ≠ 45#8 ∧ c ≠ 43#8 := by
  obtain ⟨d, hd, -⟩ := h
  constructor <;> rintro rfl <;> simp [digitValue] at hd

/-- C15: a string of digits of the radix, possibly signed, is read as the number it denotes. -/
theorem loadStr_correct {w radix : Nat} (hw : DigitWidth w) (hr : 2 ≤ radix) (hr' : radix ≤ 36)
    (s : List Byte) (hs : ∀ c ∈ s, IsDigit radix c) :
    (∃ x, loadStr w radix s = some x ∧ WF (2 ^ w) x ∧ x.toInt (2 ^ w) = numeral radix s) ∧
    (∃ x, loadStr w radix (43#8 :: s) = some x ∧ WF (2 ^ w) x ∧
      x.toInt (2 ^ w) = numeral radix s) ∧
    (∃ x, loadStr w radix (45#8 :: s) = some x ∧ WF (2 ^ w) x ∧
      x.toInt (2 ^ w) = -(numeral radix s : Int)) := by
  obtain ⟨x, x1, x2, x3⟩ := loadStrBody_spec hw hr hr' false s hs
  obtain ⟨y, y1, y2, y3⟩ := loadStrBody_spec hw hr hr' true s hs
  have h36 : ¬ radix > 36 := by omega
  refine ⟨⟨x, ?_, x2, by simpa using x3⟩, ⟨x, ?_, x2, by simpa using x3⟩,
    ⟨y, ?_, y2, by simpa using y3⟩⟩
  · unfold loadStr
    rw [if_neg h36]
    cases s with
    | nil => exact x1
    | cons c cs =>
      obtain ⟨n1, n2⟩ := digit_not_sign (hs c (by simp))
      dsimp only
      rw [if_neg n1, if_neg n2, x1]
  · unfold loadStr
    rw [if_neg h36]
    dsimp only
    rw [if_neg (by decide), if_pos rfl, x1]
  · unfold loadStr
    rw [if_neg h36]
    dsimp only
    rw [if_pos rfl, y1]

/-- C15: the exported string is the numeral of the number: a `-` sign if negative, then digits of the
radix without leading zeros. -/
theorem storeStr_correct {w radix : Nat} (hw : DigitWidth w) (hr : 2 ≤ radix) (hr' : radix ≤ 16)
    (x : Mpi) (hx : WF (2 ^ w) x) :
    ∃ s, storeStr w x radix = some (if x.toInt (2 ^ w) < 0 then 45#8 :: s else s) ∧
      (∀ c ∈ s, IsDigit radix c) ∧ numeral radix s = (x.toInt (2 ^ w)).natAbs ∧ s ≠ [] ∧
      (x.toInt (2 ^ w) ≠ 0 → s.head? ≠ some 48#8) := by
  have hw8 := hw.pos
  have hneg := neg_iff_of_wf hx
  rw [natAbs_toInt]
  unfold storeStr
  rw [if_neg (by omega)]
  split
  · next h0 =>
    have h0 := List.eq_nil_of_length_eq_zero h0
    have hz := (toInt_eq_zero_iff (Nat.two_pow_pos w) hx.toNorm).2 h0
    refine ⟨[48#8], by rw [if_neg (by omega)], ?_, ?_, by simp, fun h => absurd hz h⟩
    · intro c hc
      simp only [List.mem_singleton] at hc
      subst hc
      exact ⟨0, by decide, by omega⟩
    · rw [h0]; simp [numeral, numeralFrom, show digitValue 48#8 = some 0 from by decide]
  · next h0 =>
    have hne : x.digs ≠ [] := fun e => h0 (by rw [e]; rfl)
    have hsg : ∀ s : List Byte, (if x.neg = true then 45#8 :: s else s) =
        (if x.toInt (2 ^ w) < 0 then 45#8 :: s else s) := by
      intro s
      by_cases h : x.toInt (2 ^ w) < 0
      · rw [if_pos h, if_pos (hneg.2 h)]
      · rw [if_neg h, if_neg (fun e => h (hneg.1 e))]
    split
    · next h16 =>
      subst h16
      obtain ⟨s, s1, s2, s3, s4, s5⟩ := storeStrHex_spec hw hx.toNorm hne
      rw [s1]
      exact ⟨s, by rw [Option.map_some, hsg], s2, s3, s4, fun _ => s5⟩
    · have hlt := val_lt hx.digits
      rw [← pow_mul] at hlt
      obtain ⟨cs, c1, c2, c3, c4, c5⟩ := digLoop_spec hw hr hr' _ x hx.toNorm hlt
      rw [c1]
      dsimp only
      rw [reverse_spec]
      refine ⟨cs.reverse, ?_, fun c hc => c2 c (List.mem_reverse.1 hc), c3, ?_, ?_⟩
      · rw [← hsg]
        split <;> simp
      · simpa using fun e => hne (c4.2 e)
      · intro _; rw [List.head?_reverse]; exact c5

/-- C15: exporting and importing again gives the same number, for every radix from 2 to 16. -/
theorem store_load_str {w radix : Nat} (hw : DigitWidth w) (hr : 2 ≤ radix) (hr' : radix ≤ 16)
    (x : Mpi) (hx : WF (2 ^ w) x) :
    ∃ s y, storeStr w x radix = some s ∧ loadStr w radix s = some y ∧ WF (2 ^ w) y ∧
      y.toInt (2 ^ w) = x.toInt (2 ^ w) := by
  obtain ⟨s, s1, s2, s3, -, -⟩ := storeStr_correct hw hr hr' x hx
  obtain ⟨⟨a, a1, a2, a3⟩, -, ⟨b, b1, b2, b3⟩⟩ := loadStr_correct hw hr (by omega) s s2
  rw [s1]
  by_cases h : x.toInt (2 ^ w) < 0
  · rw [if_pos h]
    exact ⟨_, b, rfl, b1, b2, by rw [b3, s3]; omega⟩
  · rw [if_neg h]
    exact ⟨_, a, rfl, a1, a2, by rw [a3, s3]; omega⟩

/-- C15: other radices are rejected by the export. -/
theorem storeStr_radix (w radix : Nat) (x : Mpi) (h : radix < 2 ∨ 16 < radix) :
    storeStr w x radix = none := by
  unfold storeStr; rw [if_pos (by omega)]

/-- C15, partial.  Full statement: a string with a character (after the sign) that is not a digit of
the radix is rejected.  Proved for radices other than 16 and characters that are letters or decimal
digits, whatever the rest of the string.  Missing: radix 16 and all other characters, for which the
claim is false. -/
theorem loadStr_rejects_partial {w radix : Nat} (h16 : radix ≠ 16) (hr : 2 ≤ radix) (s : List Byte)
    (c : Byte) (hc : c ∈ s) (d : Nat) (hd : digitValue c = some d) (hdr : radix ≤ d) :
    loadStr w radix s = none := by
  have key : ∀ (sign : Bool) (cs : List Byte), c ∈ cs → loadStrBody w radix sign cs = none := by
    intro sign cs hcs
    have hmem : c ∈ cs.dropWhile (· == 48#8) := by
      rcases List.mem_append.1 (by rw [List.takeWhile_append_dropWhile]; exact hcs :
        c ∈ cs.takeWhile (· == 48#8) ++ cs.dropWhile (· == 48#8)) with h | h
      · have := List.all_eq_true.1 List.all_takeWhile c h
        simp only [beq_iff_eq] at this
        rw [this, show digitValue 48#8 = some 0 from by decide] at hd
        have := Option.some.inj hd
        omega
      · exact h
    have := strLoop_reject (w := w) (radix := radix) _ ⟨false, []⟩ c hmem
      (by rw [ascToRaw_of hd]; exact hdr)
    unfold loadStrBody
    dsimp only
    rw [if_neg h16]
    generalize strLoop w radix ⟨false, []⟩ (cs.dropWhile (· == 48#8)) = p at *
    obtain ⟨a, rest⟩ := p
    dsimp only at this ⊢
    rw [if_pos this]
  have hns : c ≠ 45#8 ∧ c ≠ 43#8 := digit_not_sign (radix := d + 1) ⟨d, hd, by omega⟩
  unfold loadStr
  split
  · rfl
  · match s, hc with
    | c' :: cs, hc =>
      dsimp only
      split
      · next h =>
        rcases List.mem_cons.1 hc with h1 | h1
        · exact absurd (h1.trans h) hns.1
        · exact key _ _ h1
      · split
        · next h =>
          rcases List.mem_cons.1 hc with h1 | h1
          · exact absurd (h1.trans h) hns.2
          · exact key _ _ h1
        · exact key _ _ hc

/-- C15 is false of the code: characters that are neither letters nor digits count as zeros
(`"1 2"` is read as 102), … -/
theorem loadStr_accepts_junk :
    loadStr 64 10 [0x31, 0x20, 0x32] = some ⟨false, [102]⟩ := by decide +kernel

/-- … in front they even leave an unnormalised zero, … -/
theorem loadStr_junk_unnormalised : loadStr 64 10 [0x20] = some ⟨false, [0]⟩ := by decide +kernel

/-- … and in radix 16 no string is ever rejected. -/
theorem loadStr_hex_never_rejects (w : Nat) (s : List Byte) : loadStr w 16 s ≠ none := by
  unfold loadStr
  rw [if_neg (by decide)]
  unfold loadStrBody
  split
  · simp
  · split
    · simp
    · split <;> simp

/-- `"-1234567890123456789012345"` with 16-bit digits. -/
example : (loadStr 16 10 [45, 49, 50, 51, 52, 53, 54, 55, 56, 57, 48, 49, 50, 51, 52, 53, 54, 55, 56,
    57, 48, 49, 50, 51, 52, 53]).bind (storeStr 16 · 16) =
    some [45, 49, 48, 53, 54, 101, 48, 102, 51, 54, 97, 54, 52, 52, 51, 100, 101, 50, 100, 102, 55, 57] := by
  decide +kernel
example : loadStr 16 8 [49, 56] = none := by decide +kernel

end Verif.Mpi
