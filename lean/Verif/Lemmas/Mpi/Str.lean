import Verif.Model.Mpi.Str
import Verif.Spec.Str
import Verif.Lemmas.Mpi.Bin
/-! Lemmas about string import/export. -/
namespace Verif

theorem numeralFrom_append (r : Nat) : ∀ (xs : List Byte) (v : Nat) (ys : List Byte),
    numeralFrom r v (xs ++ ys) = numeralFrom r (numeralFrom r v xs) ys
  | [], _, _ => rfl
  | x :: xs, v, ys => by
    rw [List.cons_append, numeralFrom, numeralFrom, numeralFrom_append r xs]

end Verif

namespace Verif.Mpi

theorem ascToRaw_of {c : Byte} {d : Nat} (h : digitValue c = some d) : ascToRaw c = d := by
  unfold digitValue at h
  unfold ascToRaw
  dsimp only
  split at h
  · next h1 => rw [if_pos h1]; exact Option.some.inj h
  · next h1 =>
    rw [if_neg h1]
    split at h
    · next h2 => rw [if_pos h2]; exact Option.some.inj h
    · next h2 =>
      rw [if_neg h2]
      split at h
      · next h3 => rw [if_pos h3]; exact Option.some.inj h
      · cases h

theorem digit_zero {c : Byte} (h : digitValue c = some 0) : c = 48#8 := by
  unfold digitValue at h
  have e : c.toNat = 48 := by
    split at h
    · have := Option.some.inj h; omega
    · split at h
      · have := Option.some.inj h; omega
      · split at h
        · have := Option.some.inj h; omega
        · cases h
  exact BitVec.eq_of_toNat_eq e

theorem add_zero_digit {b : Nat} {x : Nat} {xs : List Nat} (hx : Digits b (x :: xs)) :
    add b ⟨false, x :: xs⟩ ⟨false, [0]⟩ = some ⟨false, x :: xs⟩ := by
  have h : x < b := hx x (by simp)
  unfold add addAbs
  simp only [if_true, List.length_cons, List.length_nil]
  rw [if_neg (by omega)]
  have e : addLoop b (x :: xs) [0] 0 = x :: xs := by
    rw [addLoop]
    simp only [Nat.add_zero, Nat.mod_eq_of_lt h, Nat.not_lt_zero, if_false, Nat.lt_irrefl]
    rw [addLoop]
    · cases xs <;> simp [addCarry]
    · intro _ _ _ _ _ h; cases h
  rw [e]

theorem small_digit {w d : Nat} (hw : 8 ≤ w) (hd : d < 256) : d < 2 ^ w :=
  Nat.lt_of_lt_of_le hd (show 2 ^ 8 ≤ 2 ^ w from Nat.pow_le_pow_right (by norm_num) hw)

theorem rep_digit {w d : Nat} (hw : 8 ≤ w) (hd : d < 256) (h0 : d ≠ 0) :
    Rep w ⟨false, [d]⟩ (d : Int) := by
  refine ⟨⟨?_, ?_⟩, ?_⟩
  · intro e he
    simp only [List.mem_singleton] at he
    rw [he]; exact small_digit hw hd
  · simp [TopNZ, h0]
  · simp [Mpi.toInt]

theorem strLoop_spec {w radix : Nat} (hw : 8 ≤ w) (hr : 2 ≤ radix) (hr' : radix ≤ 36) :
    ∀ (cs : List Byte) (a : Mpi), (∀ c ∈ cs, IsDigit radix c) → Norm (2 ^ w) a → a.neg = false →
    (a.digs = [] → cs.head? ≠ some 48#8) →
    ∃ a', strLoop w radix a cs = (a', []) ∧ Norm (2 ^ w) a' ∧ a'.neg = false ∧
      val (2 ^ w) a'.digs = numeralFrom radix (val (2 ^ w) a.digs) cs
  | [], a, _, ha, hn, _ => ⟨a, rfl, ha, hn, rfl⟩
  | c :: cs, a, hc, ha, hn, hz => by
    obtain ⟨d, hd, hdr⟩ := hc c (by simp)
    have hb0 : 0 < 2 ^ w := Nat.two_pow_pos w
    rw [strLoop, ascToRaw_of hd]
    rw [if_neg (by omega)]
    obtain ⟨m, m1, m2, m3⟩ := mul_rep hw false (⟨ha, rfl⟩ : Rep w a _)
      (rep_digit hw (show radix < 256 by omega) (by omega))
    rw [m1]
    dsimp only
    rw [toInt_false hn] at m2
    have hmn : m.neg = false := by
      cases h : m.neg with
      | false => rfl
      | true =>
        have h1 := m2.2
        have : m.digs ≠ [] := fun e => by have := m3.zero_nonneg e; rw [h] at this; cases this
        have h3 := val_pos_of_ne m3.toNorm this
        simp only [Mpi.toInt, h, if_true] at h1
        have : (0 : Int) ≤ (val (2 ^ w) a.digs : Int) * radix := by positivity
        omega
    have hmv : val (2 ^ w) m.digs = val (2 ^ w) a.digs * radix := by
      have h1 := m2.2
      rw [toInt_false hmn] at h1
      exact_mod_cast h1
    have hadd : ∃ a2, add (2 ^ w) m ⟨false, [d]⟩ = some a2 ∧ Norm (2 ^ w) a2 ∧ a2.neg = false ∧
        val (2 ^ w) a2.digs = val (2 ^ w) a.digs * radix + d ∧ a2.digs ≠ [] := by
      by_cases h0 : d = 0
      · subst h0
        have hane : a.digs ≠ [] := fun e => hz e (by rw [digit_zero hd]; rfl)
        have hav := val_pos_of_ne ha hane
        have hmne : m.digs ≠ [] := fun e => by
          rw [e, val_nil] at hmv
          have := Nat.mul_pos hav (show 0 < radix by omega)
          omega
        obtain ⟨x, xs, hxs⟩ := List.exists_cons_of_ne_nil hmne
        obtain ⟨mneg, mdigs⟩ := m
        simp only at hmn hxs
        subst hmn; subst hxs
        exact ⟨_, add_zero_digit m3.digits, m3.toNorm, rfl, by rw [hmv]; rfl, hmne⟩
      · obtain ⟨a2, p1, p2⟩ := add_rep (by omega) (⟨m3.toNorm, rfl⟩ : Rep w m _)
          (rep_digit hw (show d < 256 by omega) h0)
        rw [toInt_false hmn] at p2
        have hn2 := Rep.nonneg p2 (by omega)
        have hv2 : val (2 ^ w) a2.digs = val (2 ^ w) a.digs * radix + d := by
          have h1 := p2.2
          rw [toInt_false hn2, hmv] at h1
          exact_mod_cast h1
        exact ⟨a2, p1, p2.1, hn2, hv2, fun e => by rw [e, val_nil] at hv2; omega⟩
    obtain ⟨a2, p1, p2, p3, p4, p5⟩ := hadd
    rw [p1]
    obtain ⟨a', q1, q2, q3, q4⟩ := strLoop_spec hw hr hr' cs a2 (fun c h => hc c (by simp [h])) p2 p3
      (fun e => absurd e p5)
    refine ⟨a', q1, q2, q3, ?_⟩
    rw [q4, p4, numeralFrom, hd]
    rfl

theorem strLoop_reject {w radix : Nat} : ∀ (cs : List Byte) (a : Mpi) (c : Byte), c ∈ cs →
    radix ≤ ascToRaw c → (strLoop w radix a cs).2 ≠ []
  | c' :: cs, a, c, hc, hr => by
    rw [strLoop]
    split
    · simp
    · next h =>
      split
      · simp
      · split
        · simp
        · refine strLoop_reject cs _ c ?_ hr
          rcases List.mem_cons.1 hc with h1 | h1
          · subst h1; omega
          · exact h1

theorem numeral_dropWhile (r : Nat) : ∀ cs : List Byte,
    numeral r (cs.dropWhile (· == 48#8)) = numeral r cs
  | [] => rfl
  | c :: cs => by
    rw [List.dropWhile_cons]
    split
    · next h =>
      rw [numeral_dropWhile r cs]
      simp only [beq_iff_eq] at h
      subst h
      unfold numeral
      rw [numeralFrom, show digitValue 48#8 = some 0 from by decide]
      simp
    · rfl

theorem dropWhile_head' (bs : List Byte) : (bs.dropWhile (· == 48#8)).head? ≠ some 48#8 := by
  have := List.head?_dropWhile_not (· == 48#8) bs
  cases h : (bs.dropWhile (· == 48#8)).head? with
  | none => simp
  | some p =>
    rw [h] at this
    simpa using this

theorem hex_byte : ∀ d < 16, ∀ e < 16,
    (BitVec.ofNat 8 (d <<< 4) ||| BitVec.ofNat 8 e).toNat = d * 16 + e := by decide

theorem hexPairs_spec : ∀ (cs : List Byte) (v : Nat), cs.length % 2 = 0 →
    (∀ c ∈ cs, IsDigit 16 c) →
    numeralFrom 16 v cs = v * 256 ^ (hexPairs cs).length + beVal (hexPairs cs)
  | [], v, _, _ => by simp [numeralFrom, hexPairs, beVal]
  | [c], v, h, _ => by simp at h
  | c :: c' :: cs, v, h, hc => by
    obtain ⟨d, hd, hdr⟩ := hc c (by simp)
    obtain ⟨d', hd', hdr'⟩ := hc c' (by simp)
    rw [numeralFrom, numeralFrom, hd, hd', hexPairs, ascToRaw_of hd, ascToRaw_of hd',
      hexPairs_spec cs _ (by simp only [List.length_cons] at h; omega)
        (fun x hx => hc x (by simp [hx]))]
    simp only [Option.getD_some, beVal, List.length_cons, hex_byte d hdr d' hdr', pow_succ]
    ring

theorem loadStrHex_eq (w : Nat) (old : Bool) (s : List Byte) (hs : ∀ c ∈ s, IsDigit 16 c) :
    ∃ bs, loadStrHex w old s = loadBin w old bs ∧ beVal bs = numeral 16 s := by
  unfold loadStrHex
  have e : s.length &&& 1 = s.length % 2 := Nat.and_one_is_mod _
  rw [e]
  split
  · next h =>
    match s with
    | [] => simp at h
    | c :: cs =>
      obtain ⟨d, hd, hdr⟩ := hs c (by simp)
      refine ⟨_, rfl, ?_⟩
      unfold numeral
      rw [numeralFrom, hexPairs_spec cs _ (by simp only [List.length_cons] at h; omega)
        (fun x hx => hs x (by simp [hx]))]
      rw [ascToRaw_of hd, beVal, hd, BitVec.toNat_ofNat, Nat.mod_eq_of_lt (by omega)]
      simp
  · next h =>
    refine ⟨_, rfl, ?_⟩
    unfold numeral
    rw [hexPairs_spec s 0 (by omega) hs]
    simp

/-- Loading the part after the sign. -/
theorem loadStrBody_spec {w radix : Nat} (hw : DigitWidth w) (hr : 2 ≤ radix) (hr' : radix ≤ 36)
    (sign : Bool) (s : List Byte) (hs : ∀ c ∈ s, IsDigit radix c) :
    ∃ x, loadStrBody w radix sign s = some x ∧ WF (2 ^ w) x ∧
      x.toInt (2 ^ w) = if sign then -(numeral radix s : Int) else (numeral radix s : Int) := by
  have hw8 := hw.pos
  have key : ∀ a : Mpi, Norm (2 ^ w) a → val (2 ^ w) a.digs = numeral radix s →
      WF (2 ^ w) ⟨if a.digs.length = 0 then false else sign, a.digs⟩ ∧
      Mpi.toInt (2 ^ w) ⟨if a.digs.length = 0 then false else sign, a.digs⟩ =
        if sign then -(numeral radix s : Int) else (numeral radix s : Int) := by
    intro a ha hv
    refine ⟨⟨⟨ha.digits, ha.top⟩, fun e => ?_⟩, ?_⟩
    · dsimp only at e ⊢
      rw [e]; rfl
    · unfold Mpi.toInt
      dsimp only
      rw [hv]
      by_cases h0 : a.digs.length = 0
      · have : numeral radix s = 0 := by
          rw [← hv, List.eq_nil_of_length_eq_zero h0]; rfl
        rw [this]; simp
      · rw [if_neg h0]
  unfold loadStrBody
  dsimp only
  split
  · next h16 =>
    subst h16
    obtain ⟨bs, b1, b2⟩ := loadStrHex_eq w false s hs
    obtain ⟨l1, l2, -, -⟩ := loadBin_spec hw false bs
    rw [b1]
    exact ⟨_, rfl, key _ l1 (by rw [l2, b2])⟩
  · obtain ⟨a, a1, a2, a3, a4⟩ := strLoop_spec hw8 hr hr' (s.dropWhile (· == 48#8)) ⟨false, []⟩
      (fun c hc => hs c (List.dropWhile_subset _ hc)) (norm_zero _ _) rfl
      (fun _ => dropWhile_head' s)
    rw [a1]
    dsimp only
    rw [if_neg (by simp)]
    refine ⟨_, rfl, key a a2 ?_⟩
    rw [a4, ← numeral_dropWhile radix s]; rfl

/-! ### Export -/

theorem rawToAsc_digit : ∀ d < 16, digitValue (rawToAsc d) = some d := by decide

theorem rawToAsc_sign : ∀ d < 16, rawToAsc d ≠ 45#8 ∧ rawToAsc d ≠ 43#8 := by decide

theorem digLoop_spec {w radix : Nat} (hw : DigitWidth w) (hr : 2 ≤ radix) (hr' : radix ≤ 16) :
    ∀ (fuel : Nat) (t : Mpi), Norm (2 ^ w) t → val (2 ^ w) t.digs < 2 ^ fuel →
    ∃ cs, digLoop w ⟨false, [radix]⟩ (fuel + 1) t = some cs ∧ (∀ c ∈ cs, IsDigit radix c) ∧
      numeral radix cs.reverse = val (2 ^ w) t.digs ∧ (t.digs = [] ↔ cs = []) ∧
      cs.getLast? ≠ some 48#8
  | fuel, t, ht, hlt => by
    have hw8 := hw.pos
    rw [digLoop]
    split
    · next h0 =>
      have h0 := List.eq_nil_of_length_eq_zero h0
      exact ⟨[], rfl, by simp, by rw [h0]; rfl, by simp [h0], by simp⟩
    · next h0 =>
      have hne : t.digs ≠ [] := fun e => h0 (by rw [e]; rfl)
      have hpos := val_pos_of_ne ht hne
      obtain ⟨hrn, hrv⟩ := rep_digit hw8 (show radix < 256 by omega) (show radix ≠ 0 by omega)
      have hrv' : val (2 ^ w) [radix] = radix := by simp
      obtain ⟨q, r, d1, d2, d3, d4, -, d6, d7, -⟩ := divAbs_total hw ht hrn (by simp)
      rw [d1]
      dsimp only at d6 d7 ⊢
      rw [hrv'] at d6 d7
      have hd : (if r.digs.length ≠ 0 then dig r.digs 0 else 0) = val (2 ^ w) t.digs % radix := by
        have h1 : dig r.digs 0 = val (2 ^ w) t.digs % radix := by
          rw [dig_eq (Nat.two_pow_pos w) d3.digits, d7, pow_zero, Nat.div_one]
          have := Nat.mod_lt (val (2 ^ w) t.digs) (show 0 < radix by omega)
          exact Nat.mod_eq_of_lt (small_digit hw8 (by omega))
        split
        · exact h1
        · next h =>
          rw [← d7]
          simp only [ne_eq, not_not] at h
          rw [List.eq_nil_of_length_eq_zero h]; rfl
      rw [hd]
      have hml := Nat.mod_lt (val (2 ^ w) t.digs) (show 0 < radix by omega)
      have hdv := rawToAsc_digit (val (2 ^ w) t.digs % radix) (by omega)
      have hdg : IsDigit radix (rawToAsc (val (2 ^ w) t.digs % radix)) := ⟨_, hdv, hml⟩
      obtain ⟨f, rfl⟩ : ∃ f, fuel = f + 1 := ⟨fuel - 1, by
        cases fuel with
        | zero => rw [pow_zero] at hlt; omega
        | succ f => omega⟩
      have hq : val (2 ^ w) q.digs < 2 ^ f := by
        rw [d6, Nat.div_lt_iff_lt_mul (by omega)]
        rw [pow_succ] at hlt
        exact Nat.lt_of_lt_of_le hlt (Nat.mul_le_mul_left _ hr)
      obtain ⟨cs, c1, c2, c3, c4, c5⟩ := digLoop_spec hw hr hr' f q d2 hq
      rw [c1]
      refine ⟨_, rfl, ?_, ?_, by simp [hne], ?_⟩
      · intro c hc
        rcases List.mem_cons.1 hc with h | h
        · rw [h]; exact hdg
        · exact c2 c h
      · unfold numeral at c3 ⊢
        rw [List.reverse_cons, numeralFrom_append, c3, numeralFrom, numeralFrom, hdv, d6]
        simp only [Option.getD_some]
        rw [Nat.mul_comm]
        exact Nat.div_add_mod _ _
      · by_cases hcs : cs = []
        · subst hcs
          have hq0 := c4.2 rfl
          rw [hq0, val_nil] at d6
          have hlt2 : val (2 ^ w) t.digs < radix := by
            rcases Nat.div_eq_zero_iff.1 d6.symm with h | h
            · omega
            · exact h
          rw [Nat.mod_eq_of_lt hlt2] at hdv ⊢
          simp only [List.getLast?_singleton, ne_eq, Option.some.injEq]
          intro e
          rw [e, show digitValue 48#8 = some 0 from by decide] at hdv
          have := Option.some.inj hdv
          omega
        · rw [List.getLast?_cons_of_ne_nil hcs]
          exact c5

theorem revLoop_spec : ∀ (fuel j i : Nat) (s : Nat → Byte) (k : Nat), i - j ≤ fuel →
    revLoop fuel j i s k = if j ≤ k ∧ k ≤ i then s (i + j - k) else s k
  | 0, j, i, s, k, h => by
    rw [revLoop]
    split
    · next h1 => congr 1; omega
    · rfl
  | fuel + 1, j, i, s, k, h => by
    rw [revLoop]
    split
    · next hji =>
      dsimp only
      rw [revLoop_spec fuel (j + 1) (i - 1) _ k (by omega)]
      have hne : j ≠ i := by omega
      have x1 : ∀ a b : Byte, b ^^^ (a ^^^ b) = a := by
        intro a b; rw [BitVec.xor_comm a b, ← BitVec.xor_assoc]; simp
      have x2 : ∀ a b : Byte, a ^^^ b ^^^ a = b := by
        intro a b; rw [BitVec.xor_comm a b, BitVec.xor_assoc]; simp
      simp only [updB, hne, hne.symm, if_true, if_false, x1, x2]
      split_ifs <;> first | rfl | (exfalso; omega) | (congr 1; omega)
    · next hji =>
      split
      · congr 1; omega
      · rfl

theorem reverse_spec (cs : List Byte) :
    (List.range cs.length).map (revLoop cs.length 0 (cs.length - 1) fun k => cs.getD k 0) =
      cs.reverse := by
  apply List.ext_getElem
  · simp
  · intro k h1 h2
    simp only [List.length_map, List.length_range] at h1
    rw [List.getElem_map, List.getElem_range, revLoop_spec _ _ _ _ _ (by omega), if_pos (by omega),
      List.getElem_reverse]
    rw [List.getD_eq_getElem?_getD, List.getElem?_eq_getElem (by omega), Option.getD_some]
    congr 1

/-- Hexadecimal digit `q` of a byte string. -/
def nib (b : Nat → Byte) (q : Nat) : Byte :=
  if q % 2 = 0 then rawToAsc ((b (q / 2) >>> 4) &&& 0x0f#8).toNat
  else rawToAsc (b (q / 2) &&& 0x0f#8).toNat

theorem hexExpand_spec (b : Nat → Byte) (δ : Nat) (hδ : δ ≤ 1) : ∀ (i : Nat) (s : Nat → Byte) (p : Nat),
    (∀ k < i, s k = b k) →
    hexExpand i (2 * i - δ) s p = if p < 2 * i - δ then nib b (p + δ) else s p
  | 0, s, p, _ => by simp [hexExpand]
  | i + 1, s, p, h => by
    rw [hexExpand]
    have hi := h i (by omega)
    split
    · next h0 =>
      have : i = 0 ∧ δ = 1 := by omega
      obtain ⟨rfl, rfl⟩ := this
      simp only [updB]
      by_cases hp : p = 0
      · subst hp
        simp [nib, hi]
      · simp [hp]
    · next h0 =>
      have e2 : 2 * (i + 1) - δ - 2 = 2 * i - δ := by omega
      rw [e2, hexExpand_spec b δ hδ i]
      · simp only [updB]
        rw [if_neg (show ¬ i = 2 * (i + 1) - δ - 1 by omega), hi]
        by_cases c1 : p < 2 * i - δ
        · rw [if_pos c1, if_pos (by omega)]
        · rw [if_neg c1]
          by_cases c2 : p = 2 * i - δ
          · rw [if_pos c2, if_pos (by omega), nib]
            have : p + δ = 2 * i := by omega
            rw [this, if_pos (by omega), Nat.mul_div_cancel_left _ (by norm_num)]
          · rw [if_neg c2]
            by_cases c3 : p = 2 * (i + 1) - δ - 1
            · rw [if_pos c3, if_pos (by omega), nib]
              have : p + δ = 2 * i + 1 := by omega
              rw [this, if_neg (by omega)]
              have e : (2 * i + 1) / 2 = i := by omega
              rw [e]
            · rw [if_neg c3, if_neg (by omega)]
      · intro k hk
        simp only [updB]
        rw [if_neg (by omega), if_neg (by omega)]
        exact h k (by omega)

/-- Two hexadecimal digits per byte. -/
def hexOf : List Byte → List Byte
  | [] => []
  | b :: bs => rawToAsc ((b >>> 4) &&& 0x0f#8).toNat :: rawToAsc (b &&& 0x0f#8).toNat :: hexOf bs

theorem map_nib : ∀ bs : List Byte,
    (List.range (2 * bs.length)).map (nib fun k => bs.getD k 0) = hexOf bs
  | [] => by simp [hexOf]
  | b :: bs => by
    rw [List.length_cons, Nat.mul_add, List.range_succ_eq_map, List.map_cons, List.range_succ_eq_map,
      List.map_cons, List.map_cons, List.map_map, List.map_map, hexOf, ← map_nib bs]
    refine congrArg₂ _ (by simp [nib]) (congrArg₂ _ (by simp [nib]) ?_)
    apply List.map_congr_left
    intro k _
    simp only [Function.comp, nib]
    have e1 : (k + 1 + 1) % 2 = k % 2 := by omega
    have e2 : (k + 1 + 1) / 2 = k / 2 + 1 := by omega
    rw [Nat.succ_eq_add_one, e1, e2]
    simp

theorem nib_values : ∀ b : Byte, (((b >>> 4) &&& 0x0f#8).toNat < 16 ∧ (b &&& 0x0f#8).toNat < 16 ∧
    ((b >>> 4) &&& 0x0f#8).toNat * 16 + (b &&& 0x0f#8).toNat = b.toNat) ∧
    ((b &&& 0xf0#8) = 0 ↔ ((b >>> 4) &&& 0x0f#8).toNat = 0) := by
  decide +kernel

theorem hexOf_digits : ∀ bs : List Byte, ∀ c ∈ hexOf bs, IsDigit 16 c
  | [], c, h => by simp [hexOf] at h
  | b :: bs, c, h => by
    obtain ⟨⟨h1, h2, -⟩, -⟩ := nib_values b
    rw [hexOf] at h
    simp only [List.mem_cons] at h
    rcases h with h | h | h
    · rw [h]; exact ⟨_, rawToAsc_digit _ h1, h1⟩
    · rw [h]; exact ⟨_, rawToAsc_digit _ h2, h2⟩
    · exact hexOf_digits bs c h

theorem hexOf_numeral : ∀ (bs : List Byte) (v : Nat),
    numeralFrom 16 v (hexOf bs) = v * 256 ^ bs.length + beVal bs
  | [], v => by simp [hexOf, numeralFrom, beVal]
  | b :: bs, v => by
    obtain ⟨⟨h1, h2, h3⟩, -⟩ := nib_values b
    rw [hexOf, numeralFrom, numeralFrom, rawToAsc_digit _ h1, rawToAsc_digit _ h2,
      hexOf_numeral bs]
    simp only [Option.getD_some, beVal, List.length_cons, pow_succ]
    rw [← h3]
    ring

theorem storeStrHex_spec {w : Nat} (hw : DigitWidth w) {x : Mpi} (hx : Norm (2 ^ w) x)
    (hne : x.digs ≠ []) : ∃ s, storeStrHex w x = some s ∧ (∀ c ∈ s, IsDigit 16 c) ∧
      numeral 16 s = val (2 ^ w) x.digs ∧ s ≠ [] ∧ s.head? ≠ some 48#8 := by
  have hcb := countBits_spec hw hx
  have hpos := val_pos_of_ne hx hne
  have hle : ∀ k, countBytes w x ≤ k ↔ val (2 ^ w) x.digs < 256 ^ k := by
    intro k
    unfold countBytes
    rw [hcb, ← two_pow_eight_mul k, ← Nat.size_le]
    omega
  obtain ⟨bs, b1, b2, b3⟩ := storeBin_spec hw hx (countBytes w x) false ((hle _).1 (Nat.le_refl _))
  simp only [Bool.false_eq_true, if_false] at b2
  unfold storeStrHex
  rw [b1]
  dsimp only
  have hn : ∀ δ ≤ 1, (List.range (2 * bs.length - δ)).map
      (hexExpand bs.length (2 * bs.length - δ) fun k => bs.getD k 0) =
      (List.range (2 * bs.length - δ)).map fun p => nib (fun k => bs.getD k 0) (p + δ) := by
    intro δ hδ
    apply List.map_congr_left
    intro p hp
    rw [hexExpand_spec (fun k => bs.getD k 0) δ hδ _ _ _ (fun _ _ => rfl),
      if_pos (List.mem_range.1 hp)]
  have h1 := hn 1 (Nat.le_refl _)
  have h0 := hn 0 (Nat.zero_le _)
  rw [← b2, Nat.shiftLeft_eq]
  have e2 : bs.length * 2 ^ 1 = 2 * bs.length := by omega
  rw [e2]
  simp only [Nat.sub_zero, Nat.add_zero] at h0
  cases hbs : bs with
  | nil =>
    rw [hbs] at b3
    simp only [beVal] at b3; omega
  | cons c rest =>
    rw [← hbs]
    have hlen : 0 < bs.length := by rw [hbs]; simp
    have hc0 : bs.getD 0 0 = c := by rw [hbs]; rfl
    obtain ⟨⟨n1, n2, n3⟩, n4⟩ := nib_values c
    have hmap := map_nib bs
    have hnum := hexOf_numeral bs 0
    -- the top byte is not zero
    have hcnz : c.toNat ≠ 0 := by
      intro e
      have hlt : val (2 ^ w) x.digs < 256 ^ rest.length := by
        rw [← b3, hbs]; simp only [beVal, e, Nat.zero_mul, Nat.zero_add]; exact beVal_lt rest
      have := (hle _).2 hlt
      rw [← b2, hbs, List.length_cons] at this
      omega
    have hne48 : ∀ d < 16, d ≠ 0 → rawToAsc d ≠ 48#8 := by decide
    split
    · next hz =>
      rw [hc0] at hz
      rw [h1]
      have htail : (List.range (2 * bs.length - 1)).map (fun p => nib (fun k => bs.getD k 0) (p + 1)) =
          (hexOf bs).tail := by
        rw [← hmap]
        obtain ⟨m, hm⟩ : ∃ m, 2 * bs.length = m + 1 := ⟨2 * bs.length - 1, by omega⟩
        rw [hm, List.range_succ_eq_map, List.map_cons, List.tail_cons, List.map_map, Nat.add_sub_cancel]
        rfl
      rw [htail]
      have hhi := n4.1 hz
      refine ⟨_, rfl, fun d hd => hexOf_digits bs d (List.mem_of_mem_tail hd), ?_, ?_, ?_⟩
      · rw [← b3, ← Nat.zero_add (beVal bs), ← Nat.zero_mul (256 ^ bs.length), ← hnum, hbs, hexOf,
          List.tail_cons, numeralFrom, hhi, show digitValue (rawToAsc 0) = some 0 from by decide]
        rfl
      · rw [hbs, hexOf]; simp
      · rw [hbs, hexOf, List.tail_cons, List.head?_cons]
        simp only [ne_eq, Option.some.injEq]
        exact hne48 _ n2 (by omega)
    · next hz =>
      rw [hc0] at hz
      rw [h0, show (fun p => nib (fun k => bs.getD k 0) p) = nib (fun k => bs.getD k 0) from rfl, hmap]
      refine ⟨_, rfl, hexOf_digits bs, ?_, ?_, ?_⟩
      · unfold numeral; rw [hnum, b3]; simp
      · rw [hbs, hexOf]; simp
      · rw [hbs, hexOf, List.head?_cons]
        simp only [ne_eq, Option.some.injEq]
        exact hne48 _ n1 (fun e => hz (n4.2 e))

end Verif.Mpi
