import Verif.Lemmas.Mem.Bin
import Verif.Lemmas.Mem.Inv
import Mathlib.Data.Nat.Digits.Defs
import Verif.Lemmas.Mpi.Str
/-! String export in memory. -/
namespace Verif.Mem
open Verif.Mpi (Mpi Norm WF val DigitWidth rawToAsc nib)
open Verif (Byte IsNumeral IsDigit numeral numeralFrom digitValue)

variable {w : Nat}

/-! ### Hexadecimal -/

theorem set_get {b : Buf} {i k : Nat} {v : Byte} (h : i < b.length) : (b.set i (some v))[k]? = if k = i then some (some v) else b[k]? := by
  rw [List.getElem?_set]
  split_ifs with h1 h2 h3
  all_goals first | rfl | omega

theorem hexExpand_ok (B : Nat → Byte) (δ p : Nat) (hδ : δ ≤ 1) (s : St) : ∀ (i : Nat) (b : Buf), (∀ k < i, b[p + k]? = some (some (B k))) →
    p + (2 * i - δ) ≤ b.length →
    ∃ b', hexExpand p i (2 * i - δ) b s = .ok (b', s) ∧ b'.length = b.length ∧
      ∀ k, b'[k]? = if p ≤ k ∧ k < p + (2 * i - δ) then some (some (nib B (k - p + δ))) else b[k]?
  | 0, b, _, _ => ⟨b, rfl, rfl, fun k => by rw [if_neg (by omega)]⟩
  | i + 1, b, h, hl => by
    rw [hexExpand]
    have hi := h i (by omega)
    rw [bind_ok (get_ok hi s), bind_ok (put_ok _ (by omega) s)]
    by_cases h0 : 2 * (i + 1) - δ - 1 = 0
    · have : i = 0 ∧ δ = 1 := by omega
      obtain ⟨rfl, rfl⟩ := this
      rw [if_pos h0]
      refine ⟨_, rfl, by simp, fun k => ?_⟩
      rw [set_get (by omega)]
      by_cases hk : k = p
      · subst hk
        rw [if_pos (by omega), if_pos (by omega)]
        simp [nib]
      · rw [if_neg (by omega), if_neg (by omega)]
    · rw [if_neg h0]
      have e1 : (b.set (p + (2 * (i + 1) - δ - 1)) (some (rawToAsc (B i &&& 0x0f#8).toNat)))[p + i]? = some (some (B i)) := by
        rw [set_get (by omega), if_neg (by omega), hi]
      rw [bind_ok (get_ok e1 s), bind_ok (put_ok _ (by rw [List.length_set]; omega) s)]
      have e2 : 2 * (i + 1) - δ - 2 = 2 * i - δ := by omega
      obtain ⟨b', r1, r2, r3⟩ := hexExpand_ok B δ p hδ s i
        ((b.set (p + (2 * (i + 1) - δ - 1)) (some (rawToAsc (B i &&& 0x0f#8).toNat))).set (p + (2 * (i + 1) - δ - 2))
          (some (rawToAsc ((B i >>> 4) &&& 0x0f#8).toNat))) (fun k hk => by
            rw [set_get (by rw [List.length_set]; omega), if_neg (by omega), set_get (by omega), if_neg (by omega), h k (by omega)])
        (by simp only [List.length_set]; omega)
      rw [e2] at r1 r3 ⊢
      refine ⟨b', r1, by rw [r2]; simp, fun k => ?_⟩
      rw [r3]
      by_cases c1 : p ≤ k ∧ k < p + (2 * i - δ)
      · rw [if_pos c1, if_pos (by omega)]
      · rw [if_neg c1, set_get (by rw [List.length_set]; omega)]
        by_cases c2 : k = p + (2 * i - δ)
        · subst c2
          rw [if_pos rfl, if_pos (by omega), nib, if_pos (by omega), show (p + (2 * i - δ) - p + δ) / 2 = i by omega]
        · rw [if_neg c2, set_get (by omega)]
          by_cases c3 : k = p + (2 * (i + 1) - δ - 1)
          · subst c3
            rw [if_pos rfl, if_pos (by omega), nib, if_neg (by omega), show (p + (2 * (i + 1) - δ - 1) - p + δ) / 2 = i by omega]
          · rw [if_neg c3, if_neg (by omega)]

theorem storeStrHex_ok (hw : DigitWidth w) {x : Nat} {s : St} {m : Mpi} (h : (s.obj x).Reads m) (hm : Norm (2 ^ w) m) (hne : m.digs ≠ [])
    {b : Buf} {p : Nat} {t : List Byte} (ht : Mpi.storeStrHex w m = some t) (hb : p + t.length + 1 ≤ b.length) :
    storeStrHex w x p b s = .ok ((0, overB b p (t ++ [0])), s) := by
  have hpos : 0 < Mpi.countBytes w m := by
    unfold Mpi.countBytes
    rw [Mpi.countBits_spec hw hm]
    have := Nat.size_pos.2 (Mpi.val_pos_of_ne hm hne)
    omega
  unfold Mpi.storeStrHex at ht
  cases hbs : Mpi.storeBin w m (Mpi.countBytes w m) false with
  | none => rw [hbs] at ht; cases ht
  | some bs =>
    rw [hbs] at ht
    dsimp only at ht
    have hlen : bs.length = Mpi.countBytes w m := by
      unfold Mpi.storeBin at hbs
      simp only [lt_irrefl, if_false, Bool.false_eq_true, Nat.sub_self, List.replicate_zero, List.nil_append] at hbs
      cases hbs
      exact storeLoop_length _
    rw [← hlen] at ht hpos
    rw [Nat.shiftLeft_eq, show bs.length * 2 ^ 1 = 2 * bs.length by omega] at ht
    obtain ⟨δ, hδ, hj⟩ : ∃ δ ≤ 1, (if (bs.getD 0 0 &&& 0xf0#8) = 0 then 2 * bs.length - 1 else 2 * bs.length) = 2 * bs.length - δ := by
      split_ifs
      · exact ⟨1, by omega, rfl⟩
      · exact ⟨0, by omega, rfl⟩
    rw [hj] at ht
    cases ht
    simp only [List.length_map, List.length_range] at hb
    unfold storeStrHex
    rw [bind_ok (countBytes_run h), bind_ok (storeBin_ok hw h hm hbs (by omega))]
    dsimp only
    rw [if_neg (by omega)]
    have hL : (overB b p bs).length = b.length := overB_length (by omega)
    have hget : ∀ k < bs.length, (overB b p bs)[p + k]? = some (some (bs.getD k 0)) := fun k hk => by
      rw [overB_get (by omega), if_neg (by omega), if_pos (by omega), Nat.add_sub_cancel_left, List.getElem?_eq_getElem hk,
        List.getD_eq_getElem?_getD, List.getElem?_eq_getElem hk]
      rfl
    have h0 := hget 0 hpos
    rw [Nat.add_zero] at h0
    rw [bind_ok (get_ok h0 s), ← hlen, hj, bind_ok (put_ok 0 (by omega) s)]
    obtain ⟨b', r1, r2, r3⟩ := hexExpand_ok (fun k => bs.getD k 0) δ p hδ s bs.length ((overB b p bs).set (p + (2 * bs.length - δ)) (some 0))
      (fun k hk => by rw [set_get (by omega), if_neg (by omega)]; exact hget k hk) (by simp only [List.length_set]; omega)
    rw [bind_ok r1]
    have : b' = overB b p ((List.range (2 * bs.length - δ)).map (Mpi.hexExpand bs.length (2 * bs.length - δ) fun k => bs.getD k 0) ++ [0]) := by
      apply List.ext_getElem?
      intro k
      rw [r3, overB_get (by simp only [List.length_append, List.length_map, List.length_range, List.length_singleton]; omega)]
      simp only [List.length_append, List.length_map, List.length_range, List.length_singleton]
      by_cases c1 : k < p
      · rw [if_neg (by omega), if_pos c1, set_get (by omega), if_neg (by omega), overB_get (by omega), if_pos c1]
      · rw [if_neg c1]
        by_cases c2 : k < p + (2 * bs.length - δ)
        · rw [if_pos (by omega), if_pos (by omega), List.getElem?_append_left (by simp; omega), List.getElem?_map, List.getElem?_range (by omega)]
          simp only [Option.map_some]
          rw [Mpi.hexExpand_spec (fun k => bs.getD k 0) δ hδ _ _ _ (fun _ _ => rfl), if_pos (by omega)]
        · rw [if_neg (by omega), set_get (by omega)]
          by_cases c3 : k = p + (2 * bs.length - δ)
          · rw [if_pos c3, if_pos (by omega), List.getElem?_append_right (by simp; omega)]
            simp only [List.length_map, List.length_range]
            rw [show k - p - (2 * bs.length - δ) = 0 by omega]
            rfl
          · rw [if_neg c3, if_neg (by omega), overB_get (by omega), if_neg c1, if_neg (by omega)]
    rw [this]; rfl

/-! ### Reversal -/

theorem revLoop_ok (s : St) : ∀ (fuel j i : Nat) (b : Buf) (c : Nat → Byte), i - j < fuel → i < b.length → (∀ k, j ≤ k → k ≤ i → b[k]? = some (some (c k))) →
    ∃ b', revLoop fuel j i b s = .ok (b', s) ∧ b'.length = b.length ∧
      ∀ k, b'[k]? = if j ≤ k ∧ k ≤ i then some (some (c (i + j - k))) else b[k]?
  | 0, _, _, _, _, h, _, _ => by omega
  | fuel + 1, j, i, b, c, hf, hl, h => by
    rw [revLoop]
    by_cases hji : j < i
    · rw [if_pos hji]
      have x1 : ∀ a b : Byte, b ^^^ (a ^^^ b) = a := by
        intro a b; rw [BitVec.xor_comm a b, ← BitVec.xor_assoc]; simp
      have x2 : ∀ a b : Byte, a ^^^ b ^^^ a = b := by
        intro a b; rw [BitVec.xor_comm a b, BitVec.xor_assoc]; simp
      have hj := h j (by omega) (by omega)
      have hi := h i (by omega) (by omega)
      rw [bind_ok (get_ok hj s), bind_ok (get_ok hi s), bind_ok (put_ok _ (by omega) s)]
      have l1 : (b.set j (some (c j ^^^ c i))).length = b.length := by simp
      have g1 : ∀ k, (b.set j (some (c j ^^^ c i)))[k]? = if k = j then some (some (c j ^^^ c i)) else b[k]? := fun k => set_get (by omega)
      generalize b.set j (some (c j ^^^ c i)) = b1 at *
      rw [bind_ok (get_ok (v := c i) (by rw [g1, if_neg (by omega), hi]) s), bind_ok (get_ok (by rw [g1, if_pos rfl]) s), bind_ok (put_ok _ (by omega) s), x1]
      have l2 : (b1.set i (some (c j))).length = b.length := by simp [l1]
      have g2 : ∀ k, (b1.set i (some (c j)))[k]? = if k = i then some (some (c j)) else b1[k]? := fun k => set_get (by omega)
      generalize b1.set i (some (c j)) = b2 at *
      rw [bind_ok (get_ok (v := c j ^^^ c i) (by rw [g2, if_neg (by omega), g1, if_pos rfl]) s), bind_ok (get_ok (by rw [g2, if_pos rfl]) s),
        bind_ok (put_ok _ (by omega) s), x2]
      have l3 : (b2.set j (some (c i))).length = b.length := by simp [l2]
      have g3 : ∀ k, (b2.set j (some (c i)))[k]? = if k = j then some (some (c i)) else b2[k]? := fun k => set_get (by omega)
      generalize b2.set j (some (c i)) = b3 at *
      obtain ⟨b', r1, r2, r3⟩ := revLoop_ok s fuel (j + 1) (i - 1) b3 c (by omega) (by omega) (fun k h1 h2 => by
        rw [g3, if_neg (by omega), g2, if_neg (by omega), g1, if_neg (by omega)]; exact h k (by omega) (by omega))
      refine ⟨b', r1, by omega, fun k => ?_⟩
      rw [r3]
      by_cases c1 : j + 1 ≤ k ∧ k ≤ i - 1
      · rw [if_pos c1, if_pos (by omega), show i - 1 + (j + 1) - k = i + j - k by omega]
      · rw [if_neg c1, g3]
        by_cases c2 : k = j
        · rw [if_pos c2, if_pos (by omega), show i + j - k = i by omega]
        · rw [if_neg c2, g2]
          by_cases c3 : k = i
          · rw [if_pos c3, if_pos (by omega), show i + j - k = j by omega]
          · rw [if_neg c3, g1, if_neg c2, if_neg (by omega)]
    · rw [if_neg hji]
      refine ⟨b, rfl, rfl, fun k => ?_⟩
      by_cases hk : j ≤ k ∧ k ≤ i
      · rw [if_pos hk, h k hk.1 hk.2, show i + j - k = k by omega]
      · rw [if_neg hk]

theorem overB_snoc {c : Buf} {L : List Byte} {d : Byte} (h : L.length < c.length) : (overB c 0 L).set L.length (some d) = overB c 0 (L ++ [d]) := by
  apply List.ext_getElem?
  intro k
  rw [set_get (by rw [overB_length (by omega)]; omega), overB_get (by omega), overB_get (by simp; omega)]
  simp only [List.length_append, List.length_singleton, Nat.zero_add, Nat.not_lt_zero, if_false, Nat.sub_zero]
  by_cases c1 : k = L.length
  · rw [if_pos c1, if_pos (by omega), c1]; simp
  · rw [if_neg c1]
    by_cases c2 : k < L.length
    · rw [if_pos c2, if_pos (by omega), List.getElem?_append_left c2]
    · rw [if_neg c2, if_neg (by omega)]

/-- The end of `cry_mpi_store_str`: `cs` has been written. -/
theorem strEnd_ok {a : Nat} {s : St} {m : Mpi} (h : (s.obj a).Reads m) {b : Buf} {cs : List Byte} (hcs : cs ≠ [])
    (hb : (cs ++ if m.neg then [45#8] else []).length + 1 ≤ b.length) :
    strEnd a cs.length (overB b 0 cs) s = .ok ((0, overB b 0 ((cs ++ if m.neg then [45#8] else []).reverse ++ [0])), s) := by
  obtain ⟨al, h1, h2⟩ := h
  have key : ∀ ds : List Byte, ds ≠ [] → ds.length + 1 ≤ b.length → (do
      let b ← put (overB b 0 ds) ds.length 0
      let b ← revLoop (ds.length + 1) 0 (ds.length - 1) b
      pure (0, b) : M (Int × Buf)) s = .ok ((0, overB b 0 (ds.reverse ++ [0])), s) := by
    intro ds hds hl
    have hpos := List.length_pos_of_ne_nil hds
    have hL : (overB b 0 ds).length = b.length := overB_length (by omega)
    rw [bind_ok (put_ok 0 (by omega) s)]
    obtain ⟨b', r1, r2, r3⟩ := revLoop_ok s (ds.length + 1) 0 (ds.length - 1) ((overB b 0 ds).set ds.length (some 0)) (fun k => ds.getD k 0) (by omega)
      (by rw [List.length_set]; omega) (fun k h1 h2 => by
        rw [set_get (by omega), if_neg (by omega), overB_get (by omega), if_neg (by omega), if_pos (by omega), Nat.sub_zero,
          List.getElem?_eq_getElem (by omega), List.getD_eq_getElem?_getD, List.getElem?_eq_getElem (by omega)]
        rfl)
    rw [bind_ok r1]
    have : b' = overB b 0 (ds.reverse ++ [0]) := by
      apply List.ext_getElem?
      intro k
      rw [r3, overB_get (by simp; omega)]
      simp only [List.length_append, List.length_singleton, Nat.zero_add, Nat.not_lt_zero, if_false, Nat.sub_zero, List.length_reverse]
      by_cases c1 : k < ds.length
      · rw [if_pos (by omega), if_pos (by omega), List.getElem?_append_left (by simpa using c1), List.getElem?_reverse c1,
          List.getD_eq_getElem?_getD, show ds.length - 1 + 0 - k = ds.length - 1 - k by omega, List.getElem?_eq_getElem (by omega)]
        rfl
      · rw [if_neg (by omega), set_get (by omega)]
        by_cases c2 : k = ds.length
        · rw [if_pos c2, if_pos (by omega), List.getElem?_append_right (by simp; omega), List.length_reverse, c2, Nat.sub_self]; rfl
        · rw [if_neg c2, if_neg (by omega), overB_get (by omega), if_neg (by omega), if_neg (by omega)]
    rw [this]; rfl
  unfold strEnd
  rw [bind_ok (hdr_ok h1)]
  dsimp only
  cases hn : m.neg with
  | false =>
    rw [hn] at hb
    simp only [Bool.false_eq_true, if_false, List.append_nil] at hb ⊢
    exact key cs hcs hb
  | true =>
    rw [hn] at hb
    simp only [if_true, List.length_append, List.length_singleton] at hb ⊢
    have := key (cs ++ [45#8]) (by simp) (by simp; omega)
    rw [← this, List.length_append, List.length_singleton]
    refine (bind_ok (put_ok 45 (by rw [overB_length (by omega)]; omega) s)).trans ?_
    rw [overB_snoc (by omega)]
    rfl

/-! ### Other radices -/

/-- Digits, least significant first. -/
def revDigits (radix z : Nat) : List Byte := (Nat.digits radix z).map rawToAsc

/-- The string `t` and its terminating 0 have been written, or in case of failure no more bytes than `t` has. -/
def BufPost (b : Buf) (t : List Byte) (r : Int × Buf) : Prop :=
  (r.1 = 0 → r.2 = overB b 0 (t ++ [0])) ∧ (r.1 ≠ 0 → ∃ L : List Byte, L.length ≤ t.length ∧ r.2 = overB b 0 L)

theorem Bad.lift {K : Ctx} {E : Env} {S : Nat} {s s' : St} (h : At K E S s) (h' : Bad (ctxOf S s) s') : Bad K s' := by
  obtain ⟨k, f1, f2, f3⟩ := h'
  exact ⟨k, h.tick.trans f1, f2, by rw [← h.orc]; exact f3⟩

theorem Res.lift {K : Ctx} {E G B : Env} {S : Nat} {s s' : St} {st : Int} (h : At K E S s) (h' : Res (ctxOf S s) S G B st s') : Res K S G B st s' := by
  rcases h' with ⟨e, h'⟩ | ⟨e, f, h'⟩
  · exact Or.inl ⟨e, h.lift h'⟩
  · exact Or.inr ⟨e, f.lift h, h.lift h'⟩

/-- The digit read from a remainder. -/
theorem rem_digit (hw : 8 ≤ w) {v : Nat} {s : St} {z : Int} (h : V w z 0 (s.obj v)) (hz : z.natAbs < 256) :
    ∃ h', hdr v s = .ok (h', s) ∧ ∀ {α : Type} (k : Nat → M α) (Q : α → St → Prop), WP (k z.natAbs) Q s →
      WP (if h'.used ≠ 0 then do let d ← rd v 0; k d else do let d ← pure 0; k d) Q s := by
  obtain ⟨m, m1, m2, m3⟩ := h
  refine ⟨_, hdr_ok m3.1.1, fun {α} k Q hk => ?_⟩
  dsimp only
  have hv : val (2 ^ w) m.digs = z.natAbs := by rw [← m2, Mpi.natAbs_toInt]
  by_cases h0 : m.digs.length = 0
  · rw [if_neg (by simpa using h0)]
    rw [← hv, List.eq_nil_of_length_eq_zero h0] at hk
    exact hk
  · rw [if_pos h0]
    refine WP.bind_run (rd_run m3.1.reads (by omega)) ?_
    rw [Mpi.dig_eq (Nat.two_pow_pos w) m1.digits, hv, pow_zero, Nat.div_one, Nat.mod_eq_of_lt (Mpi.small_digit hw hz)]
    exact hk

theorem rem_digit_eq (hw : 8 ≤ w) {v : Nat} {s : St} {z : Int} (h : V w z 0 (s.obj v)) (hz : z.natAbs < 256) {h' : Hdr} (hh : hdr v s = .ok (h', s))
    {α : Type} (k : Nat → M α) {o : Out (α × St)} (hk : k z.natAbs s = o) :
    (if h'.used ≠ 0 then do let d ← rd v 0; k d else do let d ← pure 0; k d) s = o := by
  obtain ⟨m, m1, m2, m3⟩ := h
  rw [hdr_ok m3.1.1] at hh
  injection hh with hh
  injection hh with hh _
  subst hh
  dsimp only
  have hv : val (2 ^ w) m.digs = z.natAbs := by rw [← m2, Mpi.natAbs_toInt]
  by_cases h0 : m.digs.length = 0
  · rw [if_neg (by simpa using h0)]
    rw [← hv, List.eq_nil_of_length_eq_zero h0] at hk
    exact hk
  · rw [if_pos h0, bind_ok (rd_run m3.1.reads (by omega))]
    rw [Mpi.dig_eq (Nat.two_pow_pos w) m1.digits, hv, pow_zero, Nat.div_one, Nat.mod_eq_of_lt (Mpi.small_digit hw hz)]
    exact hk

/-- The division of one turn. -/
theorem str_div (hw : DigitWidth w) {K : Ctx} {s0 s : St} {sp radix : Nat} (hr : 2 ≤ radix) {T R : Int}
    (h : At K (Vs w sp (Now s0) [T, (radix : Int), R]) (sp + 3) s) :
    ∃ R' : Int, R'.natAbs = T.natAbs % radix ∧ WP (divAbs w (sp + 3) (some sp) (some (sp + 2)) sp (sp + 1))
      (Res K (sp + 3) (Vs w sp (Now s0) [((T.natAbs / radix : Nat) : Int), (radix : Int), R']) (Lv w sp (Now s0) 3)) s := by
  have v0 : V w T 0 (s.obj sp) := Nums.val h (j := 0) (by omega)
  have v1 : V w (radix : Int) 0 (s.obj (sp + 1)) := Nums.val h (j := 1) (by omega)
  have v2 : V w R 0 (s.obj (sp + 2)) := Nums.val h (j := 2) (by omega)
  have hd := divAbs_res (sp := sp + 3) (n := 0) (rq := some sp) (rr := some (sp + 2)) hw v0.shows v1.shows (by omega) (by omega) (by omega) (by omega)
    (fun v e => by cases e; exact ⟨by omega, _, v0⟩) (fun v e => by cases e; exact ⟨by omega, _, v2⟩) (by intro v e; cases e; simp)
  have hrad : |(radix : Int)| = radix := abs_of_nonneg (by omega)
  rw [hrad] at hd
  generalize hR : (if |T| < (radix : Int) then T else |T| % radix) = R' at hd
  have hR' : R'.natAbs = T.natAbs % radix := by
    rw [← hR]
    have e : |T| = (T.natAbs : Int) := Int.abs_eq_natAbs T
    split_ifs with hlt
    · rw [Nat.mod_eq_of_lt (by omega)]
    · rw [e, ← Int.natCast_mod, Int.natAbs_natCast]
  have hQ : |T| / (radix : Int) = ((T.natAbs / radix : Nat) : Int) := by
    rw [Int.abs_eq_natAbs T]; push_cast; rfl
  rw [hQ] at hd
  refine ⟨R', hR', hd.mono fun st s1 hd => ?_⟩
  rcases hd with ⟨rfl, hd⟩ | ⟨rfl, hbad, hd⟩
  · refine Or.inl ⟨rfl, (h.lift hd).le fun v hv o ho => ?_⟩
    simp only [updO] at ho
    by_cases hv2 : v = sp + 2
    · subst hv2
      rw [Function.update_self] at ho
      unfold Vs; rw [Nums.hi]; exact ho
    · rw [Function.update_of_ne hv2] at ho
      by_cases hv0 : v = sp
      · subst hv0
        rw [Function.update_self] at ho
        obtain ⟨m', q1, q2, q3, -⟩ := ho
        have := Nums.hi (Q := fun z => V w z 0) (sp := v) (i := 0) (A := Now s0) (L := [((T.natAbs / radix : Nat) : Int), (radix : Int), R'])
        rw [Nat.add_zero] at this
        unfold Vs
        rw [this]; exact ⟨m', q1, q2, q3⟩
      · rw [Function.update_of_ne hv0] at ho
        have hE := h.objs v hv
        rw [← show o = s.obj v from ho] at hE
        by_cases hlt : v < sp
        · unfold Vs at hE ⊢; rw [Nums.lo hlt] at hE ⊢; exact hE
        · have : v = sp + 1 := by omega
          subst this
          unfold Vs at hE ⊢; rw [Nums.hi] at hE ⊢; exact hE
  · refine Or.inr ⟨rfl, hbad.lift h, (h.lift hd).le fun v hv o ho => ?_⟩
    simp only [updO] at ho
    by_cases hv2 : v = sp + 2
    · subst hv2
      rw [Function.update_self] at ho
      rw [Lv.mid (by omega) (by omega)]; exact ho.r
    · rw [Function.update_of_ne hv2] at ho
      by_cases hv0 : v = sp
      · subst hv0
        rw [Function.update_self] at ho
        rw [Lv.mid (by omega) (by omega)]; exact ho.r
      · rw [Function.update_of_ne hv0] at ho
        have hE := h.objs v hv
        rw [← show o = s.obj v from ho] at hE
        by_cases hlt : v < sp
        · unfold Vs at hE; rw [Nums.lo hlt] at hE
          rw [Lv.lo hlt]; exact hE
        · have : v = sp + 1 := by omega
          subst this
          unfold Vs at hE; rw [Nums.hi] at hE
          rw [Lv.mid (by omega) (by omega)]; exact v_any _ _ hE

theorem strLoop_run (hw : DigitWidth w) {K : Ctx} {s0 : St} {sp a radix : Nat} {m : Mpi} (ha : (s0.obj a).Reads m) (has : a < sp) (hr : 2 ≤ radix)
    (hr' : radix ≤ 16) {b : Buf} {full : List Byte} (hne : full ≠ []) (hb : (full ++ if m.neg then [45#8] else []).length + 1 ≤ b.length) :
    ∀ (fuel : Nat) (pre : List Byte) (T R : Int) (s : St), At K (Vs w sp (Now s0) [T, (radix : Int), R]) (sp + 3) s →
      full = pre ++ revDigits radix T.natAbs → T.natAbs < 2 ^ fuel →
      WP (strLoop w (sp + 3) a sp (sp + 1) (sp + 2) (fuel + 1) pre.length (overB b 0 pre))
        (fun r s' => Res K (sp + 3) (Lv w sp (Now s0) 3) (Lv w sp (Now s0) 3) r.1 s' ∧ BufPost b (full ++ if m.neg then [45#8] else []).reverse r) s
  | fuel, pre, T, R, s, h, hf, hlt => by
    have hw8 := hw.pos
    have hw0 : 0 < w := by omega
    have v0 : V w T 0 (s.obj sp) := Nums.val h (j := 0) (by omega)
    have v1 : V w (radix : Int) 0 (s.obj (sp + 1)) := Nums.val h (j := 1) (by omega)
    have v2 : V w R 0 (s.obj (sp + 2)) := Nums.val h (j := 2) (by omega)
    obtain ⟨m0, t1, t2, t3⟩ := id v0
    have oa : s.obj a = s0.obj a := Nums.arg h has
    rw [strLoop]
    refine WP.bind_run (hdr_ok t3.1.1) ?_
    by_cases hz : m0.digs.length = 0
    · rw [if_pos hz]
      have hT : T = 0 := by
        rw [← t2, (Mpi.toInt_eq_zero_iff (Nat.two_pow_pos w) t1.toNorm).2 (List.eq_nil_of_length_eq_zero hz)]
      have hfull : full = pre := by rw [hf, hT]; simp [revDigits]
      subst hfull
      refine WP.run (strEnd_ok (m := m) (by rw [oa]; exact ha) hne hb) ⟨Or.inl ⟨rfl, h.le (Nums.lv (Le.refl _ _) v_any)⟩, fun _ => rfl, fun h => absurd rfl h⟩
    · rw [if_neg hz]
      have hT : T ≠ 0 := fun e => hz (by
        rw [e] at t2
        rw [(Mpi.toInt_eq_zero_iff (Nat.two_pow_pos w) t1.toNorm).1 t2]; rfl)
      have hpos : 0 < T.natAbs := by omega
      obtain ⟨R', hR', st, s1, e1, hd⟩ := str_div hw hr h
      refine WP.bind_run e1 ?_
      rcases hd with ⟨rfl, a1⟩ | ⟨rfl, hbad, hd⟩
      · rw [if_neg (by simp)]
        have hml := Nat.mod_lt T.natAbs (show 0 < radix by omega)
        obtain ⟨h2, g1, g2⟩ := rem_digit hw8 (v := sp + 2) (s := s1) (z := R') (Nums.val a1 (j := 2) (by omega)) (by omega)
        have hdig : revDigits radix T.natAbs = rawToAsc R'.natAbs :: revDigits radix (T.natAbs / radix) := by
          unfold revDigits
          rw [Nat.digits_def' (by omega) hpos, hR']; rfl
        have hroom : pre.length < b.length := by
          have : pre.length ≤ full.length := by rw [hf]; simp
          rw [List.length_append] at hb
          omega
        refine WP.bind_run g1 (g2 _ _ (WP.bind_run (put_ok (b := overB b 0 pre) _ (by rw [overB_length (by omega)]; exact hroom) s1) ?_))
        rw [overB_snoc hroom]
        obtain ⟨f, rfl⟩ : ∃ f, fuel = f + 1 := ⟨fuel - 1, by
          cases fuel with
          | zero => rw [pow_zero] at hlt; omega
          | succ f => omega⟩
        have := strLoop_run hw ha has hr hr' hne hb f (pre ++ [rawToAsc R'.natAbs]) _ _ s1 a1 (by
            rw [hf, hdig, Int.natAbs_natCast]; simp) (by
            rw [Int.natAbs_natCast, Nat.div_lt_iff_lt_mul (by omega)]
            rw [pow_succ] at hlt
            exact Nat.lt_of_lt_of_le hlt (Nat.mul_le_mul_left _ hr))
        rw [List.length_append, List.length_singleton] at this
        exact this
      · rw [if_pos (by simp)]
        refine WP.pure ⟨Or.inr ⟨rfl, hbad, hd⟩, fun h => absurd h (by simp), fun _ => ⟨pre, ?_, rfl⟩⟩
        rw [List.length_reverse, List.length_append, hf, List.length_append]; omega

/-- A function whose `k` locals are initialised by `cry_mpi_init_list` and that returns a buffer as well. -/
theorem initListB {K : Ctx} {E B : Env} {sp k : Nat} {s : St} {as : List Nat} {body : M (Int × Buf)} {b : Buf} {P : Int × Buf → Prop} (hw : 0 < w)
    (h : At K (Locals sp E (· = Obj.fresh)) (sp + k) s) (has : ∀ v, v ∈ as ↔ sp ≤ v ∧ v < sp + k)
    (hn : as.Nodup) (hE : Le sp E B) (hP : P (-1, b))
    (hb : ∀ s', At K (Nums (fun z => V w z 8) sp E (List.replicate k 0)) (sp + k) s' →
      WP body (fun r s'' => Res K (sp + k) (Lv w sp B k) (Lv w sp B k) r.1 s'' ∧ P r) s') :
    WP (do
      let st ← initList as
      if st ≠ 0 then pure (st, b)
      else do
        let r ← body
        clearList as
        pure r) (fun r s' => Res K (sp + k) (Lv w sp B 0) (Lv w sp B 0) r.1 s' ∧ P r) s := by
  have h0 := initListLoop_at (w := w) hw as [] s (E := Locals sp E (· = Obj.fresh)) (h.le fun v _ o ho => by unfold Sets; rw [if_neg (by simp)]; exact ho)
    (by intro a ha; exact ((has a).1 (by simpa using ha)).2) (by simpa using hn) (by
      intro a ha o ho
      rw [Locals.hi ((has a).1 ha).1] at ho
      rw [ho]; rfl)
  rw [List.nil_append] at h0
  obtain ⟨st, s1, e1, h0⟩ := h0
  refine WP.bind_run (show initList as s = _ from e1) ?_
  rcases h0 with ⟨rfl, h1⟩ | ⟨rfl, f, h1⟩
  · rw [if_neg (by simp)]
    have h2 := hb s1 (h1.le fun v hv o ho => by
      unfold Sets at ho
      unfold Nums
      by_cases hvs : v < sp
      · rw [if_neg (by rw [has]; omega), Locals.lo hvs] at ho
        rw [if_pos hvs]; exact ho
      · rw [if_pos (by rw [has]; omega)] at ho
        rw [if_neg hvs, List.getD_eq_getElem?_getD, List.getElem?_replicate]
        split <;> exact ho)
    have hc : ∀ a ∈ as, ∀ o, Lv w sp B k a o → Null o ∨ ∃ m, o.Holds m := fun a ha o ho => by
      rw [Lv.mid ((has a).1 ha).1 ((has a).1 ha).2] at ho; exact ho.clr
    have hl : Le (sp + k) (Sets (Lv w sp B k) as (· = Obj.cleared)) (Lv w sp B 0) := fun v hv o ho => by
      unfold Sets at ho
      by_cases hvs : v < sp
      · rw [if_neg (by rw [has]; omega), Lv.lo hvs] at ho
        rw [Lv.lo hvs]; exact ho
      · rw [if_pos (by rw [has]; omega)] at ho
        rw [Lv.hi (by omega), ho]; rfl
    refine WP.bind (h2.mono fun r s2 h2 => ?_)
    obtain ⟨h2, hp⟩ := h2
    rcases h2 with ⟨e, h2⟩ | ⟨e, f, h2⟩
    · obtain ⟨s3, e3, h3, -⟩ := clearList_at as _ s2 h2 (fun a ha => ((has a).1 ha).2) hc
      exact WP.bind_run e3 (WP.pure ⟨Or.inl ⟨e, h3.le hl⟩, hp⟩)
    · obtain ⟨s3, e3, h3, t3⟩ := clearList_at as _ s2 h2 (fun a ha => ((has a).1 ha).2) hc
      exact WP.bind_run e3 (WP.pure ⟨Or.inr ⟨e, f.mono t3, h3.le hl⟩, hp⟩)
  · rw [if_pos (by simp)]
    refine WP.pure ⟨Or.inr ⟨rfl, f, h1.le fun v hv o ho => ?_⟩, hP⟩
    unfold Sets at ho
    by_cases hvs : v < sp
    · rw [if_neg (by rw [has]; omega), Locals.lo hvs] at ho
      rw [Lv.lo hvs]; exact hE v hvs o ho
    · rw [if_pos (by rw [has]; omega)] at ho
      rw [Lv.hi (by omega)]; exact ho

/-- The digits are those of the number, without leading zeros. -/
theorem revDigits_spec {radix : Nat} (hr : 2 ≤ radix) (hr' : radix ≤ 16) : ∀ z : Nat, (∀ c ∈ revDigits radix z, IsDigit radix c) ∧
    numeral radix (revDigits radix z).reverse = z ∧ (revDigits radix z = [] ↔ z = 0) ∧ (revDigits radix z).getLast? ≠ some 48#8 := by
  intro z
  induction z using Nat.strong_induction_on with
  | _ z ih =>
    by_cases hz : z = 0
    · subst hz
      exact ⟨by simp [revDigits], by simp [revDigits, numeral, numeralFrom], by simp [revDigits], by simp [revDigits]⟩
    · have e : revDigits radix z = rawToAsc (z % radix) :: revDigits radix (z / radix) := by
        unfold revDigits; rw [Nat.digits_def' (by omega) (by omega)]; rfl
      obtain ⟨i1, i2, i3, i4⟩ := ih (z / radix) (Nat.div_lt_self (by omega) (by omega))
      have hml := Nat.mod_lt z (show 0 < radix by omega)
      have hdv := Mpi.rawToAsc_digit (z % radix) (by omega)
      rw [e]
      refine ⟨?_, ?_, by simp [hz], ?_⟩
      · intro c hc
        rcases List.mem_cons.1 hc with h | h
        · rw [h]; exact ⟨_, hdv, hml⟩
        · exact i1 c h
      · unfold numeral at i2 ⊢
        rw [List.reverse_cons, Verif.numeralFrom_append, i2, numeralFrom, numeralFrom, hdv]
        simp only [Option.getD_some]
        rw [Nat.mul_comm]
        exact Nat.div_add_mod _ _
      · by_cases hcs : revDigits radix (z / radix) = []
        · have hq := i3.1 hcs
          rw [hcs]
          have hlt2 : z < radix := by
            rcases Nat.div_eq_zero_iff.1 hq with h | h
            · omega
            · exact h
          rw [Nat.mod_eq_of_lt hlt2] at hdv ⊢
          simp only [List.getLast?_singleton, ne_eq, Option.some.injEq]
          intro e
          rw [e, show digitValue 48#8 = some 0 from by decide] at hdv
          have := Option.some.inj hdv
          omega
        · rw [List.getLast?_cons_of_ne_nil hcs]
          exact i4

theorem storeStr_res (hw : DigitWidth w) {sp a radix : Nat} {s : St} {z : Int} (ha : (s.obj a).Shows w z) (has : a < sp) (hr : 2 ≤ radix) (hr' : radix ≤ 16) :
    ∃ t, IsNumeral radix z t ∧ ∀ b : Buf, t.length + 1 ≤ b.length →
      WP (storeStr w sp a radix b) (fun r s' => Res (ctxOf sp s) sp (Now s) (Now s) r.1 s' ∧ BufPost b t r) s := by
  have hw8 := hw.pos
  have hw0 : 0 < w := by omega
  obtain ⟨m, m1, m2, al, m4, m5⟩ := id ha
  have hneg : (m.neg = true) = (z < 0) := by rw [← m2]; exact propext (Mpi.neg_iff_of_wf m1)
  have hv : val (2 ^ w) m.digs = z.natAbs := by rw [← m2, Mpi.natAbs_toInt]
  have hz0 := Mpi.toInt_eq_zero_iff (Nat.two_pow_pos w) m1.toNorm
  rw [m2] at hz0
  -- the frame of the function
  have frame : ∀ (b : Buf) (t : List Byte) (body : M (Int × Buf)), (∀ s1, At (ctxOf sp s) (Locals sp (Now s) (· = Obj.fresh)) (sp + 3) s1 →
      WP body (fun r s' => Res (ctxOf sp s) (sp + 3) (Lv w sp (Now s) 0) (Lv w sp (Now s) 0) r.1 s' ∧ BufPost b t r) s1) →
      WP (do decl sp 3; body) (fun r s' => Res (ctxOf sp s) sp (Now s) (Now s) r.1 s' ∧ BufPost b t r) s := by
    intro b t body hb
    refine WP.bind ((decl_at (at_now sp s) 3).mono fun _ s1 h1 => (hb s1 h1).mono fun r s2 h2 => ⟨?_, h2.2⟩)
    exact exit_res h2.1 (fun v hv o ho => by rwa [Lv.lo hv] at ho) (fun v hv o ho => by rwa [Lv.lo hv] at ho)
      (fun v hv hv' o ho => by rwa [Lv.hi (by omega)] at ho) (fun v hv hv' o ho => by rwa [Lv.hi (by omega)] at ho)
  have fresh : ∀ s1, At (ctxOf sp s) (Locals sp (Now s) (· = Obj.fresh)) (sp + 3) s1 → At (ctxOf sp s) (Lv w sp (Now s) 0) (sp + 3) s1 := fun s1 h =>
    h.le fun v hv o ho => by
      by_cases hvs : v < sp
      · rw [Locals.lo hvs] at ho; rw [Lv.lo hvs]; exact ho
      · rw [Locals.hi (by omega)] at ho; rw [Lv.hi (by omega), ho]; rfl
  have hobj : ∀ {s1}, At (ctxOf sp s) (Locals sp (Now s) (· = Obj.fresh)) (sp + 3) s1 → s1.obj a = s.obj a := fun h => by
    have := h.objs a (by omega); rwa [Locals.lo has] at this
  by_cases h0 : m.digs.length = 0
  · have hz : z = 0 := hz0.2 (List.eq_nil_of_length_eq_zero h0)
    refine ⟨[48#8], ⟨[48#8], by rw [if_neg (by omega)], ?_, ?_, by simp, fun _ => rfl, fun h => absurd hz h⟩, fun b hb => ?_⟩
    · intro c hc
      simp only [List.mem_singleton] at hc
      subst hc
      exact ⟨0, by decide, by omega⟩
    · rw [hz]; simp [numeral, numeralFrom, show digitValue 48#8 = some 0 from by decide]
    · unfold storeStr
      refine frame b _ _ fun s1 h => ?_
      rw [if_neg (by omega)]
      refine WP.bind_run (hdr_ok (by rw [hobj h]; exact m4)) ?_
      rw [if_pos h0]
      simp only [List.length_singleton] at hb
      refine WP.bind_run (put_ok 48 (by omega) s1) (WP.bind_run (put_ok 0 (by simp; omega) s1) (WP.pure ⟨Or.inl ⟨rfl, fresh _ h⟩, fun _ => ?_, fun h => absurd rfl h⟩))
      dsimp only
      have e1 := overB_snoc (c := b) (L := []) (d := 48#8) (by simp; omega)
      have e2 := overB_snoc (c := b) (L := [48#8]) (d := 0#8) (by simp; omega)
      rw [overB_nil] at e1
      rw [List.nil_append, List.length_nil] at e1
      rw [List.length_singleton] at e2
      rw [show ([48#8] ++ [0] : List Byte) = [48#8] ++ [0#8] from rfl, ← e2, ← e1]; rfl
  · have hne : m.digs ≠ [] := fun e => h0 (by rw [e]; rfl)
    have hz : z ≠ 0 := fun e => hne (hz0.1 e)
    by_cases h16 : radix = 16
    · subst h16
      obtain ⟨ds, s1, s2, s3, s4, s5⟩ := Mpi.storeStrHex_spec hw m1.toNorm hne
      refine ⟨if z < 0 then 45#8 :: ds else ds, ⟨ds, rfl, s2, by rw [s3, hv], s4, fun h => absurd h hz, fun _ => s5⟩, fun b hb => ?_⟩
      unfold storeStr
      refine frame b _ _ fun s1' h => ?_
      rw [if_neg (by omega)]
      refine WP.bind_run (hdr_ok (by rw [hobj h]; exact m4)) ?_
      rw [if_neg h0, if_pos rfl]
      dsimp only
      have hR : (s1'.obj a).Reads m := by rw [hobj h]; exact ⟨al, m4, m5⟩
      simp only [hneg]
      by_cases hn : z < 0
      · simp only [if_pos hn] at hb ⊢
        rw [List.length_cons] at hb
        refine WP.bind_run (put_ok 45 (by omega) s1') (WP.run (storeStrHex_ok hw hR m1.toNorm hne s1 (by simp; omega)) ⟨Or.inl ⟨rfl, fresh _ h⟩, fun _ => ?_, fun h => absurd rfl h⟩)
        exact overB_cons (by omega)
      · simp only [if_neg hn] at hb ⊢
        exact WP.run (storeStrHex_ok hw hR m1.toNorm hne s1 (by omega)) ⟨Or.inl ⟨rfl, fresh _ h⟩, fun _ => rfl, fun h => absurd rfl h⟩
    · obtain ⟨d1, d2, d3, d4⟩ := revDigits_spec hr hr' z.natAbs
      have hnil : revDigits radix z.natAbs ≠ [] := fun e => hz (by have := d3.1 e; omega)
      have hrev : (revDigits radix z.natAbs ++ if m.neg then [45#8] else []).reverse = if z < 0 then 45#8 :: (revDigits radix z.natAbs).reverse else (revDigits radix z.natAbs).reverse := by
        simp only [hneg]
        by_cases hn : z < 0
        · simp [if_pos hn]
        · simp [if_neg hn]
      refine ⟨_, ⟨(revDigits radix z.natAbs).reverse, rfl, fun c hc => d1 c (List.mem_reverse.1 hc), d2, by simpa using hnil,
        fun h => absurd h hz, fun _ => by rw [List.head?_reverse]; exact d4⟩, fun b hb => ?_⟩
      rw [← hrev] at hb ⊢
      rw [List.length_reverse] at hb
      unfold storeStr
      refine frame b _ _ fun s1 h => ?_
      rw [if_neg (by omega)]
      refine WP.bind_run (hdr_ok (by rw [hobj h]; exact m4)) ?_
      rw [if_neg h0, if_neg h16]
      have hlist : ∀ v, v ∈ [sp, sp + 1, sp + 2] ↔ sp ≤ v ∧ v < sp + 3 := by
        intro v
        simp only [List.mem_cons, List.not_mem_nil, or_false]
        omega
      refine initListB (b := b) (P := BufPost b _) hw0 h hlist (by simp) (Le.refl _ _) ⟨fun h => absurd h (by simp), fun _ => ⟨[], by simp, (overB_nil b 0).symm⟩⟩ fun s2 h => ?_
      unfold strBody
      obtain ⟨st, s3, e3, h3⟩ := leaf_at h (r := sp) (by omega) (copy_leaf (d := sp) (x := a) (Nums.val h (j := 0) (by omega)) (by
        rw [show s2.obj a = s.obj a from Nums.arg h has]; exact ha))
      refine WP.bind_run e3 ?_
      have h8 : ∀ (z : Int) (o : Obj), V w z 8 o → AnyR w o := fun _ _ h => h.any.r
      rcases h3 with ⟨rfl, h3⟩ | ⟨rfl, f, h3⟩
      · rw [if_neg (by simp)]
        have h4 := h3.le (Nums.set (i := 0) (by simp))
        obtain ⟨s5, e5, t5, v5, -⟩ := setInt_run hw (S := sp + 3) (v := (radix : Int)) (Nums.val h4 (j := 1) (by omega)) (by
          rw [Int.natAbs_natCast]; omega)
        have h5 := (step_at h4 (by omega) t5 v5).le (Nums.set (i := 1) (by simp))
        refine WP.bind_run e5 ?_
        have h6 : At (ctxOf sp s) (Vs w sp (Now s) [z, (radix : Int), 0]) (sp + 3) s5 := h5.le fun v hv o ho => by
          unfold Vs Nums at *
          by_cases hvs : v < sp
          · rw [if_pos hvs] at *; exact ho
          · rw [if_neg hvs] at *
            exact ho.weak (by omega)
        have := strLoop_run hw (s0 := s) ⟨al, m4, m5⟩ has hr hr' hnil (b := b) (by omega) (w * m.digs.length) [] z 0 s5 h6 rfl (by
          rw [← hv, pow_mul]; exact Mpi.val_lt m1.digits)
        rw [overB_nil, List.length_nil] at this
        exact this
      · rw [if_pos (by simp)]
        refine WP.pure ⟨Or.inr ⟨rfl, f, h3.le (Le.update (Nums.lv (Le.refl _ _) h8) fun o ho => ?_)⟩, fun h => absurd h (by simp), fun _ => ⟨[], by simp, (overB_nil b 0).symm⟩⟩
        rw [Lv.mid (by omega) (by omega)]; exact h8 _ _ ho

end Verif.Mem
