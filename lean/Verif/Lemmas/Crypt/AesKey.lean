import Verif.Lemmas.Crypt.AesInv
/-! AES: key schedule and key inversion. -/
namespace Verif.Aes
open Verif.AesS

/-! ### Key inversion -/

def swp (keys : List (BitVec 32)) (p q : Nat) : List (BitVec 32) :=
  (keys.set p (keys.getD q 0)).set q (keys.getD p 0)

theorem swp_length (keys : List (BitVec 32)) (p q : Nat) : (swp keys p q).length = keys.length := by simp [swp]

theorem swp_getD {keys : List (BitVec 32)} {p q : Nat} (hp : p < keys.length) (hq : q < keys.length) (m : Nat) :
    (swp keys p q).getD m 0 = if m = q then keys.getD p 0 else if m = p then keys.getD q 0 else keys.getD m 0 := by
  unfold swp
  simp only [List.getD_eq_getElem?_getD, List.getElem?_set, List.length_set]
  by_cases h1 : m = q
  · subst h1; rw [if_pos rfl, if_pos hq, if_pos rfl, Option.getD_some]
  · rw [if_neg (Ne.symm h1), if_neg h1]
    by_cases h2 : m = p
    · subst h2; rw [if_pos rfl, if_pos hp, if_pos rfl, Option.getD_some]
    · rw [if_neg (Ne.symm h2), if_neg h2]

/-- The position exchanged with `m`. -/
def rev (nr m : Nat) : Nat := 4 * (nr - m / 4) + m % 4

def tau (p q m : Nat) : Nat := if m = q then p else if m = p then q else m

theorem swp_tau {keys : List (BitVec 32)} {p q : Nat} (hp : p < keys.length) (hq : q < keys.length) (m : Nat) :
    (swp keys p q).getD m 0 = keys.getD (tau p q m) 0 := by
  rw [swp_getD hp hq, tau]; split_ifs <;> rfl

theorem tau_q (p q : Nat) : tau p q q = p := by rw [tau, if_pos rfl]
theorem tau_p {p q : Nat} (h : p ≠ q) : tau p q p = q := by rw [tau, if_neg h, if_pos rfl]
theorem tau_ne {p q m : Nat} (h1 : m ≠ q) (h2 : m ≠ p) : tau p q m = m := by rw [tau, if_neg h1, if_neg h2]

theorem tau4 {a b : Nat} (h : a < b) (m : Nat) :
    tau (4 * a) (4 * b) (tau (4 * a + 1) (4 * b + 1) (tau (4 * a + 2) (4 * b + 2) (tau (4 * a + 3) (4 * b + 3) m))) =
      if (4 * a ≤ m ∧ m < 4 * a + 4) ∨ (4 * b ≤ m ∧ m < 4 * b + 4) then rev (a + b) m else m := by
  have hr : ∀ k < 4, rev (a + b) (4 * a + k) = 4 * b + k := by intro k hk; unfold rev; omega
  have hr' : ∀ k < 4, rev (a + b) (4 * b + k) = 4 * a + k := by intro k hk; unfold rev; omega
  by_cases c0 : 4 * a ≤ m ∧ m < 4 * a + 4
  · rw [if_pos (Or.inl c0)]
    have e : m = 4 * a ∨ m = 4 * a + 1 ∨ m = 4 * a + 2 ∨ m = 4 * a + 3 := by omega
    obtain rfl | rfl | rfl | rfl := e
    · rw [tau_ne (p := 4 * a + 3) (by omega) (by omega), tau_ne (p := 4 * a + 2) (by omega) (by omega), tau_ne (p := 4 * a + 1) (by omega) (by omega), tau_p (p := 4 * a) (by omega)]
      exact (hr 0 (by omega)).symm
    · rw [tau_ne (p := 4 * a + 3) (by omega) (by omega), tau_ne (p := 4 * a + 2) (by omega) (by omega), tau_p (p := 4 * a + 1) (by omega), tau_ne (p := 4 * a) (by omega) (by omega)]
      exact (hr 1 (by omega)).symm
    · rw [tau_ne (p := 4 * a + 3) (by omega) (by omega), tau_p (p := 4 * a + 2) (by omega), tau_ne (p := 4 * a + 1) (by omega) (by omega), tau_ne (p := 4 * a) (by omega) (by omega)]
      exact (hr 2 (by omega)).symm
    · rw [tau_p (p := 4 * a + 3) (by omega), tau_ne (p := 4 * a + 2) (by omega) (by omega), tau_ne (p := 4 * a + 1) (by omega) (by omega), tau_ne (p := 4 * a) (by omega) (by omega)]
      exact (hr 3 (by omega)).symm
  · by_cases c1 : 4 * b ≤ m ∧ m < 4 * b + 4
    · rw [if_pos (Or.inr c1)]
      have e : m = 4 * b ∨ m = 4 * b + 1 ∨ m = 4 * b + 2 ∨ m = 4 * b + 3 := by omega
      obtain rfl | rfl | rfl | rfl := e
      · rw [tau_ne (p := 4 * a + 3) (by omega) (by omega), tau_ne (p := 4 * a + 2) (by omega) (by omega), tau_ne (p := 4 * a + 1) (by omega) (by omega), tau_q (4 * a)]
        exact (hr' 0 (by omega)).symm
      · rw [tau_ne (p := 4 * a + 3) (by omega) (by omega), tau_ne (p := 4 * a + 2) (by omega) (by omega), tau_q (4 * a + 1), tau_ne (p := 4 * a) (by omega) (by omega)]
        exact (hr' 1 (by omega)).symm
      · rw [tau_ne (p := 4 * a + 3) (by omega) (by omega), tau_q (4 * a + 2), tau_ne (p := 4 * a + 1) (by omega) (by omega), tau_ne (p := 4 * a) (by omega) (by omega)]
        exact (hr' 2 (by omega)).symm
      · rw [tau_q (4 * a + 3), tau_ne (p := 4 * a + 2) (by omega) (by omega), tau_ne (p := 4 * a + 1) (by omega) (by omega), tau_ne (p := 4 * a) (by omega) (by omega)]
        exact (hr' 3 (by omega)).symm
    · rw [if_neg (by omega), tau_ne (p := 4 * a + 3) (by omega) (by omega), tau_ne (p := 4 * a + 2) (by omega) (by omega),
        tau_ne (p := 4 * a + 1) (by omega) (by omega), tau_ne (p := 4 * a) (by omega) (by omega)]

theorem swapLoop_step (keys : List (BitVec 32)) (i j : Nat) : swapLoop keys i j =
    if i < j then swapLoop (swp (swp (swp (swp keys i j) (i + 1) (j + 1)) (i + 2) (j + 2)) (i + 3) (j + 3)) (i + 4) (j - 4)
    else keys := by
  rw [swapLoop]
  rfl

theorem swapLoop_spec (nr : Nat) : ∀ (n a b : Nat) (keys : List (BitVec 32)), a + b = nr → b - a ≤ n →
    keys.length = 4 * (nr + 1) →
    (swapLoop keys (4 * a) (4 * b)).length = keys.length ∧
    ∀ m, (swapLoop keys (4 * a) (4 * b)).getD m 0 =
      if 4 * a ≤ m ∧ m < 4 * b + 4 then keys.getD (rev nr m) 0 else keys.getD m 0
  | n, a, b, keys, hab, hn, hl => by
    rw [swapLoop_step]
    by_cases h : 4 * a < 4 * b
    · rw [if_pos h]
      match n, hn with
      | 0, hn => omega
      | n + 1, hn =>
        have l1 := swp_length keys (4 * a) (4 * b)
        have l2 := swp_length (swp keys (4 * a) (4 * b)) (4 * a + 1) (4 * b + 1)
        have l3 := swp_length (swp (swp keys (4 * a) (4 * b)) (4 * a + 1) (4 * b + 1)) (4 * a + 2) (4 * b + 2)
        have l4 := swp_length (swp (swp (swp keys (4 * a) (4 * b)) (4 * a + 1) (4 * b + 1)) (4 * a + 2) (4 * b + 2))
          (4 * a + 3) (4 * b + 3)
        obtain ⟨h1, h2⟩ := swapLoop_spec nr n (a + 1) (b - 1)
          (swp (swp (swp (swp keys (4 * a) (4 * b)) (4 * a + 1) (4 * b + 1)) (4 * a + 2) (4 * b + 2))
          (4 * a + 3) (4 * b + 3)) (by omega) (by omega) (by omega)
        rw [show 4 * a + 4 = 4 * (a + 1) by omega, show 4 * b - 4 = 4 * (b - 1) by omega]
        refine ⟨by omega, ?_⟩
        intro m
        have key : ∀ m, (swp (swp (swp (swp keys (4 * a) (4 * b)) (4 * a + 1) (4 * b + 1)) (4 * a + 2) (4 * b + 2))
            (4 * a + 3) (4 * b + 3)).getD m 0 =
            keys.getD (if (4 * a ≤ m ∧ m < 4 * a + 4) ∨ (4 * b ≤ m ∧ m < 4 * b + 4) then rev nr m else m) 0 := by
          intro m
          rw [swp_tau (by omega) (by omega), swp_tau (by omega) (by omega), swp_tau (by omega) (by omega),
            swp_tau (by omega) (by omega)]
          rw [tau4 (by omega), hab]
        rw [h2, key, key]
        by_cases c0 : 4 * (a + 1) ≤ m ∧ m < 4 * (b - 1) + 4
        · rw [if_pos c0, if_neg (by unfold rev; omega), if_pos (by omega)]
        · rw [if_neg c0]
          split_ifs
          · rfl
          · omega
          · omega
          · rfl
    · rw [if_neg h]
      refine ⟨rfl, ?_⟩
      intro m
      split_ifs with hm
      · rw [rev]; congr 1; omega
      · rfl

/-- What `key_invert` leaves in word `m`. -/
theorem keyInvert_key {c : Ctx} (hl : c.keys.length = 4 * (c.nr + 1)) (m : Nat) (hm : m < 4 * (c.nr + 1)) :
    (keyInvert c).key m =
      if 4 ≤ m ∧ m < 4 * c.nr then invWord (c.key (rev c.nr m)) else c.key (rev c.nr m) := by
  obtain ⟨h1, h2⟩ := swapLoop_spec c.nr c.nr 0 c.nr c.keys (by omega) (by omega) hl
  unfold keyInvert Ctx.key
  dsimp only
  rw [Nat.mul_comm c.nr 4]
  rw [Nat.mul_zero] at h1 h2
  have h2m := h2 m
  rw [if_pos (by omega)] at h2m
  generalize swapLoop c.keys 0 (4 * c.nr) = L at *
  have hmL : m < L.length := by omega
  rw [List.getD_eq_getElem?_getD, List.getElem?_eq_getElem hmL, Option.getD_some] at h2m
  rw [List.getD_eq_getElem?_getD, List.getElem?_mapIdx, List.getElem?_eq_getElem hmL, Option.map_some,
    Option.getD_some, h2m]

theorem keyInvert_length {c : Ctx} (hl : c.keys.length = 4 * (c.nr + 1)) :
    (keyInvert c).keys.length = 4 * (c.nr + 1) ∧ (keyInvert c).nr = c.nr ∧ (keyInvert c).dec = c.dec := by
  obtain ⟨h1, -⟩ := swapLoop_spec c.nr c.nr 0 c.nr c.keys (by omega) (by omega) hl
  refine ⟨?_, rfl, rfl⟩
  unfold keyInvert
  dsimp only
  rw [List.length_mapIdx, Nat.mul_comm c.nr 4, ← hl]
  exact h1

/-! ### Key schedule -/

theorem rconTab_eq : ∀ u < 10, rconTab.getD u 0 = xpow u := by decide +kernel

theorem colOf_byte : ∀ b : Byte, colOf (b.setWidth 32) = ⟨b, 0, 0, 0⟩ := by decide +kernel

theorem headD_drop (l : List Byte) : ∀ u, (l.drop u).headD 0 = l.getD u 0 := by
  induction l with
  | nil => intro u; simp
  | cons a l ih =>
    intro u
    cases u with
    | zero => rfl
    | succ u => rw [List.drop_succ_cons, ih, List.getD_cons_succ]

theorem expandLoop_spec {nk : Nat} (hnk : nk = 4 ∨ nk = 6 ∨ nk = 8) (key : Nat → Col) :
    ∀ (n : Nat) (keys : List (BitVec 32)), nk ≤ keys.length → keys.length + n ≤ 11 * nk →
    (∀ m, m < keys.length → colOf (keys.getD m 0) = expand nk key m) →
    (expandLoop nk n keys (rconTab.drop ((keys.length - 1) / nk))).length = keys.length + n ∧
    ∀ m, m < keys.length + n →
      colOf ((expandLoop nk n keys (rconTab.drop ((keys.length - 1) / nk))).getD m 0) = expand nk key m
  | 0, keys, _, _, h => ⟨rfl, h⟩
  | n + 1, keys, h1, h2, h => by
    have hpos : 0 < nk := by omega
    have step : ∀ (t : BitVec 32) (rp : List Byte), rp = rconTab.drop ((keys.length + 1 - 1) / nk) →
        colOf (keys.getD (keys.length - nk) 0 ^^^ t) = expand nk key keys.length →
        (expandLoop nk n (keys ++ [keys.getD (keys.length - nk) 0 ^^^ t]) rp).length = keys.length + (n + 1) ∧
        ∀ m, m < keys.length + (n + 1) →
          colOf ((expandLoop nk n (keys ++ [keys.getD (keys.length - nk) 0 ^^^ t]) rp).getD m 0) = expand nk key m := by
      intro t rp hrp ht
      have hL : (keys ++ [keys.getD (keys.length - nk) 0 ^^^ t]).length = keys.length + 1 := by simp
      have := expandLoop_spec hnk key n (keys ++ [keys.getD (keys.length - nk) 0 ^^^ t]) (by omega) (by omega) (by
        intro m hm
        rw [hL] at hm
        by_cases hlt : m < keys.length
        · rw [List.getD_eq_getElem?_getD, List.getElem?_append_left hlt, ← List.getD_eq_getElem?_getD]; exact h m hlt
        · have : m = keys.length := by omega
          subst this
          rw [List.getD_eq_getElem?_getD, List.getElem?_append_right (le_refl _), Nat.sub_self]
          exact ht)
      rw [hL, ← hrp, show keys.length + 1 + n = keys.length + (n + 1) by omega] at this
      exact this
    have hE : expand nk key keys.length = (expand nk key (keys.length - nk)).xor
        (if keys.length % nk = 0 then ((rotWord (expand nk key (keys.length - 1))).map sub).xor (rcon (keys.length / nk))
         else if nk > 6 ∧ keys.length % nk = 4 then (expand nk key (keys.length - 1)).map sub
         else expand nk key (keys.length - 1)) := by
      rw [expand, dif_neg (by omega)]
    have k1 := h (keys.length - 1) (by omega)
    have k2 := h (keys.length - nk) (by omega)
    have hdm := Nat.div_add_mod keys.length nk
    have hml := Nat.mod_lt keys.length hpos
    rw [expandLoop]
    dsimp only
    by_cases c0 : keys.length % nk = 0
    · rw [if_pos c0]
      have hq : 1 ≤ keys.length / nk := Nat.div_pos h1 hpos
      have hq2 : keys.length / nk ≤ 10 := by
        have : keys.length / nk < 11 := (Nat.div_lt_iff_lt_mul hpos).mpr (by omega)
        omega
      have hu : (keys.length - 1) / nk = keys.length / nk - 1 := by
        obtain rfl | rfl | rfl := hnk <;> omega
      apply step
      · rw [List.tail_drop, hu, Nat.add_sub_cancel, Nat.sub_add_cancel hq]
      · rw [hE, if_pos c0, colOf_xor, k2, colOf_xor, colOf_final, fsbox_eq, fsbox_eq, fsbox_eq, fsbox_eq, headD_drop,
          hu, rconTab_eq _ (by omega), colOf_byte]
        have hr := colOf_rotl24 (keys.getD (keys.length - 1) 0)
        rw [k1] at hr
        rw [← hr]
        simp only [Col.map, colOf, rcon]
    · rw [if_neg c0]
      have hu : (keys.length + 1 - 1) / nk = (keys.length - 1) / nk := by
        obtain rfl | rfl | rfl := hnk <;> omega
      by_cases c1 : nk = 8 ∧ keys.length % nk = 4
      · rw [if_pos c1]
        apply step
        · rw [hu]
        · rw [hE, if_neg c0, if_pos (by omega), colOf_xor, k2, colOf_final, fsbox_eq, fsbox_eq, fsbox_eq, fsbox_eq, ← k1]
          rfl
      · rw [if_neg c1]
        apply step
        · rw [hu]
        · rw [hE, if_neg c0, if_neg (by omega), colOf_xor, k2, k1]

/-- A context holding the schedule `wk` of `nr` rounds. -/
structure Keyed (c : Ctx) (wk : Nat → Col) : Prop where
  nr : 1 ≤ c.nr
  len : c.keys.length = 4 * (c.nr + 1)
  key : ∀ j, j < 4 * (c.nr + 1) → colOf (c.key j) = wk j

theorem keySet_spec {key : List Byte} (hk : key.length = 16 ∨ key.length = 24 ∨ key.length = 32) :
    ∃ c, keySet key = some c ∧ c.nr = key.length / 4 + 6 ∧ c.dec = false ∧
      Keyed c (expand (key.length / 4) (colAt key)) := by
  have hnk : (if 32 ≤ key.length then 8 else if 24 ≤ key.length then 6 else 4) = key.length / 4 := by
    split_ifs <;> omega
  unfold keySet
  rw [if_neg (by omega)]
  dsimp only
  rw [hnk]
  generalize hn : key.length / 4 = nk at *
  have hnk' : nk = 4 ∨ nk = 6 ∨ nk = 8 := by omega
  have hl : ((List.range nk).map (fun i => word key (i * 4))).length = nk := by simp
  have hr : rconTab = rconTab.drop ((((List.range nk).map (fun i => word key (i * 4))).length - 1) / nk) := by
    rw [hl]
    have : (nk - 1) / nk = 0 := Nat.div_eq_of_lt (by omega)
    rw [this]; rfl
  have hs := expandLoop_spec hnk' (colAt key) (4 * (nk + 6 + 1) - nk) ((List.range nk).map (fun i => word key (i * 4)))
    (by omega) (by omega) (by
      intro m hm
      rw [hl] at hm
      rw [expand, dif_pos (Or.inl hm), ← word_colOf, List.getD_eq_getElem?_getD, List.getElem?_map,
        List.getElem?_range hm, Nat.mul_comm]
      rfl)
  rw [← hr, hl] at hs
  refine ⟨_, rfl, rfl, rfl, by dsimp only; omega, by dsimp only; rw [hs.1]; omega, ?_⟩
  intro j hj
  exact hs.2 j (by dsimp only at hj; omega)

theorem keyInvert_dkey {c : Ctx} {wk : Nat → Col} (h : Keyed c wk) : Keyed (keyInvert c) (dkey c.nr wk) := by
  obtain ⟨h1, h2, -⟩ := keyInvert_length h.len
  refine ⟨by rw [h2]; exact h.nr, by rw [h1, h2], ?_⟩
  intro j hj
  rw [h2] at hj
  rw [keyInvert_key h.len j hj, dkey]
  have := h.key (rev c.nr j) (by unfold rev; omega)
  split_ifs
  · rw [invWord_eq, this]; rfl
  · rw [this]; rfl

theorem dkey_dkey (nr : Nat) (wk : Nat → Col) {j : Nat} (hj : j < 4 * (nr + 1)) :
    dkey nr (dkey nr wk) j = if 4 ≤ j ∧ j < 4 * nr then imc2 (wk j) else wk j := by
  have e : 4 * (nr - (4 * (nr - j / 4) + j % 4) / 4) + (4 * (nr - j / 4) + j % 4) % 4 = j := by omega
  rw [dkey, dkey]
  rw [e]
  by_cases h : 4 ≤ j ∧ j < 4 * nr
  · rw [if_pos h, if_pos h, if_pos (by omega), invMixCol_twice]
  · rw [if_neg h, if_neg h, if_neg (by omega)]

theorem keyed_congr {c : Ctx} {wk wk' : Nat → Col} (h : Keyed c wk) (hw : ∀ j, j < 4 * (c.nr + 1) → wk j = wk' j) :
    Keyed c wk' := ⟨h.nr, h.len, fun j hj => by rw [h.key j hj, hw j hj]⟩

/-- A context is determined by its schedule. -/
theorem keyed_unique {c c' : Ctx} {wk : Nat → Col} (h : Keyed c wk) (h' : Keyed c' wk) (hn : c.nr = c'.nr)
    (hd : c.dec = c'.dec) : c = c' := by
  obtain ⟨k, n, d⟩ := c
  obtain ⟨k', n', d'⟩ := c'
  dsimp only at hn hd
  subst hn hd
  have hl := h.len
  have hl' := h'.len
  dsimp only at hl hl'
  congr 1
  apply List.ext_getElem (by omega)
  intro i h1 h2
  have a := h.key i (by dsimp only; omega)
  have b := h'.key i (by dsimp only; omega)
  have := colOf_inj (a.trans b.symm)
  simpa [Ctx.key, List.getD_eq_getElem?_getD, h1, h2] using this

theorem keyInvert4 {c : Ctx} {wk : Nat → Col} (h : Keyed c wk) :
    keyInvert (keyInvert (keyInvert (keyInvert c))) = c := by
  have h1 := keyInvert_dkey h
  have h2 := keyInvert_dkey h1
  have h3 := keyInvert_dkey h2
  have h4 := keyInvert_dkey h3
  refine keyed_unique (wk := wk) (keyed_congr h4 ?_) h rfl rfl
  intro j hj
  have hj' : j < 4 * (c.nr + 1) := hj
  show dkey c.nr (dkey c.nr (dkey c.nr (dkey c.nr wk))) j = wk j
  rw [dkey_dkey _ _ hj', dkey_dkey _ _ hj']
  split_ifs
  · rw [imc2_imc2]
  · rfl

/-! ### Blocks -/

theorem blockLoop_flatten (f : List Byte → List Byte) : ∀ (bs : List (List Byte)) (rest : List Byte),
    (∀ b ∈ bs, b.length = 16) → rest.length < 16 → blockLoop f (bs.flatten ++ rest) = (bs.map f).flatten
  | [], rest, _, hr => by rw [blockLoop, if_neg (by simpa using hr)]; rfl
  | b :: bs, rest, h, hr => by
    have hb : b.length = 16 := h b (by simp)
    rw [List.flatten_cons, List.append_assoc, blockLoop, if_pos (by rw [List.length_append]; omega),
      List.take_left' hb, List.drop_left' hb,
      blockLoop_flatten f bs rest (fun b hb => h b (List.mem_cons_of_mem _ hb)) hr]
    rfl

end Verif.Aes
