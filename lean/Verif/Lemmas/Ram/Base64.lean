import Verif.Model.Ram.Base64
import Verif.Lemmas.Ram.Cfb8
import Verif.Spec.Ram
import Verif.Props.Crypt.Base64
/-! Base64 on memory. -/
namespace Verif.Ram
open Verif.Base64

theorem put1_ne {R : Ram} {a x : Nat} {v : Byte} (h : x ≠ a) : (R.put a [v]).mem x = R.mem x :=
  put_mem_out (by rw [List.length_singleton]; omega)

theorem put1_eq {R : Ram} {a : Nat} {v : Byte} : (R.put a [v]).mem a = v := put_mem_in (i := 0) (by simp)

theorem put1_at {R : Ram} {a x : Nat} {v : Byte} (h : x = a) : (R.put a [v]).mem x = v := by rw [h, put1_eq]

theorem put_own' {R : Ram} {a : Nat} {l : List Byte} : (R.put a l).own = R.own := rfl

theorem put_snoc {R : Ram} {a b : Nat} {l : List Byte} {v : Byte} (h : b = a + l.length) : (R.put a l).put b [v] = R.put a (l ++ [v]) := by
  rw [put_append, h]

theorem put4 {R : Ram} {d : Nat} {a b c e : Byte} : (((R.put d [a]).put (d + 1) [b]).put (d + 2) [c]).put (d + 3) [e] = R.put d [a, b, c, e] := by
  rw [show [a, b, c, e] = [a] ++ ([b] ++ ([c] ++ [e])) from rfl, put_append, put_append, put_append]
  rfl

theorem own_at {R : Ram} {a n i : Nat} (h : R.Owned a n) (hi : i < n) : R.own (a + i) = true := h i hi

theorem own_at0 {R : Ram} {a n : Nat} (h : R.Owned a n) (hi : 0 < n) : R.own a = true := h 0 hi

/-- Encoding with the input after the output as far as it matters, or before it. -/
theorem b64Encode_ram : ∀ (k n : Nat) (R : Ram) (d s : Nat) {out : List Byte}, n ≤ k → R.Owned s n → R.Owned d (4 * ((n + 2) / 3)) → (d + (n + 2) / 3 ≤ s ∨ s + n ≤ d) →
    encode (R.bytes s n) = some out → b64Encode R d s n = some (R.put d out, 4 * ((n + 2) / 3))
  | k, 0, R, d, s, out, _, _, _, _, h => by simp [encode] at h
  | k, 1, R, d, s, out, _, os, od, hp, h => by
    simp only [bytes_cons, bytes_zero, encode, Option.some.injEq] at h
    subst h
    have s0 := own_at0 os (by omega)
    have d0 := own_at0 od (by omega)
    have d1 := own_at (i := 1) od (by omega)
    have d2 := own_at (i := 2) od (by omega)
    have d3 := own_at (i := 3) od (by omega)
    simp only [b64Encode, load, store, put_own', s0, d0, d1, d2, d3, if_true, Option.bind_some, put1_ne (show s ≠ d by omega)]
    rw [put4]
  | k, 2, R, d, s, out, _, os, od, hp, h => by
    simp only [bytes_cons, bytes_zero, encode, Option.some.injEq] at h
    subst h
    have s0 := own_at0 os (by omega)
    have s1 := own_at (i := 1) os (by omega)
    have d0 := own_at0 od (by omega)
    have d1 := own_at (i := 1) od (by omega)
    have d2 := own_at (i := 2) od (by omega)
    have d3 := own_at (i := 3) od (by omega)
    simp only [b64Encode, load, store, put_own', s0, s1, d0, d1, d2, d3, if_true, Option.bind_some, put1_ne (show s ≠ d by omega), put1_ne (show s + 1 ≠ d by omega),
      put1_ne (show s + 1 ≠ d + 1 by omega)]
    rw [put4]
  | 0, n + 3, _, _, _, _, hk, _, _, _, _ => by omega
  | k + 1, n + 3, R, d, s, out, hk, os, od, hp, h => by
    rw [bytes_cons, bytes_cons, bytes_cons, encode] at h
    have s0 := own_at0 os (by omega)
    have s1 := own_at (i := 1) os (by omega)
    have s2 := own_at (i := 2) os (by omega)
    have d0 := own_at0 od (by omega)
    have d1 := own_at (i := 1) od (by omega)
    have d2 := own_at (i := 2) od (by omega)
    have d3 := own_at (i := 3) od (by omega)
    unfold b64Encode
    simp only [load, store, put_own', s0, s1, s2, d0, d1, d2, d3, if_true, Option.bind_some, put1_ne (show s ≠ d by omega), put1_ne (show s + 1 ≠ d by omega),
      put1_ne (show s + 1 ≠ d + 1 by omega), put1_ne (show s + 2 ≠ d by omega), put1_ne (show s + 2 ≠ d + 1 by omega), put1_ne (show s + 2 ≠ d + 2 by omega)]
    rw [put4]
    rw [show s + 1 + 1 = s + 2 from rfl, show s + 2 + 1 = s + 3 from rfl] at h
    generalize hg : [b64 ((R.mem s &&& 0xFC) >>> 2), b64 ((R.mem s &&& 0x03) <<< 4 ||| (R.mem (s + 1) &&& 0xF0) >>> 4),
      b64 ((R.mem (s + 1) &&& 0x0F) <<< 2 ||| (R.mem (s + 2) &&& 0xC0) >>> 6), b64 (R.mem (s + 2) &&& 0x3F)] = g at *
    have hl : g.length = 4 := by rw [← hg]; rfl
    by_cases hn : n = 0
    · subst hn
      rw [bytes_zero, if_pos rfl, Option.some.injEq] at h
      rw [if_pos rfl, h]
    · rw [if_neg hn]
      rw [if_neg (by
        intro hh
        have := congrArg List.length hh
        rw [bytes_length, List.length_nil] at this
        exact hn this)] at h
      obtain ⟨o, ho, rfl⟩ := Option.map_eq_some_iff.1 h
      have e : (n + 3 + 2) / 3 = (n + 2) / 3 + 1 := by omega
      rw [e] at *
      rw [b64Encode_ram k n (R.put d g) (d + 4) (s + 3) (by omega) (by ownof os) (by ownof od) (by omega)
        (by rw [bytes_put_apart (by rw [hl]; apt)]; exact ho), Option.map_some, put_append, hl]
      congr 2

/-! ### Wrong placements for encoding -/

/-- One group of three. -/
theorem b64Encode_three {R R1 R2 R3 R4 : Ram} {d s n : Nat} (ho : ∀ a, R.own a = true)
    (h1 : R1 = R.put d [b64 ((R.mem s &&& 0xFC) >>> 2)])
    (h2 : R2 = R1.put (d + 1) [b64 ((R1.mem s &&& 0x03) <<< 4 ||| (R1.mem (s + 1) &&& 0xF0) >>> 4)])
    (h3 : R3 = R2.put (d + 2) [b64 ((R2.mem (s + 1) &&& 0x0F) <<< 2 ||| (R2.mem (s + 2) &&& 0xC0) >>> 6)])
    (h4 : R4 = R3.put (d + 3) [b64 (R3.mem (s + 2) &&& 0x3F)]) :
    (∀ a, R4.own a = true) ∧ (∀ x, Outside x d 4 → R4.mem x = R.mem x) ∧
    b64Encode R d s (n + 3) = if n = 0 then some (R4, 4) else (b64Encode R4 (d + 4) (s + 3) n).map fun r => (r.1, r.2 + 4) := by
  subst h1 h2 h3 h4
  refine ⟨ho, fun x hx => ?_, ?_⟩
  · unfold Outside at hx
    rw [put1_ne (by omega), put1_ne (by omega), put1_ne (by omega), put1_ne (by omega)]
  conv_lhs => unfold b64Encode
  simp only [load, store, put_own', ho, if_true, Option.bind_some]

/-- Any memory without bounds: the result is defined and nothing outside of the output is written. -/
theorem b64Encode_total : ∀ (k n : Nat) (R : Ram) (d s : Nat), n ≤ k → 0 < n → (∀ a, R.own a = true) →
    ∃ R', b64Encode R d s n = some (R', 4 * ((n + 2) / 3)) ∧ (∀ a, R'.own a = true) ∧ ∀ x, Outside x d (4 * ((n + 2) / 3)) → R'.mem x = R.mem x
  | _, 0, _, _, _, _, h, _ => by omega
  | _, 1, R, d, s, _, _, ho => by
    simp only [b64Encode, load, store, put_own', ho, if_true, Option.bind_some]
    refine ⟨_, rfl, ho, fun x hx => ?_⟩
    unfold Outside at hx
    rw [put1_ne (by omega), put1_ne (by omega), put1_ne (by omega), put1_ne (by omega)]
  | _, 2, R, d, s, _, _, ho => by
    simp only [b64Encode, load, store, put_own', ho, if_true, Option.bind_some]
    refine ⟨_, rfl, ho, fun x hx => ?_⟩
    unfold Outside at hx
    rw [put1_ne (by omega), put1_ne (by omega), put1_ne (by omega), put1_ne (by omega)]
  | 0, n + 3, _, _, _, h, _, _ => by omega
  | k + 1, n + 3, R, d, s, hk, _, ho => by
    obtain ⟨o4, f4, e4⟩ := b64Encode_three (R := R) (d := d) (s := s) (n := n) ho rfl rfl rfl rfl
    generalize Ram.put _ (d + 3) _ = R4 at *
    rw [e4]
    by_cases hn : n = 0
    · subst hn
      rw [if_pos rfl]
      exact ⟨_, rfl, o4, fun x hx => f4 x hx⟩
    · rw [if_neg hn]
      have e : (n + 3 + 2) / 3 = (n + 2) / 3 + 1 := by omega
      obtain ⟨R', e', o', f'⟩ := b64Encode_total k n R4 (d + 4) (s + 3) (by omega) (by omega) o4
      refine ⟨R', by rw [e', Option.map_some, e]; congr 2, o', fun x hx => ?_⟩
      unfold Outside at hx f' f4
      rw [f' x (by omega), f4 x (by omega)]

/-- The bytes behind the group that are already written. -/
theorem b64Encode_three_keep {R R4 : Ram} {d s n : Nat} (ho : ∀ a, R4.own a = true)
    (h : b64Encode R d s (n + 3) = if n = 0 then some (R4, 4) else (b64Encode R4 (d + 4) (s + 3) n).map fun r => (r.1, r.2 + 4)) :
    ∃ R', b64Encode R d s (n + 3) = some (R', 4 * ((n + 3 + 2) / 3)) ∧ ∀ x < d + 4, R'.mem x = R4.mem x := by
  by_cases hn : n = 0
  · subst hn
    exact ⟨R4, by rw [h, if_pos rfl], fun _ _ => rfl⟩
  · obtain ⟨R', e, -, f⟩ := b64Encode_total n n R4 (d + 4) (s + 3) le_rfl (by omega) ho
    refine ⟨R', by rw [h, if_neg hn, e, Option.map_some, show (n + 3 + 2) / 3 = (n + 2) / 3 + 1 by omega]; congr 2, fun x hx => f x (Or.inl hx)⟩

theorem b64Encode_wrong (d0 : Nat) : ∀ (k n : Nat) (R : Ram) (d s : Nat), n ≤ k → 0 < n → (∀ a, R.own a = true) → d0 ≤ d →
    (∀ x, R.mem x = if d0 ≤ x ∧ x < d then 65 else 0) → d0 < s + n → s < d + (n + 2) / 3 →
    ∃ R', b64Encode R d s n = some (R', 4 * ((n + 2) / 3)) ∧ ∃ j < (4 * n + 2) / 3, R'.mem (d + j) ≠ 65
  | _, 0, _, _, _, _, h, _, _, _, _, _ => by omega
  | _, 1, R, d, s, _, _, ho, hd, hm, h1, h2 => by
    simp only [b64Encode, load, store, put_own', ho, if_true, Option.bind_some]
    refine ⟨_, rfl, ?_⟩
    by_cases hs : s = d
    · refine ⟨1, by omega, ?_⟩
      rw [put1_ne (by omega), put1_ne (by omega), put1_eq, hs, put1_eq, hm, if_neg (by omega)]
      decide
    · refine ⟨0, by omega, ?_⟩
      rw [put1_ne (by omega), put1_ne (by omega), put1_ne (by omega), put1_at (by omega), hm, if_pos (by omega)]
      decide
  | _, 2, R, d, s, _, _, ho, hd, hm, h1, h2 => by
    simp only [b64Encode, load, store, put_own', ho, if_true, Option.bind_some]
    refine ⟨_, rfl, ?_⟩
    by_cases hs : s = d
    · refine ⟨1, by omega, ?_⟩
      rw [put1_ne (by omega), put1_ne (by omega), put1_eq, hs, put1_eq, put1_ne (by omega), hm, hm, if_neg (by omega), if_neg (by omega)]
      decide
    · by_cases hs' : d0 ≤ s
      · refine ⟨0, by omega, ?_⟩
        rw [put1_ne (by omega), put1_ne (by omega), put1_ne (by omega), put1_at (by omega), hm, if_pos (by omega)]
        decide
      · refine ⟨1, by omega, ?_⟩
        rw [put1_ne (by omega), put1_ne (by omega), put1_eq, put1_ne (x := s) (by omega), hm s, if_neg (by omega)]
        have : d0 = s + 1 := by omega
        by_cases hd' : d = s + 1
        · rw [hd', put1_eq]; decide
        · rw [put1_ne (by omega), hm, if_pos (by omega)]; decide
  | 0, n + 3, _, _, _, h, _, _, _, _, _, _ => by omega
  | k + 1, n + 3, R, d, s, hk, _, ho, hd, hm, h1, h2 => by
    obtain ⟨o4, -, e4⟩ := b64Encode_three (R := R) (d := d) (s := s) (n := n) ho rfl rfl rfl rfl
    obtain ⟨R', e', f'⟩ := b64Encode_three_keep o4 e4
    by_cases hs : s = d
    · refine ⟨R', e', 1, by omega, ?_⟩
      rw [f' _ (by omega), put1_ne (by omega), put1_ne (by omega), put1_eq, hs, put1_eq, put1_ne (by omega), hm, hm, if_neg (by omega), if_neg (by omega)]
      decide
    by_cases hs' : d0 ≤ s ∧ s < d
    · refine ⟨R', e', 0, by omega, ?_⟩
      rw [f' _ (by omega), put1_ne (by omega), put1_ne (by omega), put1_ne (by omega), put1_at (by omega), hm, if_pos (by omega)]
      decide
    by_cases hs1 : d0 = s + 1
    · refine ⟨R', e', 1, by omega, ?_⟩
      rw [f' _ (by omega), put1_ne (by omega), put1_ne (by omega), put1_eq, put1_ne (x := s) (by omega), hm s, if_neg (by omega)]
      by_cases hd' : d = s + 1
      · rw [hd', put1_eq]; decide
      · rw [put1_ne (by omega), hm, if_pos (by omega)]; decide
    by_cases hs2 : d0 = s + 2
    · refine ⟨R', e', 2, by omega, ?_⟩
      rw [f' _ (by omega), put1_ne (by omega), put1_eq, put1_ne (x := s + 1) (by omega), put1_ne (x := s + 1) (by omega), hm (s + 1), if_neg (by omega),
        put1_ne (x := s + 2) (by omega)]
      by_cases hd' : d = s + 2
      · rw [hd', put1_eq, hm s, if_neg (by omega)]; decide
      · rw [put1_ne (by omega), hm, if_pos (by omega)]; decide
    -- nothing is read that was written
    have r0 : R.mem s = 0 := by rw [hm, if_neg (by omega)]
    have r1 : R.mem (s + 1) = 0 := by rw [hm, if_neg (by omega)]
    have r2 : R.mem (s + 2) = 0 := by rw [hm, if_neg (by omega)]
    have hn : n ≠ 0 := by omega
    rw [if_neg hn] at e4
    simp only [put1_ne (show s ≠ d by omega), put1_ne (show s + 1 ≠ d by omega), put1_ne (show s + 1 ≠ d + 1 by omega), put1_ne (show s + 2 ≠ d by omega),
      put1_ne (show s + 2 ≠ d + 1 by omega), put1_ne (show s + 2 ≠ d + 2 by omega), r0, r1, r2] at e4 o4
    simp only [show b64 (((0 : Byte) &&& 0xFC) >>> 2) = 65 by decide, show b64 (((0 : Byte) &&& 0x03) <<< 4 ||| ((0 : Byte) &&& 0xF0) >>> 4) = 65 by decide,
      show b64 (((0 : Byte) &&& 0x0F) <<< 2 ||| ((0 : Byte) &&& 0xC0) >>> 6) = 65 by decide, show b64 (0 &&& 0x3F) = 65 by decide] at e4 o4
    obtain ⟨R2, e2, j, hj, hne⟩ := b64Encode_wrong d0 k n _ (d + 4) (s + 3) (by omega) (by omega) o4 (by omega) (by
      intro x
      by_cases hx : d ≤ x ∧ x < d + 4
      · rw [if_pos (by omega)]
        obtain rfl | rfl | rfl | rfl : x = d + 3 ∨ x = d + 2 ∨ x = d + 1 ∨ x = d := by omega
        · rw [put1_eq]
        · rw [put1_ne (by omega), put1_eq]
        · rw [put1_ne (by omega), put1_ne (by omega), put1_eq]
        · rw [put1_ne (by omega), put1_ne (by omega), put1_ne (by omega), put1_eq]
      · rw [put1_ne (by omega), put1_ne (by omega), put1_ne (by omega), put1_ne (by omega), hm]
        by_cases hx' : d0 ≤ x ∧ x < d
        · rw [if_pos hx', if_pos (by omega)]
        · rw [if_neg hx', if_neg (by omega)]) (by omega) (by omega)
    refine ⟨R2, by rw [e4, e2, Option.map_some, show (n + 3 + 2) / 3 = (n + 2) / 3 + 1 by omega]; congr 2, 4 + j, by omega, by rwa [← Nat.add_assoc]⟩

/-- The encoding of zeros. -/
theorem encode_zeros : ∀ (k n : Nat), n ≤ k → 0 < n → ∃ out, encode (List.replicate n 0) = some out ∧ out.length = 4 * ((n + 2) / 3) ∧ ∀ j < (4 * n + 2) / 3, out[j]? = some 65
  | _, 0, _, h => by omega
  | _, 1, _, _ => ⟨_, rfl, rfl, by decide⟩
  | _, 2, _, _ => ⟨_, rfl, rfl, by decide⟩
  | _, 3, _, _ => ⟨_, rfl, rfl, by decide⟩
  | 0, _ + 4, h, _ => by omega
  | k + 1, n + 4, hk, _ => by
    obtain ⟨o, e, l, f⟩ := encode_zeros k (n + 1) (by omega) (by omega)
    refine ⟨[65, 65, 65, 65] ++ o, ?_, by rw [List.length_append, l, List.length_cons, List.length_cons, List.length_cons, List.length_singleton]; omega, fun j hj => ?_⟩
    · rw [show List.replicate (n + 4) (0 : Byte) = 0 :: 0 :: 0 :: List.replicate (n + 1) 0 from rfl, encode]
      rw [if_neg (by simp), e]
      rfl
    · by_cases h4 : j < 4
      · rw [List.getElem?_append_left (by simpa using h4)]
        obtain rfl | rfl | rfl | rfl : j = 0 ∨ j = 1 ∨ j = 2 ∨ j = 3 := by omega
        all_goals rfl
      · rw [List.getElem?_append_right (by simpa using h4)]
        exact f _ (by simp; omega)

/-! ### Decoding -/

theorem unbAt_eq {R : Ram} {a : Nat} (h : R.own a = true) (hl : illegal (R.mem a) = false) : unbAt R a = some (unb (R.mem a)) := by
  have : (R.mem a).toNat < 128 := by
    by_contra hh
    rw [illegal, decide_eq_true (by omega)] at hl
    simp at hl
  rw [unbAt, load, if_pos h, Option.bind_some, if_pos this]

theorem b64Check_eq {R : Ram} {s : Nat} (h : R.Owned s 4) :
    b64Check R s 4 = some (!(illegal (R.mem s) || illegal (R.mem (s + 1)) || illegal (R.mem (s + 2)) || illegal (R.mem (s + 3)))) := by
  have s0 := own_at0 h (by omega)
  have s1 := own_at (i := 1) h (by omega)
  have s2 := own_at (i := 2) h (by omega)
  have s3 := own_at (i := 3) h (by omega)
  simp only [b64Check, load, s0, s1, s2, s3, if_true, Option.bind_some]
  cases illegal (R.mem s) <;> cases illegal (R.mem (s + 1)) <;> cases illegal (R.mem (s + 2)) <;> cases illegal (R.mem (s + 3)) <;> rfl

/-- What a group of four characters stands for. -/
def group (a b c d : Byte) : List Byte := [unb a <<< 2 ||| (unb b &&& 0x30) >>> 4] ++
  (if c ≠ pad then [(unb b &&& 0x0F) <<< 4 ||| (unb c &&& 0x3C) >>> 2] else []) ++ (if d ≠ pad then [(unb c &&& 0x03) <<< 6 ||| unb d] else [])

theorem b64Group_ram {R : Ram} {d s : Nat} (os : R.Owned s 4) (l0 : illegal (R.mem s) = false) (l1 : illegal (R.mem (s + 1)) = false)
    (l2 : illegal (R.mem (s + 2)) = false) (l3 : illegal (R.mem (s + 3)) = false) (hp : d ≤ s ∨ s + 4 ≤ d)
    (od : R.Owned d (group (R.mem s) (R.mem (s + 1)) (R.mem (s + 2)) (R.mem (s + 3))).length) :
    b64Group R d s = some (R.put d (group (R.mem s) (R.mem (s + 1)) (R.mem (s + 2)) (R.mem (s + 3))),
      d + (group (R.mem s) (R.mem (s + 1)) (R.mem (s + 2)) (R.mem (s + 3))).length) := by
  have s0 := own_at0 os (by omega)
  have s1 := own_at (i := 1) os (by omega)
  have s2 := own_at (i := 2) os (by omega)
  have s3 := own_at (i := 3) os (by omega)
  have d0 := own_at0 od (by simp [group])
  have n2 := fun v : Byte => put1_ne (R := R) (v := v) (show s + 2 ≠ d by omega)
  have n3 := fun v : Byte => put1_ne (R := R) (v := v) (show s + 3 ≠ d by omega)
  have n1 := fun v : Byte => put1_ne (R := R) (v := v) (show s + 1 ≠ d by omega)
  have u1 := fun v : Byte => unbAt_eq (R := R.put d [v]) (a := s + 1) s1 (by rw [n1]; exact l1)
  have u2 := fun v : Byte => unbAt_eq (R := R.put d [v]) (a := s + 2) s2 (by rw [n2]; exact l2)
  have u3 := fun v : Byte => unbAt_eq (R := R.put d [v]) (a := s + 3) s3 (by rw [n3]; exact l3)
  have m2 := fun v w : Byte => put1_ne (R := R.put d [v]) (v := w) (show s + 2 ≠ d + 1 by omega)
  have m3 := fun v w : Byte => put1_ne (R := R.put d [v]) (v := w) (show s + 3 ≠ d + 1 by omega)
  have v2 := fun v w : Byte => unbAt_eq (R := (R.put d [v]).put (d + 1) [w]) (a := s + 2) s2 (by rw [m2, n2]; exact l2)
  have v3 := fun v w : Byte => unbAt_eq (R := (R.put d [v]).put (d + 1) [w]) (a := s + 3) s3 (by rw [m3, n3]; exact l3)
  rw [b64Group, unbAt_eq s0 l0, Option.bind_some, unbAt_eq s1 l1, Option.bind_some]
  simp only [load, store, d0, put_own', if_true, Option.bind_some, s2, n2, u1, u2]
  unfold group at od ⊢
  by_cases hc : R.mem (s + 2) ≠ pad
  · by_cases hd : R.mem (s + 3) ≠ pad
    · have d1 := own_at (i := 1) od (by simp [hc, hd])
      have d2 := own_at (i := 2) od (by simp [hc, hd])
      simp only [if_pos hc, if_pos hd, Option.bind_some, Option.map_some, d1, d2, put_own', if_true, s3, n3, m3, v2, v3, n1, n2, m2]
      rw [put_append, put_append]
      rfl
    · have d1 := own_at (i := 1) od (by simp [hc, hd])
      simp only [if_pos hc, if_neg hd, Option.bind_some, Option.map_some, d1, put_own', if_true, s3, n3, m3, n1, n2, List.append_nil]
      rw [put_append]
      rfl
  · by_cases hd : R.mem (s + 3) ≠ pad
    · have d1 := own_at (i := 1) od (by simp [hc, hd])
      simp only [if_neg hc, if_pos hd, Option.bind_some, Option.map_some, d1, put_own', if_true, s3, n3, u2, u3, n2, List.append_nil]
      rw [put_append]
      rfl
    · simp only [if_neg hc, if_neg hd, Option.bind_some, put_own', if_true, s3, n3, List.append_nil]
      rfl

theorem decode_four (a b c d : Byte) (rest : List Byte) : decodeLoop (a :: b :: c :: d :: rest) =
    if illegal a || illegal b || illegal c || illegal d then some none
    else if rest = [] then some (some (group a b c d)) else (decodeLoop rest).map (·.map (group a b c d ++ ·)) := rfl

theorem group_length (a b c d : Byte) : 0 < (group a b c d).length ∧ (group a b c d).length ≤ 3 := by
  unfold group
  split <;> split <;> simp

theorem b64DecodeLoop_ram : ∀ (q : Nat) (R : Ram) (d s : Nat) {out : List Byte}, R.Owned s (4 * (q + 1)) → R.Owned d out.length → (d ≤ s ∨ s + 4 * (q + 1) ≤ d) →
    decodeLoop (R.bytes s (4 * (q + 1))) = some (some out) → b64DecodeLoop q R d s = some (R.put d out, some out.length)
  | q, R, d, s, out, os, od, hp, h => by
    rw [show 4 * (q + 1) = 4 * q + 1 + 1 + 1 + 1 by omega, bytes_cons, bytes_cons, bytes_cons, bytes_cons, decode_four] at h
    simp only [Nat.add_assoc, Nat.reduceAdd] at h
    rw [b64DecodeLoop, b64Check_eq (by ownof os), Option.bind_some]
    split at h
    case isTrue => cases h
    case isFalse hl =>
    rw [Bool.not_eq_true] at hl
    rw [hl, Bool.not_false, if_pos rfl]
    simp only [Bool.or_eq_false_iff] at hl
    obtain ⟨gl, gh⟩ := group_length (R.mem s) (R.mem (s + 1)) (R.mem (s + 2)) (R.mem (s + 3))
    cases q with
    | zero =>
      rw [Nat.mul_zero, bytes_zero, if_pos rfl, Option.some.injEq, Option.some.injEq] at h
      subst h
      rw [b64Group_ram (by ownof os) hl.1.1.1 hl.1.1.2 hl.1.2 hl.2 (by omega) od, Option.bind_some]
      dsimp only
      rw [Nat.add_sub_cancel_left]
    | succ q =>
      rw [if_neg (by
        intro hh
        have := congrArg List.length hh
        rw [bytes_length, List.length_nil] at this
        omega)] at h
      obtain ⟨r, hr, he⟩ := Option.map_eq_some_iff.1 h
      obtain ⟨o, rfl, ho⟩ := Option.map_eq_some_iff.1 he
      subst ho
      rw [List.length_append] at od
      rw [b64Group_ram (by ownof os) hl.1.1.1 hl.1.1.2 hl.1.2 hl.2 (by omega) (by ownof od), Option.bind_some]
      generalize hg : group (R.mem s) (R.mem (s + 1)) (R.mem (s + 2)) (R.mem (s + 3)) = g at *
      dsimp only
      rw [b64DecodeLoop_ram q (R.put d g) (d + g.length) (s + 4) (out := o) (by ownof os) (by ownof od) (by omega)
        (by rw [bytes_put_apart (by apt)]; exact hr), Option.map_some, Option.map_some, put_append, List.length_append, Nat.add_sub_cancel_left, Nat.add_comm o.length]

/-- A text with an illegal character: the groups before it have been written. -/
theorem b64DecodeLoop_illegal : ∀ (q : Nat) (R : Ram) (d s : Nat), R.Owned s (4 * (q + 1)) → R.Owned d (3 * q) → (d ≤ s ∨ s + 4 * (q + 1) ≤ d) →
    decodeLoop (R.bytes s (4 * (q + 1))) = some none → ∃ w, w.length ≤ 3 * q ∧ b64DecodeLoop q R d s = some (R.put d w, none)
  | q, R, d, s, os, od, hp, h => by
    rw [show 4 * (q + 1) = 4 * q + 1 + 1 + 1 + 1 by omega, bytes_cons, bytes_cons, bytes_cons, bytes_cons, decode_four] at h
    simp only [Nat.add_assoc, Nat.reduceAdd] at h
    rw [b64DecodeLoop, b64Check_eq (by ownof os), Option.bind_some]
    split at h
    case isTrue hl =>
      refine ⟨[], by simp, ?_⟩
      rw [hl]
      simp
    case isFalse hl =>
    rw [Bool.not_eq_true] at hl
    rw [hl, Bool.not_false, if_pos rfl]
    simp only [Bool.or_eq_false_iff] at hl
    obtain ⟨gl, gh⟩ := group_length (R.mem s) (R.mem (s + 1)) (R.mem (s + 2)) (R.mem (s + 3))
    cases q with
    | zero =>
      rw [Nat.mul_zero, bytes_zero, if_pos rfl] at h
      cases h
    | succ q =>
      rw [if_neg (by
        intro hh
        have := congrArg List.length hh
        rw [bytes_length, List.length_nil] at this
        omega)] at h
      obtain ⟨r, hr, he⟩ := Option.map_eq_some_iff.1 h
      rw [Option.map_eq_none_iff] at he
      subst he
      rw [b64Group_ram (by ownof os) hl.1.1.1 hl.1.1.2 hl.1.2 hl.2 (by omega) (by ownof od), Option.bind_some]
      generalize hg : group (R.mem s) (R.mem (s + 1)) (R.mem (s + 2)) (R.mem (s + 3)) = g at *
      dsimp only
      obtain ⟨w, hw, e⟩ := b64DecodeLoop_illegal q (R.put d g) (d + g.length) (s + 4) (by ownof os) (by ownof od) (by omega)
        (by rw [bytes_put_apart (by apt)]; exact hr)
      refine ⟨g ++ w, by rw [List.length_append]; omega, ?_⟩
      rw [e, Option.map_some, put_append]
      rfl

/-- Output starting inside the text: letters A with zeros already written from `d0` on. -/
theorem b64DecodeLoop_wrong (d0 : Nat) : ∀ (q : Nat) (R R' : Ram) (d s n : Nat), (∀ a, R.own a = true) → d0 ≤ d → (s < d0 ∨ s = d0 ∧ d0 < d) → d0 < s + 4 * (q + 1) →
    (∀ x, R.mem x = if d0 ≤ x ∧ x < d then 0 else 65) → b64DecodeLoop q R d s = some (R', some n) → ∃ j < 3 * (q + 1), R'.mem (d + j) ≠ 0
  | q, R, R', d, s, n, ho, h1, h2, h3, hm, h => by
    have os : R.Owned s 4 := fun _ _ => ho _
    rw [b64DecodeLoop, b64Check_eq os, Option.bind_some] at h
    by_cases hc : d0 < d ∧ d0 < s + 4
    · -- one of the characters is a zero
      have : (illegal (R.mem s) || illegal (R.mem (s + 1)) || illegal (R.mem (s + 2)) || illegal (R.mem (s + 3))) = true := by
        have iz : illegal 0 = true := by decide
        obtain rfl | rfl | rfl | rfl : d0 = s ∨ d0 = s + 1 ∨ d0 = s + 2 ∨ d0 = s + 3 := by omega
        · rw [show R.mem d0 = 0 by rw [hm, if_pos (by omega)], iz]; simp
        · rw [show R.mem (s + 1) = 0 by rw [hm, if_pos (by omega)], iz]; simp
        · rw [show R.mem (s + 2) = 0 by rw [hm, if_pos (by omega)], iz]; simp
        · rw [show R.mem (s + 3) = 0 by rw [hm, if_pos (by omega)], iz]; simp
      rw [this] at h
      cases h
    have m0 : R.mem s = 65 := by rw [hm, if_neg (by omega)]
    have m1 : R.mem (s + 1) = 65 := by rw [hm, if_neg (by omega)]
    have m2 : R.mem (s + 2) = 65 := by rw [hm, if_neg (by omega)]
    have m3 : R.mem (s + 3) = 65 := by rw [hm, if_neg (by omega)]
    rw [m0, m1, m2, m3, show (!(illegal 65 || illegal 65 || illegal 65 || illegal 65)) = true by decide, if_pos rfl] at h
    by_cases hd : d0 < s + 4
    · -- the first group overwrites its own characters
      have u0 : unb 0 = 255 := by decide
      have u65 : unb 65 = 0 := by decide
      have ia : ∀ (q : Nat) (R : Ram) (e : Nat), (∀ a, R.own a = true) → illegal (R.mem (s + 4)) = true → b64DecodeLoop q R e (s + 4) = some (R, none) := by
        intro q R e ho h
        rw [b64DecodeLoop, b64Check_eq (fun _ _ => ho _), h]
        rfl
      obtain rfl | rfl | rfl : d = s + 1 ∨ d = s + 2 ∨ d = s + 3 := by omega
      · have hg : b64Group R (s + 1) s = none := by
          simp only [b64Group, unbAt, load, store, put_own', ho, if_true, Option.bind_some, m0, m1, u65, show ((65 : Byte).toNat < 128) by decide,
            put1_ne (show s + 2 ≠ s + 1 by omega), m2, show (65 : Byte) ≠ pad by decide, ne_eq, not_false_eq_true, put1_eq, show ((0 : Byte) <<< 2 ||| ((0 : Byte) &&& 0x30) >>> 4) = 0 by decide,
            show ((0 : Byte).toNat < 128) by decide, u0, Option.map_some, put1_ne (show s + 3 ≠ s + 1 + 1 by omega), put1_ne (show s + 3 ≠ s + 1 by omega), m3, put1_at (show s + 2 = s + 1 + 1 by omega),
            show ¬ ((((255 : Byte) &&& 0x0F) <<< 4 ||| ((0 : Byte) &&& 0x3C) >>> 2).toNat < 128) by decide, if_false, Option.bind_none]
        rw [hg] at h
        cases h
      · have hg : b64Group R (s + 2) s = some (((R.put (s + 2) [0]).put (s + 3) [15]).put (s + 4) [255], s + 5) := by
          simp only [b64Group, unbAt, load, store, put_own', ho, if_true, Option.bind_some, m0, m1, u65, show ((65 : Byte).toNat < 128) by decide,
            put1_ne (show s + 1 ≠ s + 2 by omega), m2, show (0 : Byte) ≠ pad by decide, ne_eq, not_false_eq_true, put1_eq, show ((0 : Byte) <<< 2 ||| ((0 : Byte) &&& 0x30) >>> 4) = 0 by decide,
            show ((0 : Byte).toNat < 128) by decide, u0, Option.map_some, put1_at (show s + 3 = s + 2 + 1 by omega), put1_ne (show s + 2 ≠ s + 2 + 1 by omega),
            show (((0 : Byte) &&& 0x0F) <<< 4 ||| ((255 : Byte) &&& 0x3C) >>> 2) = 15 by decide, show (15 : Byte) ≠ pad by decide, show ((15 : Byte).toNat < 128) by decide, show unb 15 = 255 by decide,
            show (((255 : Byte) &&& 0x03) <<< 6 ||| 255) = 255 by decide]
        rw [hg, Option.bind_some] at h
        dsimp only at h
        cases q with
        | zero =>
          simp only [Option.some.injEq, Prod.mk.injEq] at h
          refine ⟨1, by omega, ?_⟩
          rw [← h.1, put1_ne (by omega), put1_at (by omega)]
          decide
        | succ q =>
          dsimp only at h
          rw [ia q (((R.put (s + 2) [0]).put (s + 3) [15]).put (s + 4) [255]) _ ho (by rw [put1_eq]; decide)] at h
          simp at h
      · have hg : b64Group R (s + 3) s = some (((R.put (s + 3) [0]).put (s + 4) [0]).put (s + 5) [255], s + 6) := by
          simp only [b64Group, unbAt, load, store, put_own', ho, if_true, Option.bind_some, m0, m1, u65, show ((65 : Byte).toNat < 128) by decide,
            put1_ne (show s + 1 ≠ s + 3 by omega), put1_ne (show s + 2 ≠ s + 3 by omega), m2, show (65 : Byte) ≠ pad by decide, show (0 : Byte) ≠ pad by decide, ne_eq, not_false_eq_true, put1_eq,
            show ((0 : Byte) <<< 2 ||| ((0 : Byte) &&& 0x30) >>> 4) = 0 by decide, show ((0 : Byte).toNat < 128) by decide, u0, Option.map_some, put1_ne (show s + 3 ≠ s + 3 + 1 by omega),
            put1_ne (show s + 2 ≠ s + 3 + 1 by omega), show (((0 : Byte) &&& 0x0F) <<< 4 ||| ((0 : Byte) &&& 0x3C) >>> 2) = 0 by decide,
            show (((0 : Byte) &&& 0x03) <<< 6 ||| 255) = 255 by decide]
        rw [hg, Option.bind_some] at h
        dsimp only at h
        cases q with
        | zero =>
          simp only [Option.some.injEq, Prod.mk.injEq] at h
          refine ⟨2, by omega, ?_⟩
          rw [← h.1, put1_at (by omega)]
          decide
        | succ q =>
          dsimp only at h
          rw [ia q (((R.put (s + 3) [0]).put (s + 4) [0]).put (s + 5) [255]) _ ho (by rw [put1_ne (by omega), put1_eq]; decide)] at h
          simp at h
    · have hg : b64Group R d s = some (R.put d [0, 0, 0], d + 3) := by
        have la : illegal 65 = false := by decide
        have gz : group 65 65 65 65 = [0, 0, 0] := by decide
        rw [b64Group_ram os (by rw [m0]; exact la) (by rw [m1]; exact la) (by rw [m2]; exact la) (by rw [m3]; exact la) (by omega) (fun _ _ => ho _), m0, m1, m2, m3, gz]
        rfl
      rw [hg, Option.bind_some] at h
      dsimp only at h
      cases q with
      | zero => omega
      | succ q =>
        obtain ⟨t, ht, he⟩ := Option.map_eq_some_iff.1 h
        obtain ⟨t1, t2⟩ := t
        simp only [Prod.mk.injEq] at he
        obtain ⟨rfl, he2⟩ := he
        obtain ⟨n', rfl, -⟩ := Option.map_eq_some_iff.1 he2
        obtain ⟨j, hj, hne⟩ := b64DecodeLoop_wrong d0 q (R.put d [0, 0, 0]) t1 (d + 3) (s + 4) n' ho (by omega) (by omega) (by omega) (by
          intro x
          by_cases hx : d ≤ x ∧ x < d + 3
          · rw [if_pos (by omega)]
            have := put_mem_in (R := R) (a := d) (l := [0, 0, 0]) (i := x - d) (by simp; omega)
            rw [show d + (x - d) = x by omega] at this
            rw [this]
            obtain h | h | h : x - d = 0 ∨ x - d = 1 ∨ x - d = 2 := by omega
            all_goals simp [h]
          · rw [put_mem_out (by simp; omega), hm]
            by_cases hx' : d0 ≤ x ∧ x < d
            · rw [if_pos hx', if_pos (by omega)]
            · rw [if_neg hx', if_neg (by omega)]) ht
        exact ⟨3 + j, by omega, by rwa [← Nat.add_assoc]⟩

end Verif.Ram
