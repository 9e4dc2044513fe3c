import Verif.Model.Ram.Core
import Verif.Props.Modes.Cbc
import Verif.Props.MemXor
/-! Reading and writing ranges of bytes. -/
namespace Verif.Ram
open Verif.Modes (xorB)

variable {R : Ram}

@[simp] theorem put_own (a : Nat) (l : List Byte) : (R.put a l).own = R.own := rfl
@[simp] theorem put_tmp (a : Nat) (l : List Byte) : (R.put a l).tmp = R.tmp := rfl
@[simp] theorem owned_put (a : Nat) (l : List Byte) (b n : Nat) : (R.put a l).Owned b n ↔ R.Owned b n := Iff.rfl

theorem owned_sub {a n b m : Nat} (h : R.Owned a n) (h1 : a ≤ b) (h2 : b + m ≤ a + n) : R.Owned b m := by
  intro i hi
  have := h (b - a + i) (by omega)
  rwa [show a + (b - a + i) = b + i by omega] at this

@[simp] theorem bytes_length (a n : Nat) : (R.bytes a n).length = n := by simp [Ram.bytes]

@[simp] theorem bytes_zero (a : Nat) : R.bytes a 0 = [] := by simp [Ram.bytes]

theorem bytes_get (a n i : Nat) : (R.bytes a n)[i]? = if i < n then some (R.mem (a + i)) else none := by
  unfold Ram.bytes
  rw [List.getElem?_map]
  split
  · next h => rw [List.getElem?_range h]; rfl
  · next h => rw [List.getElem?_eq_none (by simpa using h)]; rfl

theorem bytes_ext {R R' : Ram} {a b n : Nat} (h : ∀ i < n, R.mem (a + i) = R'.mem (b + i)) : R.bytes a n = R'.bytes b n := by
  unfold Ram.bytes
  exact List.map_congr_left fun i hi => h i (List.mem_range.1 hi)

theorem bytes_add (a m n : Nat) : R.bytes a (m + n) = R.bytes a m ++ R.bytes (a + m) n := by
  unfold Ram.bytes
  rw [List.range_add, List.map_append, List.map_map]
  simp [Function.comp_def, Nat.add_assoc]

theorem bytes_split {k n : Nat} (a : Nat) (h : k ≤ n) : R.bytes a n = R.bytes a k ++ R.bytes (a + k) (n - k) := by
  have := bytes_add (R := R) a k (n - k)
  rwa [Nat.add_sub_cancel' h] at this

theorem bytes_take {a k n : Nat} {l : List Byte} (e : R.bytes a n = l) (h : k ≤ n) : R.bytes a k = l.take k := by
  rw [← e, bytes_split a h, List.take_left' (bytes_length _ _)]

theorem bytes_drop {a k n : Nat} {l : List Byte} (e : R.bytes a n = l) (h : k ≤ n) : R.bytes (a + k) (n - k) = l.drop k := by
  rw [← e, bytes_split a h, List.drop_left' (bytes_length _ _)]

theorem bytes_eq_iff {a : Nat} {l : List Byte} {n : Nat} (hn : l.length = n) :
    R.bytes a n = l ↔ ∀ i (h : i < l.length), R.mem (a + i) = l[i] := by
  subst hn
  constructor
  · intro e i hi
    have := congrArg (·[i]?) e
    simp only [bytes_get, if_pos hi, List.getElem?_eq_getElem hi, Option.some.injEq] at this
    exact this
  · intro h
    apply List.ext_getElem?
    intro i
    rw [bytes_get]
    split
    · next hi => rw [List.getElem?_eq_getElem hi, h i hi]
    · next hi => rw [List.getElem?_eq_none (by omega)]

theorem put_mem_in {a : Nat} {l : List Byte} {i : Nat} (h : i < l.length) : (R.put a l).mem (a + i) = l[i] := by
  simp [Ram.put, h]

theorem put_mem_out {a : Nat} {l : List Byte} {x : Nat} (h : x < a ∨ a + l.length ≤ x) : (R.put a l).mem x = R.mem x := by
  unfold Ram.put
  dsimp only
  split
  · rw [List.getElem?_eq_none (by omega)]; rfl
  · rfl

theorem bytes_put_same {a : Nat} {l : List Byte} {n : Nat} (hn : l.length = n) : (R.put a l).bytes a n = l :=
  (bytes_eq_iff hn).2 fun _ h => put_mem_in h

theorem bytes_put_apart {a : Nat} {l : List Byte} {b n : Nat} (h : Apart a l.length b n) :
    (R.put a l).bytes b n = R.bytes b n := by
  apply bytes_ext
  intro i hi
  unfold Apart at h
  exact put_mem_out (by omega)

theorem bytes_put_part {a : Nat} {l : List Byte} {b n : Nat} (h1 : a ≤ b) (h2 : b + n ≤ a + l.length) :
    (R.put a l).bytes b n = (l.drop (b - a)).take n := by
  rw [bytes_eq_iff (by simp; omega)]
  intro i hi
  simp at hi
  rw [show b + i = a + (b - a + i) by omega, put_mem_in (by omega)]
  simp

theorem ext {R R' : Ram} (ho : R.own = R'.own) (ht : R.tmp = R'.tmp) (h : ∀ x, R.mem x = R'.mem x) : R = R' := by
  cases R; cases R'
  simp only [Ram.mk.injEq] at *
  exact ⟨ho, funext h, ht⟩

theorem put_get (a : Nat) (l : List Byte) (x : Nat) :
    (R.put a l).mem x = if h : a ≤ x ∧ x < a + l.length then l[x - a]'(by omega) else R.mem x := by
  split
  · next h =>
    have := put_mem_in (R := R) (a := a) (l := l) (i := x - a) (by omega)
    rwa [show a + (x - a) = x by omega] at this
  · exact put_mem_out (by omega)

@[simp] theorem put_nil (a : Nat) : R.put a [] = R := ext rfl rfl fun x => put_mem_out (by simp; omega)

theorem put_put_same {a : Nat} {l l' : List Byte} (h : l.length ≤ l'.length) : (R.put a l).put a l' = R.put a l' := by
  refine ext rfl rfl fun x => ?_
  simp only [put_get]
  split_ifs <;> first | rfl | omega

theorem put_comm {a b : Nat} {l l' : List Byte} (h : Apart a l.length b l'.length) :
    (R.put a l).put b l' = (R.put b l').put a l := by
  refine ext rfl rfl fun x => ?_
  unfold Apart at h
  simp only [put_get]
  split_ifs <;> first | rfl | omega

theorem put_append (a : Nat) (l l' : List Byte) : R.put a (l ++ l') = (R.put a l).put (a + l.length) l' := by
  refine ext rfl rfl fun x => ?_
  simp only [put_get, List.length_append]
  split_ifs
  · rw [List.getElem_append_right (by omega)]
    congr 1; omega
  · rw [List.getElem_append_left (by omega)]
  all_goals first | rfl | omega

/-- Writing back what is there. -/
theorem put_bytes (a n : Nat) : R.put a (R.bytes a n) = R := by
  refine ext rfl rfl fun x => ?_
  rw [put_get]
  split
  · next h =>
    have := (bytes_eq_iff (R := R) (a := a) (n := n) (bytes_length a n)).1 rfl (x - a) (by omega)
    rw [← this]; congr 1; omega
  · rfl

theorem memcpy_eq {d s n : Nat} (h1 : R.Owned s n) (h2 : R.Owned d n) (h3 : Apart d n s n) :
    memcpy R d s n = some (R.put d (R.bytes s n)) := by
  unfold memcpy
  rw [if_pos ⟨h1, h2, h3⟩]

theorem xorB_get {a b : List Byte} {i : Nat} (h : i < (xorB a b).length) (ha : i < a.length) (hb : i < b.length) :
    (xorB a b)[i] = a[i] ^^^ b[i] := by simp [xorB]

theorem xorInto_put {d s1 s2 n : Nat} {m' : Nat → Byte}
    (h : MemXor.Spec.XorInto R.mem m' d s1 s2 n (fun _ => False)) :
    ({ R with mem := m' } : Ram) = R.put d (xorB (R.bytes s1 n) (R.bytes s2 n)) := by
  have hl : (xorB (R.bytes s1 n) (R.bytes s2 n)).length = n := by simp [xorB]
  refine ext rfl rfl fun x => ?_
  rw [put_get]
  split
  · next hx =>
    have hi : x - d < n := by omega
    have := h.1 (x - d) hi
    rw [show d + (x - d) = x by omega] at this
    rw [xorB_get _ (by simpa using hi) (by simpa using hi)]
    rw [← (bytes_eq_iff (R := R) (a := s1) (n := n) (bytes_length s1 n)).1 rfl (x - d) (by simpa using hi),
      ← (bytes_eq_iff (R := R) (a := s2) (n := n) (bytes_length s2 n)).1 rfl (x - d) (by simpa using hi)]
    exact this
  · next hx => exact h.2 x (by omega) (fun h => h)

theorem xor1_eq {d s n : Nat} (h1 : R.Owned s n) (h2 : R.Owned d n) :
    xor1 R d s n = some (R.put d (xorB (R.bytes d n) (R.bytes s n))) := by
  unfold xor1
  rw [if_pos ⟨h1, h2⟩, xorInto_put (MemXor.memxor_correct R.mem d s n)]

/-- `cry_memxor2` with one source apart from the destination is right wherever the other source is. -/
theorem memxor2_apart (allocs : List (Option Nat)) (m : Nat → Byte) {d s t n : Nat} (h : Apart d n t n) :
    MemXor.Spec.XorInto m (MemXor.memxor2 allocs m d s t n) d s t n (fun _ => False) := by
  unfold Apart at h
  by_cases hs : s ≤ d ∨ d + n ≤ s
  · exact Modes.memxor2_placement allocs m d s t n hs (by omega)
  · unfold MemXor.memxor2
    by_cases ht : t < s
    · simp only [if_pos ht]
      rw [if_pos (by omega)]
      obtain ⟨a, b⟩ := MemXor.fwd2_spec m d t s n (by omega) (by omega) n le_rfl
      exact ⟨fun i hi => (a i hi).trans (BitVec.xor_comm _ _), fun x hx _ => b x hx⟩
    · simp only [if_neg ht]
      rw [if_pos (by omega)]
      obtain ⟨a, b⟩ := MemXor.fwd2_spec m d s t n (by omega) (by omega) n le_rfl
      exact ⟨a, fun x hx _ => b x hx⟩

theorem memxor2_comm (allocs : List (Option Nat)) (m : Nat → Byte) (d s t n : Nat) :
    MemXor.memxor2 allocs m d s t n = MemXor.memxor2 allocs m d t s n := by
  rcases Nat.lt_trichotomy s t with h | h | h
  · unfold MemXor.memxor2
    simp only [if_pos h, if_neg (Nat.lt_asymm h)]
  · rw [h]
  · unfold MemXor.memxor2
    simp only [if_pos h, if_neg (Nat.lt_asymm h)]

theorem xor2_eq {d s t n : Nat} (h1 : R.Owned s n) (h2 : R.Owned t n) (h3 : R.Owned d n) (h : Apart d n t n) :
    xor2 R d s t n = some (R.put d (xorB (R.bytes s n) (R.bytes t n))) := by
  unfold xor2
  rw [if_pos ⟨h1, h2, h3⟩, xorInto_put (memxor2_apart R.tmp R.mem h)]

theorem xor2_eq' {d s t n : Nat} (h1 : R.Owned s n) (h2 : R.Owned t n) (h3 : R.Owned d n) (h : Apart d n s n) :
    xor2 R d s t n = some (R.put d (xorB (R.bytes s n) (R.bytes t n))) := by
  unfold xor2
  rw [if_pos ⟨h1, h2, h3⟩, memxor2_comm, xorInto_put (memxor2_apart R.tmp R.mem h), Modes.xorB_comm]

set_option hygiene false in
/-- Proves that a range inside one of the ranges known to be accessible is accessible. -/
macro "own" : tactic => `(tactic| (try simp only [owned_put]) <;> first
  | exact owned_sub hx (by omega) (by omega) | exact owned_sub hs (by omega) (by omega)
  | exact owned_sub hd (by omega) (by omega) | exact owned_sub hbuf (by omega) (by omega)
  | exact owned_sub hv (by omega) (by omega))

/-- The same from the given ownership. -/
macro "ownof" h:term : tactic => `(tactic| (try simp only [owned_put]) <;> exact owned_sub $h (by omega) (by omega))

theorem Apart.sub {a n b m a' n' b' m' : Nat} (h : Apart a n b m) (h1 : a ≤ a') (h2 : a' + n' ≤ a + n) (h3 : b ≤ b')
    (h4 : b' + m' ≤ b + m) : Apart a' n' b' m' := by
  unfold Apart at *; omega

theorem Apart.flip {a n b m : Nat} (h : Apart a n b m) : Apart b m a n := h.symm

theorem Apart.out {a n b m x : Nat} (h : Apart a n b m) (h1 : a ≤ x) (h2 : x < a + n) : x < b ∨ b + m ≤ x := by
  unfold Apart at *; omega

/-- Proves that two ranges are apart from the given ranges, which need not be unfolded. -/
macro "apof" h:term : tactic =>
  `(tactic| first
    | exact Apart.sub $h (by omega) (by omega) (by omega) (by omega)
    | exact Apart.sub (Apart.flip $h) (by omega) (by omega) (by omega) (by omega))

/-- Proves that two ranges are apart. -/
macro "apt" : tactic => `(tactic| (unfold Apart; omega))

/-- One block through the cipher. -/
theorem cipher_one {F : List Byte → List Byte} {c d s : Nat} (h1 : R.Owned s c) (h2 : R.Owned d c) :
    cipher F c 1 R d s = some (R.put d (F (R.bytes s c))) := by
  rw [cipher, if_pos ⟨h1, h2⟩, cipher]

/-- A run of blocks through the cipher, the destination not in the part of the source still to be read. -/
theorem cipher_eq {F : List Byte → List Byte} {c : Nat} (hF : ∀ b, b.length = c → (F b).length = c) :
    ∀ (bs : List (List Byte)) (R : Ram) (d s : Nat), (∀ b ∈ bs, b.length = c) → R.Owned s (bs.length * c) →
    R.Owned d (bs.length * c) → (d ≤ s ∨ s + bs.length * c ≤ d) → R.bytes s (bs.length * c) = bs.flatten →
    cipher F c bs.length R d s = some (R.put d (bs.map F).flatten)
  | [], R, d, s, _, _, _, _, _ => by simp [cipher]
  | b :: bs, R, d, s, hb, hs, hd, hp, e => by
    have hbl : b.length = c := hb b (by simp)
    have hn : (b :: bs).length * c = c + bs.length * c := by rw [List.length_cons]; ring
    rw [hn] at hs hd hp e
    rw [bytes_add, List.flatten_cons] at e
    obtain ⟨e1, e2⟩ := List.append_inj e (by simp [hbl])
    have hFl := hF b hbl
    rw [List.length_cons, cipher, if_pos ⟨owned_sub hs (by omega) (by omega), owned_sub hd (by omega) (by omega)⟩, e1,
      cipher_eq hF bs (R.put d (F b)) (d + c) (s + c) (fun x hx => hb x (by simp [hx])) (owned_sub hs (by omega) (by omega))
        (owned_sub hd (by omega) (by omega)) (by omega)]
    · rw [List.map_cons, List.flatten_cons, put_append, hFl]
    · rw [bytes_put_apart (by unfold Apart; omega), e2]

end Verif.Ram
