import Verif.Model.Crypt.Arc4
import Mathlib.Data.List.Nodup
import Mathlib.Data.List.Perm.Subperm
import Mathlib.Logic.Function.Basic
/-!
# C41: ARC4
-/
namespace Verif.Arc4

/-! ### RC4 in its textbook form, on functions -/

/-- Exchange two entries of a table. -/
def swapF (S : Byte → Byte) (i j : Byte) : Byte → Byte := fun m => if m = i then S j else if m = j then S i else S m

/-- Key scheduling, steps `0 .. n-1`: table and `j`. -/
def ksa (key : List Byte) : Nat → (Byte → Byte) × Byte
  | 0 => (id, 0)
  | n + 1 =>
    let p := ksa key n
    let i := BitVec.ofNat 8 n
    let j := p.2 + p.1 i + key.getD (n % key.length) 0
    (swapF p.1 i j, j)

structure St where
  S : Byte → Byte
  i : Byte
  j : Byte

/-- One step of the generator. -/
def St.next (t : St) : St :=
  let i := t.i + 1
  let j := t.j + t.S i
  ⟨swapF t.S i j, i, j⟩

/-- Its output byte. -/
def St.out (t : St) : Byte := t.S (t.S t.i + t.S t.j)

/-- The key stream of `n` bytes and the state after it. -/
def stream (t : St) : Nat → List Byte × St
  | 0 => ([], t)
  | n + 1 => let r := stream t.next n; (t.next.out :: r.1, r.2)

/-- The RC4 encryption of a message. -/
def rc4 (key msg : List Byte) : List Byte := List.zipWith (· ^^^ ·) msg (stream ⟨(ksa key 256).1, 0, 0⟩ msg.length).1

/-! ### The table -/

/-- `s` is a table of 256 entries holding the values of `S`. -/
def Holds (s : List Byte) (S : Byte → Byte) : Prop := s.length = 256 ∧ ∀ m, at8 s m = S m

theorem holds_swap {s : List Byte} {S : Byte → Byte} (h : Holds s S) (i j : Byte) :
    Holds ((s.set i.toNat (at8 s j)).set j.toNat (at8 s i)) (swapF S i j) := by
  obtain ⟨hl, hs⟩ := h
  refine ⟨by simp [hl], ?_⟩
  intro m
  have hi := i.isLt
  have hj := j.isLt
  unfold at8 swapF
  rw [List.getD_eq_getElem?_getD, List.getElem?_set, List.getElem?_set, List.length_set, hl]
  by_cases h1 : j.toNat = m.toNat
  · have : m = j := (BitVec.eq_of_toNat_eq h1).symm
    subst this
    rw [if_pos rfl, if_pos hj, Option.getD_some]
    by_cases h2 : m = i
    · rw [if_pos h2, h2, ← hs i]; rfl
    · rw [if_neg h2, if_pos rfl, ← hs i]; rfl
  · have hne : m ≠ j := fun h => h1 (by rw [h])
    rw [if_neg h1]
    by_cases h2 : i.toNat = m.toNat
    · have : m = i := (BitVec.eq_of_toNat_eq h2).symm
      rw [if_pos h2, if_pos hi, Option.getD_some, if_pos this, ← hs j]; rfl
    · have hne2 : m ≠ i := fun h => h2 (by rw [h])
      rw [if_neg h2, if_neg hne2, if_neg hne, ← hs m, at8, List.getD_eq_getElem?_getD]

theorem at8_ofNat (s : List Byte) {i : Nat} (hi : i < 256) : s.getD i 0 = at8 s (BitVec.ofNat 8 i) := by
  rw [at8, BitVec.toNat_ofNat, Nat.mod_eq_of_lt hi]

theorem keyLoop_spec (key : List Byte) (hk : key ≠ []) : ∀ (n i : Nat) (s : List Byte), i + n = 256 →
    Holds s (ksa key i).1 → Holds (keyLoop key n i (ksa key i).2 (i % key.length) s) (ksa key 256).1
  | 0, i, s, hi, h => by rw [Nat.add_zero] at hi; subst hi; exact h
  | n + 1, i, s, hi, h => by
    have hpos : 0 < key.length := List.length_pos_iff.mpr hk
    have hi8 : i < 256 := by omega
    have hm : (if i % key.length + 1 = key.length then 0 else i % key.length + 1) = (i + 1) % key.length := by
      rw [Nat.add_mod i 1]
      have := Nat.mod_lt i hpos
      split_ifs with he
      · by_cases h1 : key.length = 1
        · rw [h1]
          have : i % 1 = 0 := Nat.mod_one i
          omega
        · rw [Nat.mod_eq_of_lt (show 1 < key.length by omega), he, Nat.mod_self]
      · rw [Nat.mod_eq_of_lt (show 1 < key.length by omega), Nat.mod_eq_of_lt (a := i % key.length + 1) (by omega)]
    rw [keyLoop, hm, at8_ofNat s hi8, h.2]
    have hsw := holds_swap h (BitVec.ofNat 8 i) (ksa key (i + 1)).2
    rw [h.2 (BitVec.ofNat 8 i), BitVec.toNat_ofNat, Nat.mod_eq_of_lt hi8] at hsw
    exact keyLoop_spec key hk n (i + 1) _ (by omega) hsw

theorem initial_holds : Holds ((List.range 256).map (BitVec.ofNat 8)) id := by
  refine ⟨by simp, ?_⟩
  intro m
  rw [at8, List.getD_eq_getElem?_getD, List.getElem?_map, List.getElem?_range m.isLt]
  simp

theorem keySet_spec (key : List Byte) (hk : key ≠ []) : ∃ s, keySet key = some ⟨s, 0, 0⟩ ∧ Holds s (ksa key 256).1 := by
  have h := keyLoop_spec key hk 256 0 _ (by omega) initial_holds
  generalize ha : (ksa key 256).1 = S at h ⊢
  refine ⟨_, ?_, h⟩
  rw [keySet, if_neg hk]
  congr 2

theorem crypt_spec : ∀ (src : List Byte) (c : Ctx) (t : St), Holds c.s t.S → c.x = t.i → c.y = t.j →
    (crypt c src).1 = List.zipWith (· ^^^ ·) src (stream t src.length).1 ∧
    Holds (crypt c src).2.s (stream t src.length).2.S ∧ (crypt c src).2.x = (stream t src.length).2.i ∧
    (crypt c src).2.y = (stream t src.length).2.j
  | [], c, t, h, hx, hy => ⟨rfl, h, hx, hy⟩
  | v :: src, c, t, h, hx, hy => by
    have hsw := holds_swap h (t.i + 1) (t.j + t.S (t.i + 1))
    have ih := crypt_spec src ⟨(c.s.set (c.x + 1).toNat (at8 c.s (c.y + at8 c.s (c.x + 1)))).set
      (c.y + at8 c.s (c.x + 1)).toNat (at8 c.s (c.x + 1)), c.x + 1, c.y + at8 c.s (c.x + 1)⟩ t.next
      (by rw [hx, hy, h.2 (t.i + 1)]; rw [h.2 (t.i + 1)] at hsw; exact hsw) (by rw [hx]; rfl)
      (by rw [hx, hy, h.2 (t.i + 1)]; rfl)
    rw [crypt, List.length_cons, stream]
    dsimp only
    refine ⟨?_, ih.2⟩
    rw [List.zipWith_cons_cons, ih.1]
    congr 2
    rw [h.2 (t.i + 1)] at hsw
    rw [hx, hy, h.2 (t.i + 1), hsw.2, h.2 (t.j + t.S (t.i + 1))]
    show swapF t.S (t.i + 1) (t.j + t.S (t.i + 1)) (t.S (t.i + 1) + t.S (t.j + t.S (t.i + 1))) =
      swapF t.S (t.i + 1) (t.j + t.S (t.i + 1)) (swapF t.S (t.i + 1) (t.j + t.S (t.i + 1)) (t.i + 1) +
        swapF t.S (t.i + 1) (t.j + t.S (t.i + 1)) (t.j + t.S (t.i + 1)))
    congr 1
    unfold swapF
    simp only [if_true]
    split_ifs with he
    · rw [he]
    · rw [BitVec.add_comm]

/-! ### C41 -/

/-- C41: for every non-empty key, the ciphertext is the RC4 ciphertext. -/
theorem arc4_standard (key : List Byte) (hk : key ≠ []) (msg : List Byte) :
    ∃ c, keySet key = some c ∧ (crypt c msg).1 = rc4 key msg := by
  obtain ⟨s, hs, hH⟩ := keySet_spec key hk
  refine ⟨_, hs, ?_⟩
  rw [rc4]
  generalize (ksa key 256).1 = S at hH ⊢
  exact (crypt_spec msg ⟨s, 0, 0⟩ ⟨S, 0, 0⟩ hH rfl rfl).1

theorem stream_length (t : St) : ∀ n, (stream t n).1.length = n
  | 0 => rfl
  | n + 1 => by rw [stream, List.length_cons, stream_length t.next n]

theorem crypt_length : ∀ (src : List Byte) (c : Ctx), (crypt c src).1.length = src.length
  | [], _ => rfl
  | v :: src, c => by rw [crypt, List.length_cons, crypt_length src, List.length_cons]

/-- C41: processing two parts one after the other is the same as processing them in one call. -/
theorem arc4_split : ∀ (a : List Byte) (c : Ctx) (b : List Byte),
    crypt c (a ++ b) = ((crypt c a).1 ++ (crypt (crypt c a).2 b).1, (crypt (crypt c a).2 b).2)
  | [], _, _ => rfl
  | v :: a, c, b => by
    rw [List.cons_append, crypt, crypt]
    simp only [arc4_split a, List.cons_append]

/-- C41: the same call applied to the ciphertext, from the same context, restores the message and leaves the
same context. -/
theorem arc4_self_inverse : ∀ (msg : List Byte) (c : Ctx),
    crypt c (crypt c msg).1 = (msg, (crypt c msg).2)
  | [], _ => rfl
  | v :: msg, c => by
    rw [crypt]
    rw [crypt]
    simp only []
    rw [arc4_self_inverse msg, BitVec.xor_assoc, BitVec.xor_self, BitVec.xor_zero]

/-- C41: the table after any key and any data is a permutation of 0..255. -/
theorem arc4_permutation (key : List Byte) (hk : key ≠ []) (msg : List Byte) :
    ∃ c, keySet key = some c ∧ ((crypt c msg).2.s).Perm ((List.range 256).map (BitVec.ofNat 8)) := by
  have hsurj : ∀ {S : Byte → Byte} (i j : Byte), Function.Surjective S → Function.Surjective (swapF S i j) := by
    intro S i j h v
    obtain ⟨m, rfl⟩ := h v
    by_cases h1 : m = i
    · by_cases h2 : i = j
      · exact ⟨i, by unfold swapF; rw [if_pos rfl, ← h2, h1]⟩
      · exact ⟨j, by unfold swapF; rw [if_neg (Ne.symm h2), if_pos rfl, h1]⟩
    · by_cases h2 : m = j
      · exact ⟨i, by unfold swapF; rw [if_pos rfl, h2]⟩
      · exact ⟨m, by unfold swapF; rw [if_neg h1, if_neg h2]⟩
  have hksa : ∀ n, Function.Surjective (ksa key n).1 := by
    intro n
    induction n with
    | zero => exact fun v => ⟨v, rfl⟩
    | succ n ih => exact hsurj _ _ ih
  have hstream : ∀ n (t : St), Function.Surjective t.S → Function.Surjective (stream t n).2.S := by
    intro n
    induction n with
    | zero => intro t h; exact h
    | succ n ih => intro t h; exact ih t.next (hsurj _ _ h)
  obtain ⟨s, hs, hH⟩ := keySet_spec key hk
  refine ⟨_, hs, ?_⟩
  have h0 := hksa 256
  generalize (ksa key 256).1 = S at hH h0
  obtain ⟨-, hH, -⟩ := crypt_spec msg ⟨s, 0, 0⟩ ⟨S, 0, 0⟩ hH rfl rfl
  have hS := hstream msg.length ⟨S, 0, 0⟩ h0
  clear hs
  generalize (crypt _ msg).2.s = s at hH ⊢
  generalize (stream _ msg.length).2.S = S at hH hS
  obtain ⟨hl, hs⟩ := hH
  have hnd : ((List.range 256).map (BitVec.ofNat 8)).Nodup := by decide +kernel
  have hsub : ((List.range 256).map (BitVec.ofNat 8)) ⊆ s := by
    intro v _
    obtain ⟨m, rfl⟩ := hS v
    rw [← hs m, at8, List.getD_eq_getElem?_getD, List.getElem?_eq_getElem (by rw [hl]; exact m.isLt), Option.getD_some]
    exact List.getElem_mem _
  exact ((List.subperm_of_subset hnd hsub).perm_of_length_le (by rw [hl]; simp)).symm

/-- An empty key is read out of bounds. -/
theorem arc4_empty_key : keySet [] = none := rfl

-- test vector: key "Key", message "Plaintext"
example : (keySet [0x4b, 0x65, 0x79]).map (fun c =>
    (crypt c [0x50, 0x6c, 0x61, 0x69, 0x6e, 0x74, 0x65, 0x78, 0x74]).1) =
    some [0xbb, 0xf3, 0x16, 0xe8, 0xd9, 0x40, 0xaf, 0x0a, 0xd3] := by decide +kernel

end Verif.Arc4
