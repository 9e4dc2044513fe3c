import Verif.Lemmas.Crypt.Trivium
/-!
# C42: Trivium

The standard is `Verif.TriviumS` (Spec/Trivium.lean), one bit at a time.
-/
namespace Verif.Trivium
open Verif.TriviumS

/-- The word-parallel update is 32 steps of the serial cipher, and the output word holds the key stream bits of those
steps, the first in its highest bit. -/
theorem trivium_parallel (w : W) : abs (update w) = (abs w).steps 32 ∧
    ∀ j, j < 32 → (out w).getLsbD (31 - j) = ((abs w).steps j).z := by
  refine ⟨abs_update w, ?_⟩
  intro j hj
  rw [out_bit _ _ (by omega), show 31 - (31 - j) = j by omega]

theorem load_bits (s : List Byte) :
    (∀ p, p < 93 → (abs (load s)).a.getLsbD p = bit s p) ∧
    (∀ p, p < 84 → (abs (load s)).b.getLsbD p = bit s (96 + p)) ∧
    (∀ p, p < 111 → (abs (load s)).c.getLsbD p = bit s (192 + p)) := by
  have h : ∀ i p, p < 32 → (word s (4 * i)).getLsbD p = bit s (32 * i + p) := word_bit s
  have e : load s = ⟨word s (4 * 0), word s (4 * 1), word s (4 * 2), word s (4 * 3), word s (4 * 4), word s (4 * 5),
    word s (4 * 6), word s (4 * 7), word s (4 * 8), word s (4 * 9)⟩ := rfl
  rw [e]
  refine ⟨fun p hp => ?_, fun p hp => ?_, fun p hp => ?_⟩
  · rw [abs_a _ _ hp]
    dsimp only
    split_ifs <;> rw [h _ _ (by omega)] <;> congr 1 <;> omega
  · rw [abs_b _ _ hp]
    dsimp only
    split_ifs <;> rw [h _ _ (by omega)] <;> congr 1 <;> omega
  · rw [abs_c _ _ hp]
    dsimp only
    split_ifs <;> rw [h _ _ (by omega)] <;> congr 1 <;> omega

theorem getD_append {x y : List Byte} {k : Nat} : (x ++ y).getD k 0 = if k < x.length then x.getD k 0 else y.getD (k - x.length) 0 := by
  rw [List.getD_eq_getElem?_getD, List.getElem?_append]
  split_ifs
  · rw [List.getD_eq_getElem?_getD]
  · rw [List.getD_eq_getElem?_getD]

theorem getD_zeros (n k : Nat) : (List.replicate n (0 : Byte)).getD k 0 = 0 := by
  rw [List.getD_eq_getElem?_getD, List.getElem?_replicate]
  split_ifs <;> rfl

/-- The ten bytes kept of a key or an initial value, filled with zeros. -/
theorem fill (l : List Byte) (m : Nat) (hm : 10 ≤ m) :
    (l.take (if l.length > 10 then 10 else l.length) ++ List.replicate (m - (if l.length > 10 then 10 else l.length)) 0).length = m ∧
    ∀ k, (l.take (if l.length > 10 then 10 else l.length) ++
      List.replicate (m - (if l.length > 10 then 10 else l.length)) (0 : Byte)).getD k 0 = if k < 10 then l.getD k 0 else 0 := by
  constructor
  · rw [List.length_append, List.length_take, List.length_replicate]
    split_ifs <;> omega
  · intro k
    generalize hn : (if l.length > 10 then 10 else l.length) = n
    have hn' : n = min 10 l.length := by rw [← hn]; split_ifs <;> omega
    rw [getD_append, getD_zeros, List.length_take]
    by_cases h : k < min n l.length
    · rw [if_pos h, if_pos (by omega), List.getD_eq_getElem?_getD, List.getElem?_take_of_lt (by omega), List.getD_eq_getElem?_getD]
    · rw [if_neg h]
      by_cases h10 : k < 10
      · rw [if_pos h10, List.getD_eq_getElem?_getD, List.getElem?_eq_none (by omega)]; rfl
      · rw [if_neg h10]

/-- The state after setting key and initial value, whatever the context held. -/
theorem ivSet_state (c : Ctx) (key iv : List Byte) : abs (load (ivSet (keySet c key) iv).s) = init key iv := by
  unfold ivSet keySet
  dsimp only
  obtain ⟨hk, hkd⟩ := fill key 10 (le_refl _)
  obtain ⟨hi, hid⟩ := fill iv 12 (by omega)
  generalize hK : (key.take (if key.length > 10 then 10 else key.length) ++
    List.replicate (10 - (if key.length > 10 then 10 else key.length)) (0 : Byte)) = K at *
  generalize hI : (iv.take (if iv.length > 10 then 10 else iv.length) ++
    List.replicate (12 - (if iv.length > 10 then 10 else iv.length)) (0 : Byte)) = I at *
  rw [load_store, abs_updates, init]
  congr 1
  generalize c.s.drop 38 = R
  rw [List.take_of_length_le (l := K) (by omega)]
  have hbyte : ∀ k, k < 38 → (K ++ [0, 0] ++ I ++ List.replicate 13 0 ++ [0x70#8] ++ R).getD k 0 =
      if k < 10 then key.getD k 0 else if k < 12 then 0 else if k < 22 then iv.getD (k - 12) 0 else if k < 37 then 0 else 0x70 := by
    intro k hk'
    simp only [getD_append, List.length_append, hk, hi, List.length_replicate, List.length_cons, List.length_nil, getD_zeros,
      hkd, hid]
    by_cases h1 : k < 10
    · simp [h1, show k < 38 from hk', show k < 37 by omega, show k < 24 by omega, show k < 12 by omega]
    · by_cases h2 : k < 12
      · simp only [h1, h2, if_true, if_false]
        rw [if_pos (by omega), if_pos (by omega), if_pos (by omega)]
        have : k = 10 ∨ k = 11 := by omega
        rcases this with rfl | rfl <;> rfl
      · by_cases h3 : k < 22
        · simp only [h1, h2, h3, if_true, if_false]
          split_ifs <;> first | omega | rfl
        · by_cases h4 : k < 37
          · simp only [h1, h2, h3, h4, if_true, if_false]
            split_ifs <;> first | omega | rfl
          · have : k = 37 := by omega
            subst this
            simp
  generalize K ++ [0, 0] ++ I ++ List.replicate 13 0 ++ [0x70#8] ++ R = s at hbyte
  obtain ⟨ha, hb, hc⟩ := load_bits s
  have hA : (abs (load s)).a = (start key iv).a := by
    apply BitVec.eq_of_getLsbD_eq
    intro p hp
    rw [ha p hp, start, getLsbD_ofBits, decide_eq_true hp, Bool.true_and, bit, hbyte _ (by omega)]
    by_cases h : p < 80
    · rw [if_pos h, if_pos (by omega)]; rfl
    · rw [if_neg h, if_neg (by omega), if_pos (by omega)]; simp
  have hB : (abs (load s)).b = (start key iv).b := by
    apply BitVec.eq_of_getLsbD_eq
    intro p hp
    rw [hb p hp, start, getLsbD_ofBits, decide_eq_true hp, Bool.true_and, bit, hbyte _ (by omega), if_neg (by omega), if_neg (by omega)]
    by_cases h : p < 80
    · rw [if_pos h, if_pos (by omega), bit, show (96 + p) / 8 - 12 = p / 8 by omega, show (96 + p) % 8 = p % 8 by omega]
    · rw [if_neg h, if_neg (by omega), if_pos (by omega)]; simp
  have hC : (abs (load s)).c = (start key iv).c := by
    apply BitVec.eq_of_getLsbD_eq
    intro p hp
    rw [hc p hp, start, getLsbD_ofBits, decide_eq_true hp, Bool.true_and, bit, hbyte _ (by omega), if_neg (by omega), if_neg (by omega),
      if_neg (by omega)]
    by_cases h : p < 104
    · rw [if_pos (by omega), decide_eq_false (by omega)]; simp
    · rw [if_neg (by omega), show (192 + p) % 8 = p - 104 by omega]
      obtain ⟨q, rfl⟩ : ∃ q, p = 104 + q := ⟨p - 104, by omega⟩
      have hq : q < 7 := by omega
      rw [Nat.add_sub_cancel_left]
      interval_cases q <;> rfl
  generalize abs (load s) = x at *
  generalize start key iv = y at *
  cases x; cases y
  simp_all

/-- A sequence of calls of `cry_trivium_crypt`: the outputs. -/
def run (c : Ctx) : List (List Byte) → List (List Byte)
  | [] => []
  | m :: ms => (crypt c m).1 :: run (crypt c m).2 ms

/-- The same from the standard: each call takes a whole number of words of key stream. -/
def runS (t : St) : List (List Byte) → List (List Byte)
  | [] => []
  | m :: ms => List.zipWith (· ^^^ ·) m ((List.range m.length).map (byte t)) :: runS (t.steps (32 * ((m.length + 3) / 4))) ms

theorem crypt_eq (c : Ctx) (m : List Byte) :
    (crypt c m).1 = List.zipWith (· ^^^ ·) m ((List.range m.length).map (byte (abs (load c.s)))) ∧
    abs (load (crypt c m).2.s) = (abs (load c.s)).steps (32 * ((m.length + 3) / 4)) := by
  obtain ⟨h1, h2⟩ := loop_eq m.length (load c.s) m (le_refl _)
  refine ⟨h1, ?_⟩
  show abs (load (store (loop (load c.s) m).2)) = _
  rw [load_store, h2]

/-- The output of any sequence of calls after setting key and initial value, from any context, is the standard one;
so it does not depend on what the context did before. -/
theorem trivium_standard (c : Ctx) (key iv : List Byte) (ms : List (List Byte)) :
    run (ivSet (keySet c key) iv) ms = runS (init key iv) ms := by
  rw [← ivSet_state c key iv]
  generalize ivSet (keySet c key) iv = c'
  induction ms generalizing c' with
  | nil => rfl
  | cons m ms ih =>
    obtain ⟨h1, h2⟩ := crypt_eq c' m
    rw [run, runS, ih, h1, h2]

/-- Two contexts with any pasts behave alike once key and initial value are set. -/
theorem trivium_forgets (c c' : Ctx) (key iv : List Byte) (ms : List (List Byte)) :
    run (ivSet (keySet c key) iv) ms = run (ivSet (keySet c' key) iv) ms := by
  rw [trivium_standard, trivium_standard]

/-- Two different pasts and a non-trivial output. -/
example : run (ivSet (keySet ⟨List.replicate 10 1, List.replicate 40 255⟩ [1, 2, 3]) [9, 8]) [[0, 0, 0, 0, 0], [1]] =
    run (ivSet (keySet ⟨List.replicate 10 0, List.replicate 40 0⟩ [1, 2, 3]) [9, 8]) [[0, 0, 0, 0, 0], [1]] ∧
    run (ivSet (keySet ⟨List.replicate 10 1, List.replicate 40 255⟩ [1, 2, 3]) [9, 8]) [[0, 0, 0, 0, 0], [1]] ≠
      [[0, 0, 0, 0, 0], [1]] := by decide +kernel

theorem xor_twice : ∀ (m k : List Byte), m.length ≤ k.length →
    List.zipWith (· ^^^ ·) (List.zipWith (· ^^^ ·) m k) k = m
  | [], _, _ => rfl
  | a :: m, [], h => by simp at h
  | a :: m, b :: k, h => by
    rw [List.zipWith_cons_cons, List.zipWith_cons_cons, xor_twice m k (by simpa using h), BitVec.xor_assoc, BitVec.xor_self]
    simp

/-- Applying the cipher twice from the same state restores the data; lengths are kept. -/
theorem trivium_self_inverse (c c' : Ctx) (key iv m : List Byte) :
    (crypt (ivSet (keySet c key) iv) m).1.length = m.length ∧
    (crypt (ivSet (keySet c' key) iv) (crypt (ivSet (keySet c key) iv) m).1).1 = m := by
  have hl : (crypt (ivSet (keySet c key) iv) m).1.length = m.length := by
    rw [(crypt_eq _ m).1]; simp
  refine ⟨hl, ?_⟩
  rw [(crypt_eq _ _).1, hl, (crypt_eq _ m).1, ivSet_state, ivSet_state, xor_twice _ _ (by simp)]

/-- Data may be cut at multiples of four bytes. -/
theorem trivium_split (c : Ctx) (x y : List Byte) (h : x.length % 4 = 0) :
    (crypt c (x ++ y)).1 = (crypt c x).1 ++ (crypt (crypt c x).2 y).1 := by
  obtain ⟨h1, h2⟩ := crypt_eq c x
  rw [(crypt_eq c (x ++ y)).1, (crypt_eq _ y).1, h1, h2, List.length_append]
  have hq : x.length = 4 * (x.length / 4) := by omega
  have := stream_add (abs (load c.s)) (x.length / 4) y.length
  rw [← hq] at this
  rw [show (List.range (x.length + y.length)).map (byte (abs (load c.s))) = stream (abs (load c.s)) (x.length + y.length) from rfl,
    this, List.zipWith_append (by simp [stream]), show (x.length + 3) / 4 = x.length / 4 by omega]
  rfl

/-- Elsewhere they may not: the rest of the word is lost. -/
theorem trivium_split_wrong : ∃ (c : Ctx) (x y : List Byte),
    (crypt c (x ++ y)).1 ≠ (crypt c x).1 ++ (crypt (crypt c x).2 y).1 :=
  ⟨ivSet (keySet ⟨List.replicate 10 0, List.replicate 40 0⟩ []) [], [0], [0], by decide +kernel⟩

end Verif.Trivium
