import Verif.Model.Modes.Cbc
import Verif.Spec.Modes
import Mathlib.Tactic.Ring
import Mathlib.Data.List.Basic
/-! Lists of blocks and their concatenation. -/
namespace Verif.Modes

/-- All blocks have `c` bytes. -/
def Blocks (c : Nat) (bs : List (List Byte)) : Prop := ∀ b ∈ bs, b.length = c

theorem Blocks.cons {c : Nat} {b : List Byte} {bs : List (List Byte)} (h : Blocks c (b :: bs)) :
    b.length = c ∧ Blocks c bs :=
  ⟨h b (by simp), fun x hx => h x (by simp [hx])⟩

theorem Blocks.mk {c : Nat} {b : List Byte} {bs : List (List Byte)} (h1 : b.length = c)
    (h2 : Blocks c bs) : Blocks c (b :: bs) := by
  intro x hx
  rcases List.mem_cons.1 hx with rfl | h
  · exact h1
  · exact h2 x h

theorem Blocks.length {c : Nat} : ∀ {bs : List (List Byte)}, Blocks c bs →
    bs.flatten.length = bs.length * c
  | [], _ => by simp
  | b :: bs, h => by
    obtain ⟨h1, h2⟩ := h.cons
    rw [List.flatten_cons, List.length_append, h1, h2.length, List.length_cons]
    ring

theorem Blocks.take {c : Nat} {bs : List (List Byte)} (h : Blocks c bs) (n : Nat) :
    Blocks c (bs.take n) := fun b hb => h b (List.mem_of_mem_take hb)
theorem Blocks.drop {c : Nat} {bs : List (List Byte)} (h : Blocks c bs) (n : Nat) :
    Blocks c (bs.drop n) := fun b hb => h b (List.mem_of_mem_drop hb)
theorem Blocks.append {c : Nat} {as bs : List (List Byte)} (h1 : Blocks c as) (h2 : Blocks c bs) :
    Blocks c (as ++ bs) := by
  intro b hb
  rcases List.mem_append.1 hb with h | h
  · exact h1 b h
  · exact h2 b h
theorem Blocks.map {c : Nat} {bs : List (List Byte)} (h : Blocks c bs) {F : List Byte → List Byte}
    (hF : ∀ b, b.length = c → (F b).length = c) : Blocks c (bs.map F) := by
  intro b hb
  obtain ⟨a, ha, rfl⟩ := List.mem_map.1 hb
  exact hF a (h a ha)

theorem pieces_flatten {c : Nat} : ∀ {bs : List (List Byte)} (rest : List Byte), Blocks c bs →
    pieces c bs.length (bs.flatten ++ rest) = bs
  | [], _, _ => rfl
  | b :: bs, rest, h => by
    obtain ⟨h1, h2⟩ := h.cons
    subst h1
    rw [List.length_cons, pieces, List.flatten_cons, List.append_assoc, List.take_left, List.drop_left,
      pieces_flatten rest h2]

theorem pieces_blocks {c : Nat} : ∀ (n : Nat) (l : List Byte), n * c ≤ l.length →
    Blocks c (pieces c n l) ∧ (pieces c n l).flatten = l.take (n * c) ∧ (pieces c n l).length = n
  | 0, l, _ => by simp [pieces, Blocks]
  | n + 1, l, h => by
    rw [Nat.succ_mul] at h
    obtain ⟨h1, h2, h3⟩ := pieces_blocks (c := c) n (l.drop c) (by rw [List.length_drop]; omega)
    refine ⟨Blocks.mk (by rw [List.length_take]; omega) h1, ?_, by rw [pieces, List.length_cons, h3]⟩
    rw [pieces, List.flatten_cons, h2, Nat.succ_mul, Nat.add_comm, List.take_add]

/-- A string of whole blocks is a concatenation of blocks. -/
theorem exists_blocks {c : Nat} {l : List Byte} (h : c ∣ l.length) :
    ∃ bs, Blocks c bs ∧ bs.flatten = l := by
  obtain ⟨n, hn⟩ := h
  have hn' : n * c = l.length := by rw [hn, Nat.mul_comm]
  obtain ⟨h1, h2, -⟩ := pieces_blocks (c := c) n l (by omega)
  exact ⟨_, h1, by rw [h2, hn', List.take_length]⟩

theorem ecb_flatten {c : Nat} (hc : 0 < c) {F : List Byte → List Byte} {bs : List (List Byte)}
    (h : Blocks c bs) : ecb F c bs.flatten = (bs.map F).flatten := by
  unfold ecb
  have h1 := pieces_flatten [] h
  rw [List.append_nil] at h1
  rw [h.length, Nat.mul_div_cancel _ hc, h1]

theorem ecb_length {c : Nat} (hc : 0 < c) {F : List Byte → List Byte}
    (hF : ∀ b, b.length = c → (F b).length = c) {bs : List (List Byte)} (h : Blocks c bs) :
    (ecb F c bs.flatten).length = bs.length * c := by
  rw [ecb_flatten hc h, (h.map hF).length, List.length_map]

theorem mxor_eq (a b : List Byte) : mxor a b = xorB a b := rfl

theorem xorB_length (a b : List Byte) : (xorB a b).length = min a.length b.length := by
  simp [xorB]

theorem xorB_comm : ∀ a b : List Byte, xorB a b = xorB b a
  | [], b => by simp [xorB]
  | a :: as, [] => by simp [xorB]
  | a :: as, b :: bs => by
    have := xorB_comm as bs
    simp only [xorB, List.zipWith_cons_cons] at this ⊢
    rw [BitVec.xor_comm, this]

theorem xorB_append {a b : List Byte} (c d : List Byte) (h : a.length = b.length) :
    xorB (a ++ c) (b ++ d) = xorB a b ++ xorB c d := by
  unfold xorB
  rw [List.zipWith_append h]

theorem xorB_cancel : ∀ {a b : List Byte}, a.length ≤ b.length → xorB (xorB a b) b = a
  | [], b, _ => by simp [xorB]
  | a :: as, [], h => by simp at h
  | a :: as, b :: bs, h => by
    have := xorB_cancel (a := as) (b := bs) (by simpa using h)
    simp only [xorB, List.zipWith_cons_cons] at this ⊢
    rw [this, BitVec.xor_assoc, BitVec.xor_self, BitVec.xor_zero]

theorem xorB_take_right : ∀ (a b : List Byte) (n : Nat), a.length ≤ n → xorB a (b.take n) = xorB a b
  | [], b, n, _ => by simp [xorB]
  | a :: as, [], n, _ => by simp [xorB]
  | a :: as, b :: bs, 0, h => by simp at h
  | a :: as, b :: bs, n + 1, h => by
    have := xorB_take_right as bs n (by simpa using h)
    simp only [xorB, List.take_succ_cons, List.zipWith_cons_cons] at this ⊢
    rw [this]

theorem xorB_take_left (a b : List Byte) (n : Nat) (h : b.length ≤ n) :
    xorB (a.take n) b = xorB a b := by
  rw [xorB_comm, xorB_take_right b a n h, xorB_comm]

theorem maskSize_eq {k : Nat} (hk : k < 64) {size : Nat} (hs : size < 2 ^ 64) :
    maskSize size (2 ^ k) = size / 2 ^ k * 2 ^ k := by
  unfold maskSize
  have h1 : (2 ^ k + (2 ^ 64 - 1)) % 2 ^ 64 = 2 ^ k - 1 := by
    have hp := Nat.two_pow_pos k
    have hl : 2 ^ k < 2 ^ 64 := Nat.pow_lt_pow_right (by omega) hk
    have : 2 ^ k + (2 ^ 64 - 1) = 2 ^ k - 1 + 2 ^ 64 := by omega
    rw [this, Nat.add_mod_right, Nat.mod_eq_of_lt (by omega)]
  rw [h1]
  apply Nat.eq_of_testBit_eq
  intro i
  rw [Nat.testBit_and, Nat.testBit_xor, Nat.testBit_two_pow_sub_one, Nat.testBit_two_pow_sub_one,
    Nat.testBit_mul_two_pow, Nat.testBit_div_two_pow]
  by_cases h64 : i < 64
  · by_cases hik : i < k
    · simp [h64, hik]
    · have : i - k + k = i := by omega
      simp [h64, hik, this, show k ≤ i by omega]
  · have : size.testBit i = false :=
      Nat.testBit_lt_two_pow (lt_of_lt_of_le hs (Nat.pow_le_pow_right (by omega) (by omega)))
    have h3 : k ≤ i := by omega
    have h4 : i - k + k = i := by omega
    simp [this, h3, h4]

theorem maskSize_whole {k : Nat} (hk : k < 64) {size : Nat} (hs : size < 2 ^ 64)
    (hd : 2 ^ k ∣ size) : maskSize size (2 ^ k) = size := by
  rw [maskSize_eq hk hs, Nat.div_mul_cancel hd]

end Verif.Modes
