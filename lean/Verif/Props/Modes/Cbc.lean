import Verif.Lemmas.Modes.Cbc
import Verif.Lemmas.MemXor
import Verif.Spec.MemXor
/-!
# C23: CBC
-/
namespace Verif.Modes

open Verif.MemXor Verif.MemXor.Spec in
/-- The modes call `cry_memxor2` only with sources that start at or before the destination, or behind
its end (in place: equal or one block before; otherwise disjoint).  Then it is the pointwise xor and needs
no scratch memory, whatever the addresses are. -/
theorem memxor2_placement (allocs : List (Option Nat)) (m : Mem) (dst src1 src2 n : Nat)
    (h1 : src1 ≤ dst ∨ dst + n ≤ src1) (h2 : src2 ≤ dst ∨ dst + n ≤ src2) :
    XorInto m (memxor2 allocs m dst src1 src2 n) dst src1 src2 n (fun _ => False) := by
  have key : ∀ s1 s2, s1 ≤ s2 → (s1 ≤ dst ∨ dst + n ≤ s1) → (s2 ≤ dst ∨ dst + n ≤ s2) →
      XorInto m (if dst ≤ s1 ∨ (s1 + n ≤ dst ∧ dst ≤ s2) then fwd2 m dst s1 s2 n
        else bwd2 m dst s1 s2 n) dst s1 s2 n (fun _ => False) := by
    intro s1 s2 hle k1 k2
    split
    · obtain ⟨a, b⟩ := fwd2_spec m dst s1 s2 n (by omega) (by omega) n le_rfl
      exact ⟨a, fun x hx _ => b x hx⟩
    · obtain ⟨a, b⟩ := bwd2_spec dst s1 s2 n k1 k2 n le_rfl m
      exact ⟨a, fun x hx _ => b x hx⟩
  unfold memxor2
  by_cases h : src2 < src1
  · simp only [if_pos h]
    have := key src2 src1 (by omega) h2 h1
    split_ifs at this ⊢ with a b
    · exact ⟨fun i hi => by rw [this.1 i hi, BitVec.xor_comm], this.2⟩
    · exact ⟨fun i hi => by rw [this.1 i hi, BitVec.xor_comm], this.2⟩
    all_goals omega
  · simp only [if_neg h]
    have := key src1 src2 (by omega) h1 h2
    split_ifs at this ⊢ with a b
    · exact this
    · exact this
    all_goals omega

variable {E D : List Byte → List Byte}

theorem cbcEncrypt_blocks {k : Nat} (hk : k ≤ 4)
    (hE : ∀ b, b.length = 2 ^ k → (E b).length = 2 ^ k) {bs : List (List Byte)} {iv : List Byte}
    (hiv : iv.length = 2 ^ k) (h : Blocks (2 ^ k) bs) (hlen : bs.flatten.length < 2 ^ 64) :
    cbcEncrypt E (2 ^ k) iv bs.flatten =
      some ((cbcEnc E iv bs).flatten, (cbcEnc E iv bs).getLastD iv) := by
  have hc := Nat.two_pow_pos k
  have hm : maskSize bs.flatten.length (2 ^ k) = bs.length * 2 ^ k := by
    rw [maskSize_whole (by omega) hlen (by rw [h.length]; exact Dvd.intro_left _ rfl), h.length]
  unfold cbcEncrypt
  rw [hm]
  exact cbcEncLoop_spec hc hE bs _ iv hiv h (Nat.le_mul_of_pos_right _ hc)

theorem cbcDecryptIn_blocks {k : Nat} (hk : k ≤ 4)
    (hD : ∀ b, b.length = 2 ^ k → (D b).length = 2 ^ k) (alloc : Bool) {bs : List (List Byte)}
    {iv : List Byte} (hiv : iv.length = 2 ^ k) (h : Blocks (2 ^ k) bs) (hne : bs ≠ [])
    (hlen : bs.flatten.length < 2 ^ 64) :
    cbcDecryptIn D (2 ^ k) alloc iv bs.flatten =
      some ((cbcDec D iv bs).flatten, bs.getLastD iv) := by
  have hc := Nat.two_pow_pos k
  have hm : maskSize bs.flatten.length (2 ^ k) = bs.length * 2 ^ k := by
    rw [maskSize_whole (by omega) hlen (by rw [h.length]; exact Dvd.intro_left _ rfl), h.length]
  have hdvd : ∀ n, 4 ≤ n → 2 ^ k ∣ 2 ^ n := fun n hn => pow_dvd_pow 2 (by omega)
  have hbl : 0 < bs.length := List.length_pos_iff.2 hne
  obtain ⟨q, hq0, hq⟩ : ∃ q, 0 < q ∧
      (if alloc then min (bs.length * 2 ^ k) 512 else 16) = q * 2 ^ k := by
    obtain ⟨x, hx⟩ := hdvd 4 le_rfl
    obtain ⟨y, hy⟩ := hdvd 9 (by omega)
    have hx0 : 0 < x := by
      rcases Nat.eq_zero_or_pos x with rfl | h
      · simp at hx
      · exact h
    have hy0 : 0 < y := by
      rcases Nat.eq_zero_or_pos y with rfl | h
      · simp at hy
      · exact h
    cases alloc with
    | true =>
      refine ⟨min bs.length y, by omega, ?_⟩
      have hy' : (512 : Nat) = y * 2 ^ k := by rw [Nat.mul_comm]; exact hy
      simp only [if_true]
      rw [hy', Nat.mul_min_mul_right]
    | false => exact ⟨x, hx0, by simp only [Bool.false_eq_true, if_false]; rw [Nat.mul_comm]; exact hx⟩
  unfold cbcDecryptIn
  rw [hm]
  dsimp only
  rw [hq, ← h.length, List.take_length]
  rw [h.length]
  exact cbcInLoop_spec hc hD hq0 _ bs iv hiv h hne (Nat.le_mul_of_pos_right _ hc)

/-- C23: for every cipher (`D` inverts `E` on blocks of `2^k ≤ 16` bytes), IV and non-empty whole-block
message, decryption returns the message and ends with the same chaining value, between buffers and in
place, whether or not the scratch buffer can be allocated. -/
theorem cbc_roundtrip_partial {k : Nat} (hk : k ≤ 4)
    (hE : ∀ b, b.length = 2 ^ k → (E b).length = 2 ^ k)
    (hDl : ∀ b, b.length = 2 ^ k → (D b).length = 2 ^ k)
    (hD : ∀ b, b.length = 2 ^ k → D (E b) = b)
    (iv msg : List Byte) (hiv : iv.length = 2 ^ k) (hlen : msg.length < 2 ^ 64)
    (hwhole : 2 ^ k ∣ msg.length) (hne : msg ≠ []) :
    ∃ y iv', cbcEncrypt E (2 ^ k) iv msg = some (y, iv') ∧ y.length = msg.length ∧
      cbcDecryptOut D (2 ^ k) iv y = some (msg, iv') ∧
      ∀ alloc, cbcDecryptIn D (2 ^ k) alloc iv y = some (msg, iv') := by
  obtain ⟨bs, hb, rfl⟩ := exists_blocks hwhole
  have hbne : bs ≠ [] := by rintro rfl; simp at hne
  obtain ⟨e1, e2⟩ := cbcEnc_blocks hE hiv hb
  have hne' : cbcEnc E iv bs ≠ [] := by
    intro e; rw [e] at e2; exact hbne (List.length_eq_zero_iff.1 e2.symm)
  have hl : (cbcEnc E iv bs).flatten.length = bs.flatten.length := by rw [e1.length, e2, hb.length]
  refine ⟨_, _, cbcEncrypt_blocks hk hE hiv hb hlen, hl, ?_, fun alloc => ?_⟩
  · rw [cbcDecryptOut_spec (by omega) hDl hiv e1 hne' (by rw [hl]; exact hlen), cbcDec_enc hE hD hiv hb]
  · rw [cbcDecryptIn_blocks hk hDl alloc hiv e1 hne' (by rw [hl]; exact hlen), cbcDec_enc hE hD hiv hb]

/-- C23: encryption computes the textbook CBC function, and so does decryption in both variants. -/
theorem cbc_standard {k : Nat} (hk : k ≤ 4)
    (hE : ∀ b, b.length = 2 ^ k → (E b).length = 2 ^ k)
    (hD : ∀ b, b.length = 2 ^ k → (D b).length = 2 ^ k)
    (iv : List Byte) (bs : List (List Byte)) (hiv : iv.length = 2 ^ k) (hb : ∀ b ∈ bs, b.length = 2 ^ k)
    (hlen : bs.flatten.length < 2 ^ 64) (hne : bs ≠ []) (alloc : Bool) :
    cbcEncrypt E (2 ^ k) iv bs.flatten =
      some ((cbcEnc E iv bs).flatten, (cbcEnc E iv bs).getLastD iv) ∧
    cbcDecryptOut D (2 ^ k) iv bs.flatten = some ((cbcDec D iv bs).flatten, bs.getLastD iv) ∧
    cbcDecryptIn D (2 ^ k) alloc iv bs.flatten = some ((cbcDec D iv bs).flatten, bs.getLastD iv) :=
  ⟨cbcEncrypt_blocks hk hE hiv hb hlen, cbcDecryptOut_spec (by omega) hD hiv hb hne hlen,
    cbcDecryptIn_blocks hk hD alloc hiv hb hne hlen⟩

/-- C23: two encryption calls on consecutive whole-block parts give the bytes and the chaining value of
one call. -/
theorem cbcEncrypt_split {k : Nat} (hk : k ≤ 4)
    (hE : ∀ b, b.length = 2 ^ k → (E b).length = 2 ^ k)
    (iv m1 m2 : List Byte) (hiv : iv.length = 2 ^ k) (hlen : (m1 ++ m2).length < 2 ^ 64)
    (h1 : 2 ^ k ∣ m1.length) (h2 : 2 ^ k ∣ m2.length) :
    ∃ y1 iv1 y2 iv2, cbcEncrypt E (2 ^ k) iv m1 = some (y1, iv1) ∧
      cbcEncrypt E (2 ^ k) iv1 m2 = some (y2, iv2) ∧
      cbcEncrypt E (2 ^ k) iv (m1 ++ m2) = some (y1 ++ y2, iv2) := by
  obtain ⟨as, ha, rfl⟩ := exists_blocks h1
  obtain ⟨bs, hb, rfl⟩ := exists_blocks h2
  rw [List.length_append] at hlen
  obtain ⟨e1, -⟩ := cbcEnc_blocks hE hiv ha
  refine ⟨_, _, _, _, cbcEncrypt_blocks hk hE hiv ha (by omega),
    cbcEncrypt_blocks hk hE (getLastD_length e1 hiv) hb (by omega), ?_⟩
  rw [← List.flatten_append, cbcEncrypt_blocks hk hE hiv (ha.append hb)
    (by rw [List.flatten_append, List.length_append]; omega), cbcEnc_append, List.flatten_append]
  congr 2
  rw [List.getLastD_eq_getLast?, List.getLastD_eq_getLast?, List.getLast?_append,
    List.getLastD_eq_getLast?]
  cases (cbcEnc E ((cbcEnc E iv as).getLast?.getD iv) bs).getLast? <;> rfl

/-- C23: likewise for decryption of non-empty parts. -/
theorem cbcDecrypt_split {k : Nat} (hk : k ≤ 4)
    (hD : ∀ b, b.length = 2 ^ k → (D b).length = 2 ^ k)
    (iv m1 m2 : List Byte) (hiv : iv.length = 2 ^ k) (hlen : (m1 ++ m2).length < 2 ^ 64)
    (h1 : 2 ^ k ∣ m1.length) (h2 : 2 ^ k ∣ m2.length) (n1 : m1 ≠ []) (n2 : m2 ≠ []) (alloc : Bool) :
    ∃ y1 iv1 y2 iv2, cbcDecryptOut D (2 ^ k) iv m1 = some (y1, iv1) ∧
      cbcDecryptOut D (2 ^ k) iv1 m2 = some (y2, iv2) ∧
      cbcDecryptOut D (2 ^ k) iv (m1 ++ m2) = some (y1 ++ y2, iv2) ∧
      cbcDecryptIn D (2 ^ k) alloc iv m1 = some (y1, iv1) ∧
      cbcDecryptIn D (2 ^ k) alloc iv1 m2 = some (y2, iv2) ∧
      cbcDecryptIn D (2 ^ k) alloc iv (m1 ++ m2) = some (y1 ++ y2, iv2) := by
  obtain ⟨as, ha, rfl⟩ := exists_blocks h1
  obtain ⟨bs, hb, rfl⟩ := exists_blocks h2
  rw [List.length_append] at hlen
  have na : as ≠ [] := by rintro rfl; simp at n1
  have nb : bs ≠ [] := by rintro rfl; simp at n2
  have hiv1 := getLastD_length ha hiv
  have nab : as ++ bs ≠ [] := by simp [na]
  have hl2 : (as ++ bs).flatten.length < 2 ^ 64 := by
    rw [List.flatten_append, List.length_append]; omega
  have hlast : (as ++ bs).getLastD iv = bs.getLastD (as.getLastD iv) := by
    rw [List.getLastD_eq_getLast?, List.getLastD_eq_getLast?, List.getLast?_append,
      List.getLastD_eq_getLast?]
    cases bs.getLast? <;> rfl
  refine ⟨_, _, _, _, cbcDecryptOut_spec (by omega) hD hiv ha na (by omega),
    cbcDecryptOut_spec (by omega) hD hiv1 hb nb (by omega), ?_,
    cbcDecryptIn_blocks hk hD alloc hiv ha na (by omega),
    cbcDecryptIn_blocks hk hD alloc hiv1 hb nb (by omega), ?_⟩
  · rw [← List.flatten_append, cbcDecryptOut_spec (by omega) hD hiv (ha.append hb) nab hl2, cbcDec_append,
      List.flatten_append, hlast]
  · rw [← List.flatten_append, cbcDecryptIn_blocks hk hD alloc hiv (ha.append hb) nab hl2, cbcDec_append,
      List.flatten_append, hlast]

/-- C23 is false for the empty message: encryption accepts it, decryption accesses memory outside the
buffers (`size - ctrlen` wraps around). -/
theorem cbc_empty_ub (k : Nat) (hk : k ≤ 4) (alloc : Bool) (iv : List Byte) :
    cbcEncrypt E (2 ^ k) iv [] = some ([], iv) ∧ cbcDecryptOut D (2 ^ k) iv [] = none ∧
    cbcDecryptIn D (2 ^ k) alloc iv [] = none := by
  have hc := Nat.two_pow_pos k
  have hm : maskSize 0 (2 ^ k) = 0 := by rw [maskSize_eq (by omega) (by omega)]; simp
  refine ⟨?_, ?_, ?_⟩
  · simp [cbcEncrypt, hm, cbcEncLoop]
  · simp [cbcDecryptOut, hm]
  · unfold cbcDecryptIn
    simp only [List.length_nil, hm]
    rw [cbcInLoop]
    simp

-- a concrete cipher on 8-byte blocks: add the position and reverse
section
def toyE (b : List Byte) : List Byte := (b.map (· + 3)).reverse
def toyD (b : List Byte) : List Byte := b.reverse.map (· - 3)
example : ∀ b, b.length = 2 ^ 3 → (toyE b).length = 2 ^ 3 := by simp [toyE]
example : ∀ b, b.length = 2 ^ 3 → (toyD b).length = 2 ^ 3 := by simp [toyD]
theorem toy_inv (b : List Byte) : toyD (toyE b) = b := by
  simp [toyD, toyE, Function.comp_def, BitVec.add_sub_cancel]
example : cbcEncrypt toyE 8 [1, 2, 3, 4, 5, 6, 7, 8] [0, 0, 0, 0, 0, 0, 0, 9] =
    some ([4, 10, 9, 8, 7, 6, 5, 4], [4, 10, 9, 8, 7, 6, 5, 4]) := by decide +kernel
example : cbcDecryptIn toyD 8 false [1, 2, 3, 4, 5, 6, 7, 8] [4, 10, 9, 8, 7, 6, 5, 4] =
    some ([0, 0, 0, 0, 0, 0, 0, 9], [4, 10, 9, 8, 7, 6, 5, 4]) := by decide +kernel
end

end Verif.Modes
