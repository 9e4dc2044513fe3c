import Verif.Model.Crypt.Hill
import Mathlib.Data.BitVec
import Mathlib.LinearAlgebra.Matrix.Determinant.Basic
import Mathlib.LinearAlgebra.Matrix.Adjugate
import Mathlib.LinearAlgebra.Matrix.NonsingularInverse
import Mathlib.Tactic.Ring
/-! The Hill cipher: the list operations as operations on matrices over the ring of bytes. -/
namespace Verif.Hill

/-! ### Numbers -/

theorem norm_eq (x : Int) : norm x = x % 256 := by
  unfold norm
  dsimp only
  rcases le_or_gt 0 x with h | h
  · rw [Int.tmod_eq_emod_of_nonneg h, if_neg (by omega)]
  · obtain ⟨y, rfl⟩ : ∃ y, x = -y := ⟨-x, by simp⟩
    rw [Int.neg_tmod, Int.tmod_eq_emod_of_nonneg (by omega)]
    split_ifs <;> omega

theorem ofInt_norm (x : Int) : BitVec.ofInt 8 (norm x) = BitVec.ofInt 8 x := by
  apply BitVec.eq_of_toNat_eq
  rw [norm_eq, BitVec.toNat_ofInt, BitVec.toNat_ofInt]
  norm_num

theorem ofInt_nat (b : Byte) : BitVec.ofInt 8 (b.toNat : Int) = b := by
  rw [BitVec.ofInt_natCast, BitVec.ofNat_toNat, BitVec.setWidth_eq]

theorem ofInt_sub (a b : Int) : BitVec.ofInt 8 (a - b) = BitVec.ofInt 8 a - BitVec.ofInt 8 b := by
  rw [sub_eq_add_neg, BitVec.ofInt_add, BitVec.ofInt_neg, BitVec.sub_eq_add_neg]

/-! ### Lists as matrices -/

/-- The matrix of a list. -/
def mat (n : Nat) (m : List Byte) : Matrix (Fin n) (Fin n) Byte := fun i j => m.getD (i * n + j) 0

/-- A list by rows. -/
def rows (a b : Nat) (f : Nat → Nat → Byte) : List Byte := (List.range a).flatMap fun i => (List.range b).map (f i)

theorem rows_succ (a b : Nat) (f : Nat → Nat → Byte) :
    rows (a + 1) b f = rows a b f ++ (List.range b).map (f a) := by
  simp [rows, List.range_succ, List.flatMap_append]

theorem rows_length (a b : Nat) (f : Nat → Nat → Byte) : (rows a b f).length = a * b := by
  induction a with
  | zero => simp [rows]
  | succ a ih => rw [rows_succ, List.length_append, ih, List.length_map, List.length_range]; ring

theorem rows_getD (b : Nat) (f : Nat → Nat → Byte) : ∀ a i j, i < a → j < b → (rows a b f).getD (i * b + j) 0 = f i j := by
  intro a
  induction a with
  | zero => intro i j h; omega
  | succ a ih =>
    intro i j hi hj
    rw [rows_succ]
    by_cases h : i < a
    · have hlt : i * b + j < (rows a b f).length := by
        rw [rows_length]
        have : (i + 1) * b ≤ a * b := Nat.mul_le_mul_right _ h
        rw [Nat.add_mul] at this; omega
      rw [← ih i j h hj, List.getD_eq_getElem?_getD, List.getD_eq_getElem?_getD, List.getElem?_append_left hlt]
    · have hia : i = a := by omega
      subst hia
      rw [List.getD_eq_getElem?_getD, List.getElem?_append_right (by rw [rows_length]; omega), rows_length,
        Nat.add_sub_cancel_left, List.getElem?_map, List.getElem?_range hj]
      rfl

theorem mat_rows (n : Nat) (f : Nat → Nat → Byte) : mat n (rows n n f) = fun (i j : Fin n) => f i j := by
  funext i j
  exact rows_getD n f n i j i.isLt j.isLt

/-- All rows but one. -/
def skip (i k : Nat) : Nat := if k < i then k else k + 1

theorem filter_range : ∀ (n i : Nat), i ≤ n → (List.range (n + 1)).filter (· ≠ i) = (List.range n).map (skip i) := by
  intro n
  induction n with
  | zero =>
    intro i hi
    have : i = 0 := by omega
    subst this
    rfl
  | succ n ih =>
    intro i hi
    rw [List.range_succ, List.filter_append]
    by_cases h : i = n + 1
    · subst h
      have h1 : (List.range (n + 1)).filter (· ≠ n + 1) = List.range (n + 1) := by
        rw [List.filter_eq_self]
        intro a ha
        have := List.mem_range.mp ha
        simp; omega
      have h2 : (List.range (n + 1)).map (skip (n + 1)) = List.range (n + 1) := by
        conv_rhs => rw [← List.map_id (List.range (n + 1))]
        apply List.map_congr_left
        intro a ha
        have := List.mem_range.mp ha
        rw [skip, if_pos this]; rfl
      rw [h1, h2]; simp
    · rw [ih i (by omega)]
      have h3 : ([n + 1].filter (· ≠ i)) = [n + 1] := by
        rw [List.filter_eq_self]
        intro a ha
        have := List.mem_singleton.mp ha
        simp; omega
      rw [h3, List.range_succ (n := n), List.map_append, List.map_singleton, skip, if_neg (by omega)]

theorem skip_succAbove {n : Nat} (i : Fin (n + 1)) (k : Fin n) : skip i k = (i.succAbove k : Fin (n + 1)) := by
  rw [skip, Fin.succAbove]
  by_cases h : (k : Nat) < i
  · rw [if_pos h, if_pos (by exact h)]; rfl
  · rw [if_neg h, if_neg (by exact h)]; rfl

theorem minor_eq (m : List Byte) (i j n : Nat) (hi : i ≤ n) (hj : j ≤ n) :
    minor m i j (n + 1) = rows n n fun r c => m.getD (skip i r * (n + 1) + skip j c) 0 := by
  rw [minor, filter_range n i hi, filter_range n j hj, rows, List.flatMap_map]
  congr 1
  funext r
  rw [List.map_map]; rfl

theorem mat_minor {n : Nat} (m : List Byte) (i j : Fin (n + 1)) :
    mat n (minor m i j (n + 1)) = (mat (n + 1) m).submatrix i.succAbove j.succAbove := by
  rw [minor_eq m i j n (by omega) (by omega), mat_rows]
  funext r c
  rw [skip_succAbove, skip_succAbove]
  rfl

theorem mat_transpose (n : Nat) (m : List Byte) : mat n (transpose m n) = (mat n m).transpose := by
  have : transpose m n = rows n n fun i j => m.getD (j * n + i) 0 := rfl
  rw [this, mat_rows]; rfl

theorem foldl_norm (g : Nat → Int) (n : Nat) : ∀ d, BitVec.ofInt 8 ((List.range n).foldl (fun d i => norm (d + g i)) d) =
    BitVec.ofInt 8 d + ∑ i : Fin n, BitVec.ofInt 8 (g i) := by
  induction n with
  | zero => intro d; simp
  | succ n ih =>
    intro d
    rw [List.range_succ, List.foldl_append, List.foldl_cons, List.foldl_nil, ofInt_norm, BitVec.ofInt_add, ih,
      Fin.sum_univ_castSucc, add_assoc]
    rfl

theorem sign_pow (i : Nat) : BitVec.ofInt 8 (if i &&& 1 ≠ 0 then -1 else 1) = (-1 : Byte) ^ i := by
  rw [Nat.and_one_is_mod]
  rcases Nat.mod_two_eq_zero_or_one i with h | h
  · rw [h, if_neg (by simp), Even.neg_one_pow (Nat.even_iff.mpr h)]; rfl
  · rw [h, if_pos (by simp), Odd.neg_one_pow (Nat.odd_iff.mpr h)]; rfl

theorem det_eq : ∀ (n : Nat) (m : List Byte), det m n = (mat n m).det := by
  intro n
  induction n with
  | zero => intro m; rw [Matrix.det_fin_zero]; rfl
  | succ n ih =>
    intro m
    match n, ih with
    | 0, _ => rw [Matrix.det_fin_one]; rfl
    | 1, _ =>
      rw [Matrix.det_fin_two, show det m 2 = BitVec.ofInt 8 (norm ((m.getD 0 0).toNat * (m.getD 3 0).toNat -
        (m.getD 1 0).toNat * (m.getD 2 0).toNat)) from rfl, ofInt_norm, ofInt_sub, BitVec.ofInt_mul, BitVec.ofInt_mul,
        ofInt_nat, ofInt_nat, ofInt_nat, ofInt_nat]
      rfl
    | n + 2, ih =>
      rw [Matrix.det_succ_row_zero, show det m (n + 3) = BitVec.ofInt 8 ((List.range (n + 3)).foldl (fun d i =>
        norm (d + (m.getD i 0).toNat * (if i &&& 1 ≠ 0 then -1 else 1) * (det (minor m 0 i (n + 3)) (n + 2)).toNat)) 0) from rfl,
        foldl_norm (fun i => (m.getD i 0).toNat * (if i &&& 1 ≠ 0 then -1 else 1) * (det (minor m 0 i (n + 3)) (n + 2)).toNat)]
      rw [show BitVec.ofInt 8 0 = (0 : Byte) from rfl, zero_add]
      apply Finset.sum_congr rfl
      intro j _
      have hm := mat_minor m 0 j
      rw [BitVec.ofInt_mul, BitVec.ofInt_mul, ofInt_nat, ofInt_nat, sign_pow, ih, show minor m 0 (j : Nat) (n + 3) =
        minor m ((0 : Fin (n + 3)) : Nat) j (n + 2 + 1) from rfl, hm]
      have h0 : mat (n + 2 + 1) m 0 j = m.getD j 0 := by
        show m.getD (0 * (n + 2 + 1) + j) 0 = _
        rw [Nat.zero_mul, Nat.zero_add]
      rw [h0, mul_comm (m.getD (j : Nat) 0)]
      congr 2

theorem mat_invert (n : Nat) (m : List Byte) (idet : Byte) : mat n (invert m n idet) = idet • (mat n m).adjugate := by
  have h : invert m n idet = rows n n fun i j => BitVec.ofInt 8 (norm
      ((if (i + j) &&& 1 ≠ 0 then -((det (minor (transpose m n) i j n) (n - 1)).toNat : Int)
        else ((det (minor (transpose m n) i j n) (n - 1)).toNat : Int)) * idet.toNat)) := rfl
  rw [h, mat_rows]
  cases n with
  | zero => funext i; exact i.elim0
  | succ n =>
    funext i j
    rw [Matrix.smul_apply, Matrix.adjugate_fin_succ_eq_det_submatrix, Nat.add_sub_cancel, ofInt_norm, BitVec.ofInt_mul, ofInt_nat]
    have hd : det (minor (transpose m (n + 1)) i j (n + 1)) n = ((mat (n + 1) m).submatrix j.succAbove i.succAbove).det := by
      rw [det_eq, mat_minor, mat_transpose, ← Matrix.det_transpose]
      rfl
    rw [hd]
    generalize ((mat (n + 1) m).submatrix j.succAbove i.succAbove).det = D
    have hs : BitVec.ofInt 8 (if ((i : Nat) + j) &&& 1 ≠ 0 then -(D.toNat : Int) else (D.toNat : Int)) =
        (-1 : Byte) ^ ((i : Nat) + j) * D := by
      rw [← sign_pow]
      split_ifs
      · rw [BitVec.ofInt_neg, ofInt_nat, show BitVec.ofInt 8 (-1) = (-1 : Byte) from rfl, neg_one_mul]
      · rw [ofInt_nat, show BitVec.ofInt 8 1 = (1 : Byte) from rfl, one_mul]
    rw [hs, smul_eq_mul, add_comm (i : Nat), mul_comm]

/-- The vector of a list. -/
def vec (n : Nat) (v : List Byte) : Fin n → Byte := fun i => v.getD i 0

theorem vecMul_length (m v : List Byte) (n : Nat) : (vecMul m v n).length = n := by simp [vecMul]

theorem foldl_sum (g : Nat → Int) (n : Nat) : ∀ d, BitVec.ofInt 8 ((List.range n).foldl (fun d i => d + g i) d) =
    BitVec.ofInt 8 d + ∑ i : Fin n, BitVec.ofInt 8 (g i) := by
  induction n with
  | zero => intro d; simp
  | succ n ih =>
    intro d
    rw [List.range_succ, List.foldl_append, List.foldl_cons, List.foldl_nil, BitVec.ofInt_add, ih,
      Fin.sum_univ_castSucc, add_assoc]
    rfl

theorem vec_vecMul (m v : List Byte) (n : Nat) : vec n (vecMul m v n) = (mat n m).mulVec (vec n v) := by
  funext i
  rw [vec, vecMul, List.getD_eq_getElem?_getD, List.getElem?_map, List.getElem?_range i.isLt, Option.map_some,
    Option.getD_some, ofInt_norm, foldl_sum (fun j => (m.getD (i * n + j) 0).toNat * (v.getD j 0).toNat),
    show BitVec.ofInt 8 0 = (0 : Byte) from rfl, zero_add, Matrix.mulVec, dotProduct]
  apply Finset.sum_congr rfl
  intro j _
  rw [BitVec.ofInt_mul, ofInt_nat, ofInt_nat]
  rfl

theorem vec_inj {n : Nat} {u v : List Byte} (hu : u.length = n) (hv : v.length = n) (h : vec n u = vec n v) : u = v := by
  apply List.ext_getElem (by rw [hu, hv])
  intro k h1 h2
  have := congrFun h ⟨k, by omega⟩
  simp only [vec, List.getD_eq_getElem?_getD, List.getElem?_eq_getElem h1, List.getElem?_eq_getElem h2,
    Option.getD_some] at this
  exact this

end Verif.Hill
