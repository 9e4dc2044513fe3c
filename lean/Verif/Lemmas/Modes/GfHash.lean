import Verif.Lemmas.Modes.GfField
/-! GHASH as a polynomial in the hash key. -/
namespace Verif.Gf
open Polynomial Verif.Modes

instance : Fact (Irreducible gcmMod) := ⟨gcm_irreducible⟩

/-- GF(2^128). -/
noncomputable abbrev K := AdjoinRoot gcmMod

/-- The polynomial whose value at the key is GHASH. -/
noncomputable def hpoly (xs : List (List Byte)) : K[X] := xs.foldl (fun p x => (p + C (q (gpoly x))) * X) 0

theorem hpoly_snoc (xs : List (List Byte)) (x : List Byte) : hpoly (xs ++ [x]) = (hpoly xs + C (q (gpoly x))) * X := by
  rw [hpoly, List.foldl_append]; rfl

theorem gpoly_zeros : ∀ n, gpoly (List.replicate n 0) = 0
  | 0 => rfl
  | n + 1 => by
    rw [List.replicate_succ, gpoly, gpoly_zeros n, mul_zero, add_zero]
    exact bpoly_zero 8

theorem hpoly_eval {H : List Byte} (hs : List (List Byte)) (hb : Blocks 16 hs) :
    (hpoly hs).eval (q (gpoly H)) = q (gpoly (ghashFrom H (List.replicate 16 0) hs)) := by
  induction hs using List.reverseRecOn with
  | nil =>
    rw [show ghashFrom H (List.replicate 16 0) [] = List.replicate 16 0 from rfl, gpoly_zeros, map_zero]
    exact eval_zero
  | append_singleton xs x ih =>
    have hx : Blocks 16 xs := fun b h => hb b (List.mem_append_left _ h)
    have hx1 : x.length = 16 := hb x (List.mem_append_right _ List.mem_cons_self)
    have hl := ghashFrom_length H xs (h := List.replicate 16 0) rfl hx
    rw [hpoly_snoc, eval_mul, eval_add, eval_C, eval_X, ih hx]
    have e : ghashFrom H (List.replicate 16 0) (xs ++ [x]) = gfMul (xorB (ghashFrom H (List.replicate 16 0) xs) x) H := by
      rw [ghashFrom, List.foldl_append]; rfl
    rw [e]
    rw [q_gfMul (by rw [xorB_length]; omega), gpoly_xorB _ _ (by omega), map_add]

theorem hpoly_coeff_zero (xs : List (List Byte)) : (hpoly xs).coeff 0 = 0 := by
  induction xs using List.reverseRecOn with
  | nil => exact coeff_zero 0
  | append_singleton xs x _ => rw [hpoly_snoc, coeff_mul_X_zero]

theorem hpoly_degree (xs : List (List Byte)) : (hpoly xs).natDegree ≤ xs.length := by
  induction xs using List.reverseRecOn with
  | nil => exact (natDegree_zero (R := K)).le
  | append_singleton xs x ih =>
    rw [hpoly_snoc, List.length_append]
    refine natDegree_mul_le.trans ?_
    have h1 := natDegree_add_le (hpoly xs) (C (q (gpoly x)))
    rw [natDegree_C] at h1
    have h2 : (X : K[X]).natDegree ≤ 1 := natDegree_X_le
    simp only [List.length_singleton]
    omega

theorem hpoly_last {xs ys : List (List Byte)} {x y : List Byte} {t : K} (h : hpoly (xs ++ [x]) = hpoly (ys ++ [y]) + C t) :
    t = 0 ∧ q (gpoly x) = q (gpoly y) ∧ hpoly xs = hpoly ys := by
  have ht : t = 0 := by
    have := congrArg (fun p => coeff p 0) h
    simpa [hpoly_coeff_zero] using this.symm
  rw [ht, C_0, add_zero, hpoly_snoc, hpoly_snoc] at h
  have h1 := mul_right_cancel₀ X_ne_zero h
  have h2 : q (gpoly x) = q (gpoly y) := by
    have := congrArg (fun p => coeff p 0) h1
    simpa [hpoly_coeff_zero] using this
  rw [h2] at h1
  exact ⟨ht, h2, add_right_cancel h1⟩

theorem hpoly_inj : ∀ (n : Nat) {xs ys : List (List Byte)}, xs.length = n → ys.length = n → Blocks 16 xs → Blocks 16 ys → hpoly xs = hpoly ys → xs = ys
  | 0, xs, ys, h1, h2, _, _, _ => by
    rw [List.length_eq_zero_iff] at h1 h2
    rw [h1, h2]
  | n + 1, xs, ys, h1, h2, b1, b2, h => by
    rcases List.eq_nil_or_concat' xs with rfl | ⟨xs, x, rfl⟩
    · simp at h1
    rcases List.eq_nil_or_concat' ys with rfl | ⟨ys, y, rfl⟩
    · simp at h2
    have h' : hpoly (xs ++ [x]) = hpoly (ys ++ [y]) + C 0 := by rw [C_0, add_zero, h]
    obtain ⟨-, e1, e2⟩ := hpoly_last h'
    rw [eq_of_q (b1 x (by simp)) (b2 y (by simp)) e1,
      hpoly_inj n (by simpa using h1) (by simpa using h2) (fun b hb => b1 b (by simp [hb])) (fun b hb => b2 b (by simp [hb])) e2]

/-- The keys for which a polynomial has the value 0 are at most as many as its degree. -/
theorem keys_card {p : K[X]} (h0 : p ≠ 0) {n : Nat} (hn : p.natDegree ≤ n) {S : Set (List Byte)}
    (hS : ∀ H ∈ S, H.length = 16 ∧ p.eval (q (gpoly H)) = 0) : S.Finite ∧ S.ncard ≤ n := by
  classical
  have hi : Set.InjOn (fun H => q (gpoly H)) S := fun a ha b hb h => eq_of_q (hS a ha).1 (hS b hb).1 h
  have hm : ∀ H ∈ S, q (gpoly H) ∈ (p.roots.toFinset : Set K) := fun H hH => by
    simp only [Finset.mem_coe, Multiset.mem_toFinset, mem_roots h0]
    exact (hS H hH).2
  have hf : S.Finite := Set.Finite.of_injOn hm hi (Finset.finite_toSet _)
  refine ⟨hf, ?_⟩
  calc S.ncard ≤ (p.roots.toFinset : Set K).ncard := Set.ncard_le_ncard_of_injOn _ hm hi (Finset.finite_toSet _)
    _ = p.roots.toFinset.card := Set.ncard_coe_finset _
    _ ≤ Multiset.card p.roots := Multiset.toFinset_card_le _
    _ ≤ p.natDegree := card_roots' p
    _ ≤ n := hn

end Verif.Gf
