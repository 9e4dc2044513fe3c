import Verif.Lemmas.Modes.GfHash
import Verif.Lemmas.Modes.Errors
import Mathlib.Data.Set.Finite.List
/-!
# C28 (inverses) and C112 (tags of different messages)

C112, the full statement: for a hash key not known, tags of different messages are unrelated: under all but a few of the 2^128 hash keys the tags of two given
messages do not differ by a given amount, the few being at most the blocks hashed.  True below 2^29 bytes; the sizes hashed are cut to 32 bits, and from there on
zeros in front are not noticed.
-/
namespace Verif.Modes
open Polynomial Verif.Gf

/-- C28: the polynomial is irreducible, so that there are no divisors of zero. -/
theorem gfMul_eq_zero {x y : List Byte} (hx : x.length = 16) (hy : y.length = 16) :
    gfMul x y = List.replicate 16 0 ↔ x = List.replicate 16 0 ∨ y = List.replicate 16 0 := by
  have h0 : ∀ {x : List Byte}, x.length = 16 → (x = List.replicate 16 0 ↔ q (gpoly x) = 0) := fun hx =>
    ⟨fun h => by rw [h, gpoly_zeros, map_zero], fun h => eq_of_q hx rfl (by rw [h, gpoly_zeros, map_zero])⟩
  rw [h0 (gfMul_length hx y), h0 hx, h0 hy, q_gfMul hx, mul_eq_zero]

/-- C28: every block but zero has an inverse. -/
theorem gfMul_inverse {x : List Byte} (hx : x.length = 16) (h : x ≠ List.replicate 16 0) :
    ∃ y, y.length = 16 ∧ gfMul x y = 128 :: List.replicate 15 0 := by
  have hne : q (gpoly x) ≠ 0 := fun h0 => h (eq_of_q hx rfl (by rw [h0, gpoly_zeros, map_zero]))
  have : Finite Byte := Finite.of_injective (fun b : Byte => b.toFin) fun a b h => congrArg BitVec.ofFin h
  have hf : {l : List Byte | l.length = 16}.Finite := List.finite_length_eq _ 16
  have hm : Set.MapsTo (gfMul x) {l : List Byte | l.length = 16} {l : List Byte | l.length = 16} := fun y _ => gfMul_length hx y
  have hi : Set.InjOn (gfMul x) {l : List Byte | l.length = 16} := fun a ha b hb hab => by
    have := congrArg (fun l => q (gpoly l)) hab
    simp only [q_gfMul hx] at this
    exact eq_of_q ha hb (mul_left_cancel₀ hne this)
  obtain ⟨y, hy, hxy⟩ := ((hf.injOn_iff_bijOn_of_mapsTo hm).1 hi).surjOn (show (128 :: List.replicate 15 0 : List Byte) ∈ _ from rfl)
  exact ⟨y, hy, hxy⟩

variable {E : List Byte → List Byte}

/-- What the receiver computes: `cry_gcm_iv_set`, `cry_gcm_update`, `cry_gcm_decrypt`, `cry_gcm_digest`, in a context with the hash key `H`. -/
def gcmTag (E : List Byte → List Byte) (H iv aad ct : List Byte) (size : Nat) : Option (List Byte × Gcm) :=
  gcmDigest E (gcmDecrypt E false (gcmUpdate (gcmIvSet { gcmKeySet E with key := H } iv) aad) ct).2 size

/-- The blocks hashed. -/
def gcmBlocks (aad ct : List Byte) : List (List Byte) :=
  (cut16 (pad16 aad) ++ cut16 (pad16 ct)) ++ [encodeBE 8 (8 * aad.length) ++ encodeBE 8 (8 * ct.length)]

theorem cut16_pad_flatten (l : List Byte) : (cut16 (pad16 l)).flatten = pad16 l := by
  obtain ⟨bs, hb, h⟩ := exists_blocks (pad16_dvd l)
  have := cut16_flatten [] hb
  rw [List.append_nil, cut16_nil, List.append_nil] at this
  rw [← h, this]

theorem cut16_pad_blocks (l : List Byte) : Blocks 16 (cut16 (pad16 l)) := (cut16_dvd (pad16_dvd l) []).2

theorem cut16_pad_length (l : List Byte) : (cut16 (pad16 l)).length = (l.length + 15) / 16 := by
  rw [cut16, List.length_map, List.length_range, pad16, List.length_append, List.length_replicate]
  omega

theorem gcmBlocks_blocks (aad ct : List Byte) : Blocks 16 (gcmBlocks aad ct) := by
  intro b hb
  simp only [gcmBlocks, List.mem_append, List.mem_singleton] at hb
  rcases hb with (h | h) | rfl
  · exact cut16_pad_blocks _ b h
  · exact cut16_pad_blocks _ b h
  · rw [List.length_append, encodeBE_length, encodeBE_length]

theorem gcmBlocks_length (aad ct : List Byte) : (gcmBlocks aad ct).length = (aad.length + 15) / 16 + (ct.length + 15) / 16 + 1 := by
  rw [gcmBlocks, List.length_append, List.length_append, cut16_pad_length, cut16_pad_length]; rfl

theorem gcmTag_eq {H iv : List Byte} (hiv : iv.length = 12) (aad ct : List Byte) (ha : 8 * aad.length < 2 ^ 32) (hc : 8 * ct.length < 2 ^ 32) {s : Nat}
    (hs : s ≤ 16) : ∃ g, gcmTag E H iv aad ct s =
      some (xorB ((ghashFrom H (List.replicate 16 0) (gcmBlocks aad ct)).take s) (E (iv ++ [0, 0, 0, 1])), g) := by
  have z : (List.replicate 16 (0 : Byte)).length = 16 := rfl
  have h1 := gcmHash_length H aad z
  have h2 := gcmHash_length H ct h1
  have e : gcmHashSizes (gcmHash (gcmHash (List.replicate 16 0) H aad) H ct) H (BitVec.ofNat 64 aad.length) (BitVec.ofNat 64 ct.length) =
      ghashFrom H (List.replicate 16 0) (gcmBlocks aad ct) := by
    have el : cut16 (encodeBE 8 (8 * aad.length) ++ encodeBE 8 (8 * ct.length)) = [encodeBE 8 (8 * aad.length) ++ encodeBE 8 (8 * ct.length)] := by
      have := cut16_append (a := encodeBE 8 (8 * aad.length) ++ encodeBE 8 (8 * ct.length)) (by rw [List.length_append, encodeBE_length, encodeBE_length]) []
      rwa [List.append_nil, cut16_nil] at this
    rw [gcmHashSizes_spec H h2 _ _ ha hc, gcmHash_spec H ct h1, gcmHash_spec H aad z, el]
    unfold ghashFrom gcmBlocks
    rw [List.foldl_append, List.foldl_append]
  unfold gcmTag gcmDigest
  rw [if_neg (by omega)]
  have e0 : ∀ n, (0 : BitVec 64) + BitVec.ofNat 64 n = BitVec.ofNat 64 n := fun n => BitVec.zero_add _
  simp only [gcmDecrypt, gcmUpdate, gcmIvSet, e0, mxor_eq, e, if_pos hiv]
  exact ⟨_, rfl⟩

theorem gcmBlocks_inj {a c a' c' : List Byte} (ha : 8 * a.length < 2 ^ 32) (hc : 8 * c.length < 2 ^ 32) (ha' : 8 * a'.length < 2 ^ 32)
    (hc' : 8 * c'.length < 2 ^ 32) {t : K} (h : hpoly (gcmBlocks a c) = hpoly (gcmBlocks a' c') + C t) : a = a' ∧ c = c' := by
  obtain ⟨-, h1, h2⟩ := hpoly_last h
  have hl : ∀ a c : List Byte, (encodeBE 8 (8 * a.length) ++ encodeBE 8 (8 * c.length)).length = 16 := fun a c => by
    rw [List.length_append, encodeBE_length, encodeBE_length]
  have h3 := eq_of_q (hl a c) (hl a' c') h1
  obtain ⟨h4, h5⟩ := List.append_inj h3 (by rw [encodeBE_length, encodeBE_length])
  have inj : ∀ {x y : Nat}, x < 2 ^ 32 → y < 2 ^ 32 → encodeBE 8 x = encodeBE 8 y → x = y := fun hx hy h => by
    have := congrArg beVal h
    rwa [beVal_encodeBE, beVal_encodeBE, Nat.mod_eq_of_lt (by omega), Nat.mod_eq_of_lt (by omega)] at this
  have la := inj ha ha' h4
  have lc := inj hc hc' h5
  have h6 := hpoly_inj _ rfl (by rw [List.length_append, List.length_append, cut16_pad_length, cut16_pad_length, cut16_pad_length, cut16_pad_length]; omega)
    (fun b hb => (List.mem_append.1 hb).elim (cut16_pad_blocks _ b) (cut16_pad_blocks _ b))
    (fun b hb => (List.mem_append.1 hb).elim (cut16_pad_blocks _ b) (cut16_pad_blocks _ b)) h2
  obtain ⟨h7, h8⟩ := List.append_inj h6 (by rw [cut16_pad_length, cut16_pad_length]; omega)
  have un : ∀ {x y : List Byte}, x.length = y.length → cut16 (pad16 x) = cut16 (pad16 y) → x = y := fun hxy h => by
    have := congrArg List.flatten h
    rw [cut16_pad_flatten, cut16_pad_flatten, pad16, pad16] at this
    exact (List.append_inj this hxy).1
  exact ⟨un (by omega) h7, un (by omega) h8⟩

/-- C112: two messages that are not the same, of less than 512 MB, and a difference `δ` of tags: the hash keys for which the tags differ by `δ` are no more than
the blocks hashed. -/
theorem gcm_forgery_partial (hE : ∀ b, b.length = 16 → (E b).length = 16) {iv a c a' c' : List Byte} (hiv : iv.length = 12) (ha : 8 * a.length < 2 ^ 32)
    (hc : 8 * c.length < 2 ^ 32) (ha' : 8 * a'.length < 2 ^ 32) (hc' : 8 * c'.length < 2 ^ 32) (hne : ¬ (a = a' ∧ c = c')) {δ : List Byte}
    (hδ : δ.length = 16) {n : Nat} (h1 : (a.length + 15) / 16 + (c.length + 15) / 16 + 1 ≤ n) (h2 : (a'.length + 15) / 16 + (c'.length + 15) / 16 + 1 ≤ n) :
    {H : List Byte | H.length = 16 ∧ ∃ T g g', gcmTag E H iv a c 16 = some (T, g) ∧ gcmTag E H iv a' c' 16 = some (xorB T δ, g')}.Finite ∧
    {H : List Byte | H.length = 16 ∧ ∃ T g g', gcmTag E H iv a c 16 = some (T, g) ∧ gcmTag E H iv a' c' 16 = some (xorB T δ, g')}.ncard ≤ n := by
  have hp : hpoly (gcmBlocks a c) - (hpoly (gcmBlocks a' c') + C (q (gpoly δ))) ≠ 0 := fun h =>
    hne (gcmBlocks_inj ha hc ha' hc' (sub_eq_zero.1 h))
  refine keys_card hp ?_ ?_
  · have d1 := hpoly_degree (gcmBlocks a c)
    have d2 := hpoly_degree (gcmBlocks a' c')
    rw [gcmBlocks_length] at d1 d2
    refine (natDegree_sub_le _ _).trans (max_le (by omega) ((natDegree_add_le _ _).trans (max_le (by omega) ?_)))
    rw [natDegree_C]
    omega
  · rintro H ⟨hH, T, g, g', e1, e2⟩
    refine ⟨hH, ?_⟩
    obtain ⟨g1, f1⟩ := gcmTag_eq (E := E) (H := H) hiv a c ha hc (le_refl 16)
    obtain ⟨g2, f2⟩ := gcmTag_eq (E := E) (H := H) hiv a' c' ha' hc' (le_refl 16)
    have l1 := ghashFrom_length H (gcmBlocks a c) (h := List.replicate 16 0) rfl (gcmBlocks_blocks a c)
    have l2 := ghashFrom_length H (gcmBlocks a' c') (h := List.replicate 16 0) rfl (gcmBlocks_blocks a' c')
    have lj : (E (iv ++ [0, 0, 0, 1])).length = 16 := hE _ (by rw [List.length_append, hiv]; rfl)
    rw [f1, Option.some.injEq, Prod.mk.injEq, List.take_of_length_le (by omega)] at e1
    rw [f2, Option.some.injEq, Prod.mk.injEq, List.take_of_length_le (by omega)] at e2
    have ee := congrArg (fun l => q (gpoly l)) (e2.1.trans (congrArg (fun l => xorB l δ) e1.1.symm))
    beta_reduce at ee
    rw [gpoly_xorB _ _ (by omega), gpoly_xorB _ _ (by rw [xorB_length]; omega), gpoly_xorB _ _ (by omega), map_add, map_add, map_add] at ee
    rw [eval_sub, eval_add, eval_C, hpoly_eval _ (gcmBlocks_blocks a c), hpoly_eval _ (gcmBlocks_blocks a' c')]
    have h20 : (2 : K) = 0 := by
      have := congrArg q two_poly
      rwa [map_zero, map_ofNat] at this
    linear_combination (-1 : K) * ee - q (gpoly δ) * h20

/-- C112 for tags cut to `s` bytes: each missing byte makes the keys 256 times as many. -/
theorem gcm_forgery_short_partial (hE : ∀ b, b.length = 16 → (E b).length = 16) {iv a c a' c' : List Byte} (hiv : iv.length = 12) (ha : 8 * a.length < 2 ^ 32)
    (hc : 8 * c.length < 2 ^ 32) (ha' : 8 * a'.length < 2 ^ 32) (hc' : 8 * c'.length < 2 ^ 32) (hne : ¬ (a = a' ∧ c = c')) {s : Nat} (hs : s ≤ 16)
    {δ : List Byte} (hδ : δ.length = s) {n : Nat} (h1 : (a.length + 15) / 16 + (c.length + 15) / 16 + 1 ≤ n)
    (h2 : (a'.length + 15) / 16 + (c'.length + 15) / 16 + 1 ≤ n) :
    {H : List Byte | H.length = 16 ∧ ∃ T g g', gcmTag E H iv a c s = some (T, g) ∧ gcmTag E H iv a' c' s = some (xorB T δ, g')}.Finite ∧
    {H : List Byte | H.length = 16 ∧ ∃ T g g', gcmTag E H iv a c s = some (T, g) ∧ gcmTag E H iv a' c' s = some (xorB T δ, g')}.ncard ≤ 256 ^ (16 - s) * n := by
  classical
  have hS : ∀ i, {H : List Byte | H.length = 16 ∧ ∃ T g g', gcmTag E H iv a c 16 = some (T, g) ∧
      gcmTag E H iv a' c' 16 = some (xorB T (δ ++ encodeBE (16 - s) i), g')}.Finite ∧
    {H : List Byte | H.length = 16 ∧ ∃ T g g', gcmTag E H iv a c 16 = some (T, g) ∧
      gcmTag E H iv a' c' 16 = some (xorB T (δ ++ encodeBE (16 - s) i), g')}.ncard ≤ n := fun i =>
    gcm_forgery_partial hE hiv ha hc ha' hc' hne (by rw [List.length_append, hδ, encodeBE_length]; omega) h1 h2
  have hsub : {H : List Byte | H.length = 16 ∧ ∃ T g g', gcmTag E H iv a c s = some (T, g) ∧ gcmTag E H iv a' c' s = some (xorB T δ, g')} ⊆
      ((Finset.range (256 ^ (16 - s))).biUnion fun i => (hS i).1.toFinset : Finset (List Byte)) := by
    rintro H ⟨hH, T, g, g', e1, e2⟩
    obtain ⟨g1, f1⟩ := gcmTag_eq (E := E) (H := H) hiv a c ha hc hs
    obtain ⟨g2, f2⟩ := gcmTag_eq (E := E) (H := H) hiv a' c' ha' hc' hs
    obtain ⟨g3, f3⟩ := gcmTag_eq (E := E) (H := H) hiv a c ha hc (le_refl 16)
    obtain ⟨g4, f4⟩ := gcmTag_eq (E := E) (H := H) hiv a' c' ha' hc' (le_refl 16)
    have l1 := ghashFrom_length H (gcmBlocks a c) (h := List.replicate 16 0) rfl (gcmBlocks_blocks a c)
    have l2 := ghashFrom_length H (gcmBlocks a' c') (h := List.replicate 16 0) rfl (gcmBlocks_blocks a' c')
    have lj : (E (iv ++ [0, 0, 0, 1])).length = 16 := hE _ (by rw [List.length_append, hiv]; rfl)
    rw [f1, Option.some.injEq, Prod.mk.injEq] at e1
    rw [f2, Option.some.injEq, Prod.mk.injEq] at e2
    have e3 := e2.1.trans (congrArg (fun l => xorB l δ) e1.1.symm)
    beta_reduce at e3
    rw [List.take_of_length_le (by omega)] at f3 f4
    generalize ghashFrom H (List.replicate 16 0) (gcmBlocks a c) = x at *
    generalize ghashFrom H (List.replicate 16 0) (gcmBlocks a' c') = y at *
    generalize E (iv ++ [0, 0, 0, 1]) = j at *
    have hr : (xorB (x.drop s) (y.drop s)).length = 16 - s := by rw [xorB_length, List.length_drop, List.length_drop]; omega
    have er : encodeBE (16 - s) (beVal (xorB (x.drop s) (y.drop s))) = xorB (x.drop s) (y.drop s) := by
      have := encodeBE_beVal (xorB (x.drop s) (y.drop s))
      rwa [hr] at this
    rw [Finset.mem_coe, Finset.mem_biUnion]
    refine ⟨beVal (xorB (x.drop s) (y.drop s)), ?_, ?_⟩
    · rw [Finset.mem_range]
      have := beVal_lt (xorB (x.drop s) (y.drop s))
      rwa [hr] at this
    · rw [Set.Finite.mem_toFinset]
      refine ⟨hH, _, _, g4, f3, ?_⟩
      rw [f4, er]
      congr 2
      have sp : ∀ z : List Byte, z.length = 16 → xorB z j = xorB (z.take s) j ++ xorB (z.drop s) (j.drop s) := fun z hz => by
        have hl : (z.take s).length = (j.take s).length := by rw [List.length_take, List.length_take]; omega
        rw [← xorB_take_right (z.take s) j s (by rw [List.length_take]; omega), ← xorB_append _ _ hl, List.take_append_drop, List.take_append_drop]
      rw [sp y l2, sp x l1, xorB_append _ _ (by rw [xorB_length, List.length_take, hδ]; omega), e3]
      congr 1
      rw [xorB_comm (x.drop s) (j.drop s), xorB_mid _ _ _ (by rw [List.length_drop, List.length_drop]; omega), xorB_comm]
  refine ⟨(Finset.finite_toSet _).subset hsub, (Set.ncard_le_ncard hsub (Finset.finite_toSet _)).trans ?_⟩
  rw [Set.ncard_coe_finset]
  refine (Finset.card_biUnion_le_card_mul _ _ n fun i _ => ?_).trans (by rw [Finset.card_range])
  rw [← Set.ncard_eq_toFinset_card _ (hS i).1]
  exact (hS i).2

theorem gcmHash_zeros (H : List Byte) : ∀ k, gcmHash (List.replicate 16 0) H (List.replicate (16 * k) 0) = List.replicate 16 0
  | 0 => rfl
  | k + 1 => by
    have z : (List.replicate 16 (0 : Byte)).length = 16 := rfl
    have h1 : gcmHash (List.replicate 16 0) H (List.replicate 16 0) = List.replicate 16 0 := by
      rw [gcmHash_spec H _ z, pad16_whole (by rw [z]), ← List.append_nil (List.replicate 16 (0 : Byte)), cut16_append z, cut16_nil, List.append_nil]
      show gfMul (xorB (List.replicate 16 0) (List.replicate 16 0)) H = _
      refine eq_of_q (gfMul_length rfl H) z ?_
      rw [q_gfMul rfl, gpoly_xorB _ _ rfl, gpoly_zeros, add_zero, map_zero, zero_mul]
    rw [show 16 * (k + 1) = 16 + 16 * k by ring, List.replicate_add, gcmHash_append H _ _ z (by rw [z]), h1, gcmHash_zeros H k]

/-- C112, where it fails: 512 MB of zeros in front of the data to authenticate are not noticed, whatever the keys, the nonce and the rest. -/
theorem gcm_zeros (H iv a c : List Byte) (s : Nat) :
    (gcmTag E H iv (List.replicate (2 ^ 29) 0 ++ a) c s).map Prod.fst = (gcmTag E H iv a c s).map Prod.fst := by
  obtain ⟨N, hN⟩ : ∃ N, N = 2 ^ 29 := ⟨_, rfl⟩
  obtain ⟨k, hk⟩ : ∃ k, N = 16 * k := ⟨2 ^ 25, by rw [hN]; norm_num⟩
  rw [← hN]
  have e1 : gcmHash (List.replicate 16 0) H (List.replicate N 0 ++ a) = gcmHash (List.replicate 16 0) H a := by
    rw [gcmHash_append H _ _ rfl (by rw [List.length_replicate, hk]; exact Dvd.intro _ rfl), hk, gcmHash_zeros]
  have e2 : (0 : BitVec 64) + BitVec.ofNat 64 (List.replicate N (0 : Byte) ++ a).length = ((0 : BitVec 64) + BitVec.ofNat 64 a.length) + 0x20000000#64 := by
    rw [List.length_append, List.length_replicate, BitVec.ofNat_add, hN]
    show 0#64 + (0x20000000#64 + _) = 0#64 + _ + 0x20000000#64
    rw [BitVec.add_comm 0x20000000#64, BitVec.add_assoc]
  unfold gcmTag gcmDigest
  split
  · rfl
  · simp only [gcmDecrypt, gcmUpdate, gcmIvSet, e1, e2, gcm_sizes_truncated, Option.map_some]

-- two blocks of one byte and tags that differ by 1 in the first byte: at most two keys; here is one with other tags
example : {H : List Byte | H.length = 16 ∧ ∃ T g g', gcmTag toyG H (List.replicate 12 5) [] [1] 16 = some (T, g) ∧
    gcmTag toyG H (List.replicate 12 5) [] [2] 16 = some (xorB T (1 :: List.replicate 15 0), g')}.ncard ≤ 2 :=
  (gcm_forgery_partial (fun b h => by simpa [toyG] using h) rfl (by decide) (by decide) (by decide) (by decide) (by decide) rfl (by decide) (by decide)).2
example : (gcmTag toyG (7 :: List.replicate 15 0) (List.replicate 12 5) [] [1] 16).map Prod.fst ≠
    (gcmTag toyG (7 :: List.replicate 15 0) (List.replicate 12 5) [] [2] 16).map Prod.fst := by
  decide +kernel
-- the block of 1
example : gfMul [111, 153, 69, 169, 229, 25, 167, 34, 157, 76, 26, 214, 87, 248, 166, 134] (128 :: List.replicate 15 0) =
    [111, 153, 69, 169, 229, 25, 167, 34, 157, 76, 26, 214, 87, 248, 166, 134] := by decide +kernel

end Verif.Modes
