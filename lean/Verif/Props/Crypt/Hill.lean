import Verif.Lemmas.Crypt.Hill
import Verif.Props.Crypt.Affine
import Mathlib.Data.Nat.Sqrt
/-!
# C44: the Hill cipher

Matrices and vectors are those of Mathlib over the ring of bytes (`mat`, `vec` in Lemmas/Crypt/Hill.lean read them off
the lists).
-/
namespace Verif.Hill
open Verif.LongInv

/-- The dimension is the whole square root of the key length, cut at 10. -/
theorem keylenTrim_eq (keylen : Nat) : keylenTrim keylen = Nat.sqrt (min keylen 100) := by
  have h : ∀ k, k ≤ 100 → keylenTrim k = Nat.sqrt k := by decide +kernel
  rcases Nat.le_total keylen 100 with hk | hk
  · rw [Nat.min_eq_left hk, h _ hk]
  · rw [Nat.min_eq_right hk, ← h 100 (le_refl _)]
    unfold keylenTrim
    dsimp only
    by_cases h2 : keylen > 100
    · rw [if_pos h2, if_neg (show ¬ 100 > 100 by omega)]
    · have : keylen = 100 := by omega
      rw [this]

theorem odd_iff : ∀ d : Byte, d &&& 1#8 ≠ 0#8 ↔ d &&& 1#8 = 1#8 := by decide +kernel

theorem byte_unit_iff (a : Byte) : a &&& 1#8 = 1#8 ↔ IsUnit a := by
  constructor
  · intro h
    obtain ⟨i, -, hi⟩ := Affine.inv_byte a h
    exact IsUnit.of_mul_eq_one _ hi
  · intro h
    obtain ⟨b, hb⟩ := h.exists_right_inv
    obtain ⟨res, c, h1, h2, h3⟩ := Affine.affine_init_iff [a] [0] rfl
    have h0 := h3.mpr (by intro x hx; simp at hx; subst hx; exact ⟨b, hb⟩)
    by_contra hc
    have : Affine.init [a] [0] 1 = some (-1, ⟨Affine.pad [a], Affine.pad [], Affine.pad [0], 1⟩) := by
      unfold Affine.init
      dsimp only
      rw [if_neg (by simp)]
      rw [show (if 1 > 32 then 32 else 1) = 1 from rfl]
      rw [show List.take 1 [a] = [a] from rfl, Affine.invLoop, if_pos hc]
      rfl
    rw [show [a].length = 1 from rfl] at h1
    rw [this, h0] at h1
    simp at h1

theorem tryKey_some {n : Nat} {key : List Byte} {r : Int × List Byte × List Byte} (h : tryKey n key = some r) :
    r.1 = 0 ∧ r.2.1 = key ∧ mat n key * mat n r.2.2 = 1 ∧ mat n r.2.2 * mat n key = 1 := by
  unfold tryKey at h
  dsimp only at h
  by_cases ho : det key n &&& 1#8 ≠ 0#8
  · rw [if_pos ho] at h
    obtain ⟨i, h1, h2⟩ := Affine.inv_byte _ ((odd_iff _).mp ho)
    rw [h1] at h
    simp only [Option.some.injEq] at h
    subst h
    refine ⟨rfl, rfl, ?_, ?_⟩
    · rw [mat_invert, Matrix.mul_smul, Matrix.mul_adjugate, smul_smul, ← det_eq, mul_comm (BitVec.setWidth 8 i), h2,
        one_smul]
    · rw [mat_invert, Matrix.smul_mul, Matrix.adjugate_mul, smul_smul, ← det_eq, mul_comm (BitVec.setWidth 8 i), h2,
        one_smul]
  · rw [if_neg ho] at h
    simp at h

theorem tryKey_none_iff (n : Nat) (key : List Byte) : tryKey n key = none ↔ ¬ IsUnit (mat n key) := by
  rw [Matrix.isUnit_iff_isUnit_det, ← det_eq, ← byte_unit_iff]
  unfold tryKey
  dsimp only
  by_cases ho : det key n &&& 1#8 ≠ 0#8
  · rw [if_pos ho]
    obtain ⟨i, h1, h2⟩ := Affine.inv_byte _ ((odd_iff _).mp ho)
    rw [h1]
    simpa using (odd_iff _).mp ho
  · rw [if_neg ho]
    simpa using fun h => ho ((odd_iff _).mpr h)

theorem keygen_ok {n : Nat} {rnd : Nat → Nat → Byte} : ∀ (t : Nat) (key : List Byte), (keygenLoop n rnd t key).1 = 0 →
    mat n (keygenLoop n rnd t key).2.1 * mat n (keygenLoop n rnd t key).2.2 = 1 ∧
    mat n (keygenLoop n rnd t key).2.2 * mat n (keygenLoop n rnd t key).2.1 = 1 := by
  intro t
  induction t with
  | zero =>
    intro key h
    unfold keygenLoop at h ⊢
    cases hk : tryKey n key with
    | none => rw [hk] at h; simp at h
    | some r =>
      obtain ⟨-, h2, h3, h4⟩ := tryKey_some hk
      rw [Option.getD_some, h2]
      exact ⟨h3, h4⟩
  | succ t ih =>
    intro key h
    unfold keygenLoop at h ⊢
    dsimp only at h ⊢
    cases hk : tryKey n ((List.range (n * n)).map (rnd t)) with
    | none =>
      rw [hk] at h
      dsimp only at h ⊢
      by_cases ht : t = 0
      · rw [if_pos ht] at h; simp at h
      · rw [if_neg ht] at h ⊢
        exact ih _ h
    | some r =>
      obtain ⟨-, h2, h3, h4⟩ := tryKey_some hk
      dsimp only
      rw [h2]
      exact ⟨h3, h4⟩

/-- A given key is accepted exactly when its matrix is invertible modulo 256.  (Its dimension is the whole square root
of the key length, at most 10; the bytes after the square are ignored.) -/
theorem hill_init_iff (rnd : Nat → Nat → Byte) (k : List Byte) :
    ∃ res c, init rnd (some k) none k.length = .ok (res, c) ∧ (res = 0 ∨ res = -1) ∧ c.n = Nat.sqrt (min k.length 100) ∧
      (res = 0 ↔ IsUnit (mat c.n (k.take (c.n * c.n)))) ∧ (res = 0 → c.key = k.take (c.n * c.n)) := by
  unfold init
  dsimp only
  have hn := keylenTrim_eq k.length
  have hle : keylenTrim k.length * keylenTrim k.length ≤ k.length := by
    rw [hn]; exact le_trans (Nat.sqrt_le _) (Nat.min_le_left _ _)
  rw [if_neg (by simpa using hle)]
  refine ⟨_, _, rfl, ?_, hn, ?_, ?_⟩
  all_goals
    try dsimp only
    unfold keygenLoop
    by_cases hu : IsUnit (mat (keylenTrim k.length) (k.take (keylenTrim k.length * keylenTrim k.length)))
    · cases hk : tryKey (keylenTrim k.length) (k.take (keylenTrim k.length * keylenTrim k.length)) with
      | none => exact absurd hu ((tryKey_none_iff _ _).mp hk)
      | some r =>
        obtain ⟨h1, h2, -⟩ := tryKey_some hk
        simp [h1, h2, hu]
    · rw [(tryKey_none_iff _ _).mpr hu]
      simp [hu]

theorem operate_blocks (n : Nat) (hn : 0 < n) (key : List Byte) : ∀ (bs : List (List Byte)) (fuel : Nat), bs.length ≤ fuel →
    (∀ b ∈ bs, b.length = n) → operateLoop n key fuel bs.flatten = .ok (bs.map fun b => vecMul key b n).flatten := by
  intro bs
  induction bs with
  | nil => intro fuel _ _; cases fuel <;> rfl
  | cons b bs ih =>
    intro fuel hf hb
    obtain ⟨fuel, rfl⟩ : ∃ m, fuel = m + 1 := ⟨fuel - 1, by simp only [List.length_cons] at hf; omega⟩
    have hbl := hb b (by simp)
    have hl : (b :: bs).flatten.length = n + bs.flatten.length := by rw [List.flatten_cons, List.length_append, hbl]
    have hne : (b :: bs).flatten ≠ [] := by
      intro h
      rw [h, List.length_nil] at hl
      omega
    have hm : min n (b :: bs).flatten.length = n := by omega
    rw [operateLoop]
    · rw [hm, if_neg (by omega), List.flatten_cons, List.drop_left' hbl, List.take_left' hbl,
        ih fuel (by simp only [List.length_cons] at hf; omega) (fun x hx => hb x (by simp [hx]))]
      rfl
    · exact hne

theorem flatten_length (n : Nat) : ∀ (bs : List (List Byte)), (∀ b ∈ bs, b.length = n) → bs.flatten.length = n * bs.length
  | [], _ => rfl
  | b :: bs, h => by
    rw [List.flatten_cons, List.length_append, h b (by simp), flatten_length n bs (fun x hx => h x (by simp [hx])),
      List.length_cons, Nat.mul_add, Nat.mul_one, Nat.add_comm]

theorem exists_blocks (n : Nat) : ∀ (m : Nat) (src : List Byte), src.length = n * m →
    ∃ bs : List (List Byte), (∀ b ∈ bs, b.length = n) ∧ src = bs.flatten
  | 0, src, h => ⟨[], by simp, by rw [List.length_eq_zero_iff.mp h]; rfl⟩
  | m + 1, src, h => by
    rw [Nat.mul_add, Nat.mul_one] at h
    obtain ⟨bs, h1, h2⟩ := exists_blocks n m (src.drop n) (by rw [List.length_drop, h]; omega)
    refine ⟨src.take n :: bs, ?_, by rw [List.flatten_cons, ← h2, List.take_append_drop]⟩
    intro b hb
    rcases List.mem_cons.mp hb with rfl | hb
    · rw [List.length_take, h]; omega
    · exact h1 b hb

theorem vecMul_inv {n : Nat} {k ik : List Byte} (h : mat n ik * mat n k = 1) (b : List Byte) (hb : b.length = n) :
    vecMul ik (vecMul k b n) n = b := by
  apply vec_inj (vecMul_length _ _ _) hb
  rw [vec_vecMul, vec_vecMul, Matrix.mulVec_mulVec, h, Matrix.one_mulVec]

theorem operate_inv {n : Nat} (hn : 0 < n) {k ik : List Byte} (h : mat n ik * mat n k = 1) (src : List Byte)
    (hs : src.length % n = 0) :
    ∃ x, operateLoop n k src.length src = .ok x ∧ x.length = src.length ∧ operateLoop n ik x.length x = .ok src := by
  obtain ⟨bs, hb, rfl⟩ := exists_blocks n (src.length / n) src (by
    have := Nat.div_add_mod src.length n; omega)
  have hx : ∀ b ∈ bs.map (fun b => vecMul k b n), b.length = n := by
    intro b h; obtain ⟨a, _, rfl⟩ := List.mem_map.mp h; exact vecMul_length _ _ _
  have hl : ∀ bs : List (List Byte), (∀ b ∈ bs, b.length = n) → bs.length ≤ bs.flatten.length := by
    intro bs h
    rw [flatten_length n bs h]
    exact Nat.le_mul_of_pos_left _ hn
  refine ⟨_, operate_blocks n hn k bs _ (hl bs hb) hb, ?_, ?_⟩
  · rw [flatten_length n _ hx, flatten_length n _ hb, List.length_map]
  · rw [operate_blocks n hn ik _ _ (hl _ hx) hx, List.map_map, List.map_congr_left (g := id), List.map_id]
    intro b h'
    exact vecMul_inv h b (hb b h')

/-- Full statement: for every key accepted by `cry_hill_init`, decrypting an encrypted message of any length returns
it.  Proved whenever the inverse is computed by the library (for a given key and for a generated one), the dimension is
not 0 and the message is a whole number of blocks; both directions.  Missing, because false: a short last block
(`hill_tail_oob`), the empty key (`hill_empty_key_hangs`), an inverse supplied by the caller (`hill_wrong_ikey`). -/
theorem hill_roundtrip_partial (rnd : Nat → Nat → Byte) (key : Option (List Byte)) (keylen : Nat) (c : Ctx)
    (hi : init rnd key none keylen = .ok (0, c)) (hpos : 0 < keylen) (msg : List Byte) (hm : msg.length % c.n = 0) :
    (∃ x, encrypt c msg = .ok x ∧ x.length = msg.length ∧ decrypt c x = .ok msg) ∧
    (∃ x, decrypt c msg = .ok x ∧ x.length = msg.length ∧ encrypt c x = .ok msg) := by
  have hn : 0 < keylenTrim keylen := by
    rw [keylenTrim_eq, Nat.sqrt_pos]; omega
  have hok : c.n = keylenTrim keylen ∧ mat c.n c.key * mat c.n c.ikey = 1 ∧ mat c.n c.ikey * mat c.n c.key = 1 := by
    unfold init at hi
    dsimp only at hi
    cases key with
    | none =>
      simp only [Bool.or_self, Bool.false_eq_true, if_false, Except.ok.injEq, Prod.mk.injEq] at hi
      obtain ⟨h1, rfl⟩ := hi
      exact ⟨rfl, keygen_ok _ _ h1⟩
    | some k =>
      dsimp only at hi
      by_cases hs : (decide (k.length < keylenTrim keylen * keylenTrim keylen) || false) = true
      · rw [if_pos hs] at hi; simp at hi
      · rw [if_neg hs] at hi
        simp only [Except.ok.injEq, Prod.mk.injEq] at hi
        obtain ⟨h1, rfl⟩ := hi
        exact ⟨rfl, keygen_ok _ _ h1⟩
  obtain ⟨h1, h2, h3⟩ := hok
  rw [← h1] at hn
  exact ⟨operate_inv hn h3 msg hm, operate_inv hn h2 msg hm⟩

/-- The key of an example: dimension 3. -/
example : ∃ c, init (fun _ _ => 0) (some [6, 24, 1, 13, 16, 10, 20, 17, 15]) none 9 = .ok (0, c) := by
  obtain ⟨res, c, h1, h2, h3, h4, -⟩ := hill_init_iff (fun _ _ => 0) [6, 24, 1, 13, 16, 10, 20, 17, 15]
  have hn : c.n = 3 := by rw [h3]; decide +kernel
  rw [hn] at h4
  have : res = 0 := h4.mpr (by
    rw [Matrix.isUnit_iff_isUnit_det, ← det_eq, ← byte_unit_iff]
    decide +kernel)
  exact ⟨c, by rw [← this]; exact h1⟩

/-- Encryption multiplies each block by the key matrix. -/
theorem hill_standard (c : Ctx) (hn : 0 < c.n) (bs : List (List Byte)) (hb : ∀ b ∈ bs, b.length = c.n) :
    ∃ xs : List (List Byte), encrypt c bs.flatten = .ok xs.flatten ∧ (∀ x ∈ xs, x.length = c.n) ∧
      xs.map (vec c.n) = bs.map fun b => (mat c.n c.key).mulVec (vec c.n b) := by
  refine ⟨bs.map fun b => vecMul c.key b c.n, ?_, ?_, ?_⟩
  · refine operate_blocks c.n hn c.key bs _ ?_ hb
    rw [flatten_length c.n bs hb]; exact Nat.le_mul_of_pos_left _ hn
  · intro b h; obtain ⟨a, _, rfl⟩ := List.mem_map.mp h; exact vecMul_length _ _ _
  · rw [List.map_map]
    apply List.map_congr_left
    intro b _
    exact vec_vecMul _ _ _

/-- A message that is not a whole number of blocks makes both operations write past the output. -/
theorem hill_tail_oob (c : Ctx) (hn : 0 < c.n) (msg : List Byte) (hm : msg.length % c.n ≠ 0) :
    encrypt c msg = .error .oob ∧ decrypt c msg = .error .oob := by
  have h : ∀ (key : List Byte) (fuel : Nat) (src : List Byte), src.length ≤ fuel → src.length % c.n ≠ 0 →
      operateLoop c.n key fuel src = .error .oob := by
    intro key fuel
    induction fuel with
    | zero => intro src h1 h2; rw [Nat.le_zero.mp h1] at h2; simp at h2
    | succ fuel ih =>
      intro src h1 h2
      have hne : src ≠ [] := by rintro rfl; simp at h2
      rw [operateLoop]
      · by_cases hl : src.length < c.n
        · rw [if_pos (by omega)]
        · rw [Nat.min_eq_left (by omega), if_neg (by omega), ih]
          · rfl
          · rw [List.length_drop]; omega
          · rw [List.length_drop]
            have : src.length % c.n = (src.length - c.n) % c.n := Nat.mod_eq_sub_mod (by omega)
            omega
      · exact hne
  exact ⟨h _ _ _ (le_refl _) hm, h _ _ _ (le_refl _) hm⟩

/-- With an empty key initialisation succeeds, but no message except the empty one is ever finished. -/
theorem hill_empty_key_hangs (rnd : Nat → Nat → Byte) : ∃ c, init rnd (some []) none 0 = .ok (0, c) ∧
    ∀ msg, msg ≠ [] → encrypt c msg = .error .hang := by
  obtain ⟨res, c, h1, h2, h3, h4, -⟩ := hill_init_iff rnd []
  have hn : c.n = 0 := by rw [h3]; decide +kernel
  rw [hn] at h4
  refine ⟨c, ?_, ?_⟩
  · rw [show (0 : Nat) = ([] : List Byte).length from rfl, h1, h4.mpr (by rw [Matrix.isUnit_iff_isUnit_det, Matrix.det_fin_zero]; exact isUnit_one)]
  · intro msg hm
    unfold encrypt
    rw [hn]
    generalize msg.length = f
    induction f with
    | zero => cases msg with
      | nil => exact absurd rfl hm
      | cons a l => rfl
    | succ f ih =>
      rw [operateLoop]
      · simp only [Nat.zero_min, lt_self_iff_false, if_false, List.drop_zero, ih]
        rfl
      · exact hm

/-- An inverse supplied by the caller is not checked. -/
theorem hill_wrong_ikey (rnd : Nat → Nat → Byte) : ∃ c, init rnd (some [1]) (some [0]) 1 = .ok (0, c) ∧
    encrypt c [5] = .ok [5] ∧ decrypt c [5] = .ok [0] := ⟨⟨[1], [0], 1⟩, rfl, by decide +kernel, by decide +kernel⟩

end Verif.Hill
