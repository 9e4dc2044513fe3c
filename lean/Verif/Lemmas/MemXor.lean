import Verif.Spec.MemXor
namespace Verif.MemXor

theorem store_same (m : Mem) (a v) : store m a v a = v := by simp [store]
theorem store_other (m : Mem) (a v x) (h : x ≠ a) : store m a v x = m x := by simp [store, h]

theorem fwd2_spec (m : Mem) (dst s1 s2 N : Nat)
    (h1 : dst ≤ s1 ∨ s1 + N ≤ dst) (h2 : dst ≤ s2 ∨ s2 + N ≤ dst) :
    ∀ n, n ≤ N →
    (∀ i, i < n → (List.range n).foldl (step2 dst s1 s2) m (dst + i)
        = m (s1 + i) ^^^ m (s2 + i)) ∧
    (∀ x, (x < dst ∨ dst + n ≤ x) → (List.range n).foldl (step2 dst s1 s2) m x = m x) := by
  intro n
  induction n with
  | zero => intro _; simp
  | succ n ih =>
    intro hn
    obtain ⟨ih1, ih2⟩ := ih (by omega)
    rw [List.range_succ, List.foldl_append]
    simp only [List.foldl_cons, List.foldl_nil, step2]
    constructor
    · intro i hi
      by_cases h : i = n
      · subst h
        rw [store_same, ih2 _ (by omega), ih2 _ (by omega)]
      · rw [store_other _ _ _ _ (by omega)]
        exact ih1 i (by omega)
    · intro x hx
      rw [store_other _ _ _ _ (by omega)]
      exact ih2 x (by omega)

theorem bwd2_spec (dst s1 s2 N : Nat)
    (h1 : s1 ≤ dst ∨ dst + N ≤ s1) (h2 : s2 ≤ dst ∨ dst + N ≤ s2) :
    ∀ n, n ≤ N → ∀ m : Mem,
    (∀ i, i < n → bwd2 m dst s1 s2 n (dst + i) = m (s1 + i) ^^^ m (s2 + i)) ∧
    (∀ x, (x < dst ∨ dst + n ≤ x) → bwd2 m dst s1 s2 n x = m x) := by
  intro n
  induction n with
  | zero => intro _ m; simp [bwd2]
  | succ n ih =>
    intro hn m
    obtain ⟨ih1, ih2⟩ := ih (by omega) (step2 dst s1 s2 m n)
    simp only [bwd2]
    constructor
    · intro i hi
      by_cases h : i = n
      · subst h
        rw [ih2 _ (by omega)]; simp [step2, store]
      · rw [ih1 i (by omega)]
        simp only [step2]
        rw [store_other _ _ _ _ (by omega), store_other _ _ _ _ (by omega)]
    · intro x hx
      rw [ih2 x (by omega)]
      simp only [step2]
      rw [store_other _ _ _ _ (by omega)]

theorem fwd1_spec (m : Mem) (dst s N : Nat) (h1 : dst ≤ s) :
    ∀ n, n ≤ N →
    (∀ i, i < n → (List.range n).foldl (step1 dst s) m (dst + i)
        = m (dst + i) ^^^ m (s + i)) ∧
    (∀ x, (x < dst ∨ dst + n ≤ x) → (List.range n).foldl (step1 dst s) m x = m x) := by
  intro n
  induction n with
  | zero => intro _; simp
  | succ n ih =>
    intro hn
    obtain ⟨ih1, ih2⟩ := ih (by omega)
    rw [List.range_succ, List.foldl_append]
    simp only [List.foldl_cons, List.foldl_nil, step1]
    constructor
    · intro i hi
      by_cases h : i = n
      · subst h
        rw [store_same, ih2 _ (by omega), ih2 _ (by omega)]
      · rw [store_other _ _ _ _ (by omega)]
        exact ih1 i (by omega)
    · intro x hx
      rw [store_other _ _ _ _ (by omega)]
      exact ih2 x (by omega)

theorem bwd1_spec (dst s : Nat) (h1 : s ≤ dst) :
    ∀ n, ∀ m : Mem,
    (∀ i, i < n → bwd1 m dst s n (dst + i) = m (dst + i) ^^^ m (s + i)) ∧
    (∀ x, (x < dst ∨ dst + n ≤ x) → bwd1 m dst s n x = m x) := by
  intro n
  induction n with
  | zero => intro m; simp [bwd1]
  | succ n ih =>
    intro m
    obtain ⟨ih1, ih2⟩ := ih (step1 dst s m n)
    simp only [bwd1]
    constructor
    · intro i hi
      by_cases h : i = n
      · subst h
        rw [ih2 _ (by omega)]; simp [step1, store]
      · rw [ih1 i (by omega)]
        simp only [step1]
        rw [store_other _ _ _ _ (by omega), store_other _ _ _ _ (by omega)]
    · intro x hx
      rw [ih2 x (by omega)]
      simp only [step1]
      rw [store_other _ _ _ _ (by omega)]

/-! ### Case 3 -/

/-- After `k` iterations of the first loop of case 3. -/
theorem step3a_spec (m : Mem) (dst s1 s2 n : Nat)
    (h1 : s1 < dst) (h2 : dst < s1 + n) (h3 : s1 + n < s2) :
    ∀ k, k ≤ n →
    let st := (List.range k).foldl (step3a dst s1 s2 n) (m, s1 + n - dst)
    (st.2 = if k < dst - s1 then s1 + n - dst + k else k - (dst - s1)) ∧
    (∀ i, i < k → st.1 (if i < dst - s1 then s1 + n + i else s1 + i)
        = m (s1 + i) ^^^ m (s2 + i)) ∧
    (∀ x, (x < dst ∨ (dst + (k - (dst - s1)) ≤ x ∧ x < s1 + n) ∨ s1 + n + k ≤ x ∨ dst + n ≤ x) →
        st.1 x = m x) := by
  intro k
  induction k with
  | zero => intro _; simp; omega
  | succ k ih =>
    intro hk
    obtain ⟨ihj, ih1, ih2⟩ := ih (by omega)
    rw [List.range_succ, List.foldl_append]
    simp only [List.foldl_cons, List.foldl_nil]
    generalize (List.range k).foldl (step3a dst s1 s2 n) (m, s1 + n - dst) = st at *
    obtain ⟨mm, j⟩ := st
    simp only at ihj ih1 ih2
    simp only [step3a]
    refine ⟨?_, ?_, ?_⟩
    · subst ihj
      split <;> split <;> (try split) <;> omega
    · intro i hi
      have hj : dst + j = if k < dst - s1 then s1 + n + k else s1 + k := by
        subst ihj; split <;> omega
      by_cases h : i = k
      · subst h
        rw [← hj, store_same, ih2 _ (by omega), ih2 _ (by omega)]
      · rw [store_other _ _ _ _ (by rw [hj]; split <;> split <;> omega)]
        exact ih1 i (by omega)
    · intro x hx
      have hj : dst + j = if k < dst - s1 then s1 + n + k else s1 + k := by
        subst ihj; split <;> omega
      rw [store_other _ _ _ _ (by rw [hj]; split <;> omega)]
      exact ih2 x (by omega)

/-- After `k ≤ n - d` iterations of the second loop: the first `k` bytes are in place
and the displaced tail `y` is stored cyclically in the next `d` bytes. -/
theorem step3b_spec1 (m : Mem) (dst n d : Nat) (x y : Nat → Byte)
    (hd : 0 < d) (hdn : d < n)
    (hx : ∀ i, i < n - d → m (dst + d + i) = x i)
    (hy : ∀ q, q < d → m (dst + q) = y q) :
    ∀ k, k ≤ n - d →
    let st := (List.range k).foldl (step3b dst n) (m, d)
    (st.2 = if k < n - d then d + k else n - 1) ∧
    (∀ i, i < k → st.1 (dst + i) = x i) ∧
    (∀ p, k ≤ p → p < k + d → st.1 (dst + p) = y (p % d)) ∧
    (∀ i, k ≤ i → i < n - d → st.1 (dst + d + i) = x i) ∧
    (∀ a, a < dst ∨ dst + n ≤ a → st.1 a = m a) := by
  intro k
  induction k with
  | zero =>
    intro _
    refine ⟨?_, ?_, ?_, ?_, ?_⟩
    · simp; omega
    · simp
    · intro p _ hp
      simp only [List.range_zero, List.foldl_nil]
      rw [hy p (by omega), Nat.mod_eq_of_lt (by omega)]
    · simpa using hx
    · simp
  | succ k ih =>
    intro hk
    obtain ⟨ihj, ih1, ih2, ih3, ih4⟩ := ih (by omega)
    rw [List.range_succ, List.foldl_append]
    simp only [List.foldl_cons, List.foldl_nil]
    generalize (List.range k).foldl (step3b dst n) (m, d) = st at *
    obtain ⟨mm, j⟩ := st
    simp only at ihj ih1 ih2 ih3 ih4
    have hj : j = d + k := by rw [ihj, if_pos (by omega)]
    subst hj
    simp only [step3b]
    refine ⟨?_, ?_, ?_, ?_, ?_⟩
    · split <;> split <;> omega
    · intro i hi
      by_cases h : i = k
      · subst h
        rw [store_same]
        have := ih3 i (by omega) (by omega)
        rwa [Nat.add_assoc] at this
      · rw [store_other _ _ _ _ (by omega), store_other _ _ _ _ (by omega)]
        exact ih1 i (by omega)
    · intro p hp1 hp2
      rw [store_other _ _ _ _ (by omega)]
      by_cases h : p = d + k
      · subst h
        rw [store_same, ih2 k (by omega) (by omega), Nat.add_mod_left]
      · rw [store_other _ _ _ _ (by omega)]
        exact ih2 p (by omega) (by omega)
    · intro i hi1 hi2
      rw [store_other _ _ _ _ (by omega), store_other _ _ _ _ (by omega)]
      exact ih3 i (by omega) hi2
    · intro a ha
      rw [store_other _ _ _ _ (by omega), store_other _ _ _ _ (by omega)]
      exact ih4 a ha

/-- The remaining iterations, in which `j` stays at `n - 1`, rotate the tail by one. -/
theorem step3b_spec2 (m : Mem) (dst n d : Nat) (z : Nat → Byte)
    (hd : 0 < d) (hdn : d < n)
    (hz : ∀ q, q < d → m (dst + (n - d) + q) = z q) :
    ∀ k, k ≤ d - 1 →
    let st := (List.range' (n - d) k).foldl (step3b dst n) (m, n - 1)
    st.2 = n - 1 ∧
    (∀ q, q < k → st.1 (dst + (n - d) + q) = z (if q = 0 then d - 1 else q - 1)) ∧
    (st.1 (dst + (n - 1)) = z (if k = 0 then d - 1 else k - 1)) ∧
    (∀ q, k ≤ q → q < d - 1 → st.1 (dst + (n - d) + q) = z q) ∧
    (∀ a, a < dst + (n - d) ∨ dst + n ≤ a → st.1 a = m a) := by
  intro k
  induction k with
  | zero =>
    intro _
    refine ⟨?_, ?_, ?_, ?_, ?_⟩
    · simp
    · simp
    · have := hz (d - 1) (by omega)
      simp only [List.range'_zero, List.foldl_nil, if_true]
      rw [← this]; congr 1; omega
    · intro q _ hq; simpa using hz q (by omega)
    · simp
  | succ k ih =>
    intro hk
    obtain ⟨ihj, ih1, ih2, ih3, ih4⟩ := ih (by omega)
    rw [List.range'_concat, List.foldl_append]
    simp only [List.foldl_cons, List.foldl_nil, Nat.one_mul]
    generalize (List.range' (n - d) k).foldl (step3b dst n) (m, n - 1) = st at *
    obtain ⟨mm, j⟩ := st
    simp only at ihj ih1 ih2 ih3 ih4
    subst ihj
    simp only [step3b]
    refine ⟨?_, ?_, ?_, ?_, ?_⟩
    · simp
    · intro q hq
      by_cases h : q = k
      · subst h
        rw [show dst + (n - d) + q = dst + (n - d + q) by omega, store_same, ih2]
      · rw [store_other _ _ _ _ (by omega), store_other _ _ _ _ (by omega)]
        exact ih1 q (by omega)
    · rw [store_other _ _ _ _ (by omega), store_same]
      have := ih3 k (by omega) (by omega)
      rw [show dst + (n - d + k) = dst + (n - d) + k by omega, this]
      simp
    · intro q hq1 hq2
      rw [store_other _ _ _ _ (by omega), store_other _ _ _ _ (by omega)]
      exact ih3 q (by omega) hq2
    · intro a ha
      rw [store_other _ _ _ _ (by omega), store_other _ _ _ _ (by omega)]
      exact ih4 a ha

/-- Exact effect of case 3. -/
theorem case3_spec (m : Mem) (dst s1 s2 n : Nat)
    (h1 : s1 < dst) (h2 : dst < s1 + n) (h3 : s1 + n < s2) :
    let d := s1 + n - dst
    (∀ i, i < n - d → case3 m dst s1 s2 n (dst + i) = m (s1 + i) ^^^ m (s2 + i)) ∧
    (∀ q, q < d → case3 m dst s1 s2 n (dst + (n - d) + q)
        = m (s1 + (n - d + (n - 1 + q) % d)) ^^^ m (s2 + (n - d + (n - 1 + q) % d))) ∧
    (∀ a, a < dst ∨ dst + n ≤ a → case3 m dst s1 s2 n a = m a) := by
  intro d
  obtain ⟨_, ha1, ha2⟩ := step3a_spec m dst s1 s2 n h1 h2 h3 n (Nat.le_refl _)
  unfold case3
  generalize hst : (List.range n).foldl (step3a dst s1 s2 n) (m, s1 + n - dst) = st at *
  obtain ⟨mA, jA⟩ := st
  simp only at ha1 ha2 ⊢
  have hd0 : 0 < d := by omega
  have hdn : d < n := by omega
  -- first part of the second loop
  have hb := step3b_spec1 mA dst n d (fun i => m (s1 + i) ^^^ m (s2 + i))
    (fun q => m (s1 + (n - d + q)) ^^^ m (s2 + (n - d + q))) hd0 hdn
    (by
      intro i hi
      have := ha1 i (by omega)
      rw [if_pos (by omega)] at this
      rw [← this]; congr 1; omega)
    (by
      intro q hq
      have := ha1 (n - d + q) (by omega)
      rw [if_neg (by omega)] at this
      rw [← this]; congr 1; omega)
    (n - d) (Nat.le_refl _)
  have hsplit : List.range (n - 1) = List.range (n - d) ++ List.range' (n - d) (d - 1) := by
    rw [List.range_eq_range', List.range_eq_range']
    have := (List.range'_append (s := 0) (m := n - d) (n := d - 1) (step := 1)).symm
    simp only [Nat.one_mul, Nat.zero_add] at this
    rw [← this]; congr 1; omega
  rw [hsplit, List.foldl_append]
  obtain ⟨hbj, hb1, hb2, _, hb4⟩ := hb
  have hdd : s1 + n - dst = d := rfl
  rw [hdd]
  generalize (List.range (n - d)).foldl (step3b dst n) (mA, d) = st at *
  obtain ⟨mB, jB⟩ := st
  simp only at hbj hb1 hb2 hb4
  rw [if_neg (by omega)] at hbj
  subst hbj
  have hc := step3b_spec2 mB dst n d
    (fun q => m (s1 + (n - d + (n - d + q) % d)) ^^^ m (s2 + (n - d + (n - d + q) % d)))
    hd0 hdn
    (by intro q hq
        have := hb2 (n - d + q) (by omega) (by omega)
        rw [← Nat.add_assoc] at this; exact this)
    (d - 1) (Nat.le_refl _)
  simp only at hc
  obtain ⟨_, hc1, hc2, _, hc4⟩ := hc
  refine ⟨?_, ?_, ?_⟩
  · intro i hi
    rw [hc4 _ (by omega)]
    exact hb1 i hi
  · intro q hq
    have hmod : ∀ q, q < d → (n - d + (if q = 0 then d - 1 else q - 1)) % d = (n - 1 + q) % d := by
      intro q hq
      by_cases h0 : q = 0
      · simp only [h0, if_true]
        congr 1; omega
      · simp only [h0, if_false]
        rw [show n - 1 + q = (n - d + (q - 1)) + d by omega, Nat.add_mod_right]
    by_cases h : q < d - 1
    · rw [hc1 q h]
      simp only [hmod q hq]
    · have hq' : q = d - 1 := by omega
      rw [show dst + (n - d) + q = dst + (n - 1) by omega, hc2]
      have e := hmod q hq
      rw [hq'] at e ⊢
      simp only [e]
  · intro a ha
    rw [hc4 a (by omega), hb4 a ha, ha2 a (by omega)]

end Verif.MemXor
