import Verif.Model.Mem.Prime
import Verif.Spec.MemPrime
import Verif.Lemmas.Mem.DsaSign
import Verif.Lemmas.Mpi.Prime
import Verif.Props.Mpi.Prime
/-! The primality test in memory: what the functions do when no allocation fails. -/
namespace Verif.Mem
open Verif.Mpi

variable {w : Nat} {K : Ctx} {A E : Env} {sp S N : Nat} {s : St}

theorem cmp_sign {a b : Int} : (if a < b then (-1 : Int) else if a = b then 0 else 1) = 0 ↔ a = b := by
  rcases lt_trichotomy a b with h | h | h
  · rw [if_pos h]; simp; omega
  · simp [h]
  · rw [if_neg (by omega), if_neg (by omega)]; simp; omega

theorem shows_nat {o : Obj} {n : Nat} (h : o.Shows w n) : ∃ m, NatRep w m n ∧ o.Reads m := by
  obtain ⟨m, m1, m2, m3⟩ := h
  exact ⟨m, NatRep.of_wf m1 m2, m3⟩

theorem absOne_run (hw : 8 ≤ w) {a n : Nat} (h : (s.obj a).Shows w n) : absOne a s = .ok (decide (n = 1), s) := by
  obtain ⟨m, hr, hm⟩ := shows_nat h
  obtain ⟨al, h1, h2⟩ := id hm
  have h3 := Mpi.isOne_iff hw hr
  unfold absOne
  rw [bind_ok (hdr_ok h1)]
  dsimp only
  by_cases hl : m.digs.length = 1
  · rw [if_pos hl, bind_ok (rd_run hm (k := 0) (by omega))]
    show Out.ok (_, s) = _
    congr 2
    rw [Bool.eq_iff_iff, decide_eq_true_iff, ← h3]
    unfold Mpi.isOne
    simp [hl]
  · rw [if_neg hl]
    show Out.ok (_, s) = _
    congr 2
    rw [Bool.eq_iff_iff, decide_eq_true_iff, ← h3]
    unfold Mpi.isOne
    simp [hl]

theorem isOdd_run (hw : 8 ≤ w) {a n : Nat} (h : (s.obj a).Shows w n) : isOdd a s = .ok (decide (n % 2 = 1), s) := by
  obtain ⟨m, hr, hm⟩ := shows_nat h
  obtain ⟨al, h1, h2⟩ := id hm
  unfold isOdd
  rw [bind_ok (hdr_ok h1)]
  dsimp only
  have hv := hr.value
  by_cases hl : m.digs.length = 0
  · rw [if_pos hl]
    have : m.digs = [] := List.length_eq_zero_iff.1 hl
    rw [this] at hv
    have : n = 0 := by simpa using hv.symm
    subst this; rfl
  · rw [if_neg hl, bind_ok (rd_run hm (k := 0) (by omega))]
    show Out.ok (_, s) = _
    congr 2
    obtain ⟨d, ds, e⟩ := List.exists_cons_of_ne_nil (fun h => hl (by rw [h]; rfl) : m.digs ≠ [])
    rw [e] at hv ⊢
    have h2 : (2 : Nat) ∣ 2 ^ w := dvd_pow_self 2 (by omega)
    have h3 : n % 2 = d % 2 := by
      rw [← hv, Mpi.val]
      obtain ⟨c, hc⟩ := h2
      rw [hc, Nat.mul_assoc, Nat.add_mul_mod_self_left]
    show (d &&& 1 != 0) = _
    rw [Nat.and_one_is_mod, h3]
    rcases Nat.mod_two_eq_zero_or_one d with h | h <;> rw [h] <;> rfl

/-- The divisions by the small primes. -/
theorem trialLoop_calm (hw : DigitWidth w) (hK : K.Calm) {p n : Nat} (hp : p < sp) (ap : ∀ o, A p o → o.Shows w n) :
    ∀ (qs : List Nat) (s : St) (z : Int), (∀ q ∈ qs, 0 < q ∧ q < 2 ^ 63) → At K (NV w sp A [z]) (sp + 1) s → ∃ st s' z',
      trialLoop w (sp + 1) sp p qs s = .ok (st, s') ∧ At K (NV w sp A [z']) (sp + 1) s' ∧
      ((st = 2 ∧ n ∈ qs) ∨ (st = 1 ∧ (∃ q ∈ qs, q ∣ n ∧ q ≠ n)) ∨ (st = 0 ∧ ∀ q ∈ qs, ¬ q ∣ n))
  | [], s, z, _, h => ⟨0, s, z, rfl, h, Or.inr (Or.inr ⟨rfl, by simp⟩)⟩
  | q :: qs, s, z, hq, h => by
    obtain ⟨q0, q1⟩ := hq q (by simp)
    obtain ⟨s1, e1, h1⟩ := cn_setInt hw hK h rfl (r := sp) (i := 0) rfl (by omega) (z := (q : Int)) (by simpa using q1) rfl
    have h1 : At K (NV w sp A [(q : Int)]) (sp + 1) s1 := h1
    have x1 : (s1.obj sp).Shows w (q : Int) := Src.get (Src.loc (x := sp) (j := 0) rfl (by omega)) h1
    have p1 : (s1.obj p).Shows w (n : Int) := Src.get (Src.arg hp ap) h1
    have e2 := cmp_eval x1 p1
    unfold trialLoop
    rw [chk_ok e1, bind_ok e2]
    by_cases hqn : q = n
    · subst hqn
      rw [if_pos (cmp_sign.2 rfl)]
      exact ⟨2, s1, _, rfl, h1, Or.inl ⟨rfl, by simp⟩⟩
    · rw [if_neg (by rw [cmp_sign]; omega)]
      obtain ⟨s3, e3, h3⟩ := cn_leaf hK h1 (i := 0) (by omega) rfl (mod_leaf hw (sp := sp + 1) (m := sp + 0) p1 x1 (by omega) (by omega) (by omega) (by omega)
        (Nums.val h1 (j := 0) (by omega)).any (Or.inl (by omega))) rfl
      have h3 : At K (NV w sp A [(n : Int) % (q : Int)]) (sp + 1) s3 := h3
      have e3 : mod w (sp + 1) sp p sp s1 = .ok (0, s3) := e3
      rw [bind_ok e3, if_neg (by omega)]
      obtain ⟨hd, g1, g2⟩ := shows_used (Src.get (Src.loc (x := sp) (j := 0) rfl (by omega)) h3)
      rw [bind_ok (hdr_ok g1)]
      have g3 : hd.used = 0 ↔ q ∣ n := by
        rw [g2]
        show (n : Int) % (q : Int) = 0 ↔ _
        rw [← Int.dvd_iff_emod_eq_zero, Int.natCast_dvd_natCast]
      by_cases hd : q ∣ n
      · rw [if_pos (g3.2 hd)]
        exact ⟨1, s3, _, rfl, h3, Or.inr (Or.inl ⟨rfl, q, by simp, hd, hqn⟩)⟩
      · rw [if_neg fun h => hd (g3.1 h)]
        obtain ⟨st, s4, z', e4, h4, h5⟩ := trialLoop_calm hw hK hp ap qs s3 _ (fun q hq' => hq q (by simp [hq'])) h3
        refine ⟨st, s4, z', e4, h4, ?_⟩
        rcases h5 with ⟨a, b⟩ | ⟨a, c, b1, b2⟩ | ⟨a, b⟩
        · exact Or.inl ⟨a, by simp [b]⟩
        · exact Or.inr (Or.inl ⟨a, c, by simp [b1], b2⟩)
        · exact Or.inr (Or.inr ⟨a, by intro q' hq'; rcases List.mem_cons.1 hq' with h | h; · subst h; exact hd
                                      · exact b q' h⟩)

theorem trial_calm (hw : DigitWidth w) (hK : K.Calm) (h : At K A sp s) {p n : Nat} (hp : p < sp) (ap : ∀ o, A p o → o.Shows w n) :
    ∃ st s', trial w sp p s = .ok (st, s') ∧ At K A sp s' ∧
      ((st = 2 ∧ n.Prime ∧ n ≠ 2 ∧ n < 1010) ∨ (st = 1 ∧ ∃ q, q.Prime ∧ q ≠ 2 ∧ q < 1010 ∧ q ∣ n ∧ q ≠ n) ∨ (st = 0 ∧ NoSmall n)) := by
  have hw0 : 0 < w := by have := hw.pos; omega
  obtain ⟨s0, e0, h0⟩ := decl_run h 1
  unfold trial
  rw [bind_ok e0, ← initList_one, ← clearList_one]
  have hlist : ∀ v, v ∈ [sp] ↔ sp ≤ v ∧ v < sp + 1 := by intro v; simp only [List.mem_singleton]; omega
  obtain ⟨s1, e1, h1⟩ := initList_calm hw0 hK h0 hlist (by simp)
  obtain ⟨st, s2, z, e2, h2, h3⟩ := trialLoop_calm hw hK hp ap smallPrimes s1 0 smallPrimes_range h1
  obtain ⟨s4, e4, h4⟩ := clearList_calm h2 hlist
  refine ⟨st, s4, by rw [chk_ok e1, bind_ok e2, bind_ok e4]; rfl, h4, ?_⟩
  rcases h3 with ⟨a, b⟩ | ⟨a, q, b, c⟩ | ⟨a, b⟩
  · exact Or.inl ⟨a, (smallPrimes_eq n).1 b⟩
  · obtain ⟨x, y, z⟩ := (smallPrimes_eq q).1 b
    exact Or.inr (Or.inl ⟨a, q, x, y, z, c⟩)
  · exact Or.inr (Or.inr ⟨a, fun q x y z => b q ((smallPrimes_eq q).2 ⟨x, y, z⟩)⟩)

/-- The divisions by two. -/
theorem halveLoop_calm (hw : DigitWidth w) (hK : K.Calm) {m : Nat} (hm : m < S) : ∀ (a fuel : Nat) (s : St) (E : Env) (ret o : Nat),
    At K E S s → (∀ ob, E m ob → V w ((2 ^ a * o : Nat) : Int) 0 ob) → o % 2 = 1 → a < fuel →
    ∃ s', halveLoop w m fuel ret s = .ok (((ret + a : Nat) : Int), s') ∧ At K (Function.update E m (V w (o : Int) 0)) S s'
  | a, 0, _, _, _, _, _, _, _, hf => by omega
  | 0, fuel + 1, s, E, ret, o, h, hv, ho, _ => by
    have hv' := hv _ (h.objs m hm)
    rw [pow_zero, Nat.one_mul] at hv'
    unfold halveLoop
    rw [bind_ok (isOdd_run hw.pos hv'.shows), if_pos (by simpa using ho)]
    refine ⟨s, rfl, h.le fun v hv1 ob hob => ?_⟩
    by_cases e : v = m
    · subst e; rw [Function.update_self]; have := hv ob hob; rwa [pow_zero, Nat.one_mul] at this
    · rw [Function.update_of_ne e]; exact hob
  | a + 1, fuel + 1, s, E, ret, o, h, hv, ho, hf => by
    have hw0 : 0 < w := by have := hw.pos; omega
    have hv' := hv _ (h.objs m hm)
    have e2 : 2 ^ (a + 1) * o = 2 ^ a * o * 2 := by ring
    unfold halveLoop
    rw [bind_ok (isOdd_run hw.pos hv'.shows), if_neg (by rw [e2]; simp)]
    obtain ⟨s1, e1, h1⟩ := calm_leaf hK h hm (shr_leaf hw0 hv' hv'.shows 1 hm (Or.inl (by positivity)))
    rw [bind_ok e1, if_neg (by omega)]
    have hq : ((2 ^ (a + 1) * o : Nat) : Int) / 2 ^ 1 = ((2 ^ a * o : Nat) : Int) := by
      rw [e2]; push_cast; omega
    rw [hq] at h1
    obtain ⟨s2, e3, h2⟩ := halveLoop_calm hw hK hm a fuel s1 _ (ret + 1) o h1 (fun ob hob => by rwa [Function.update_self] at hob) ho (by omega)
    rw [Function.update_idem] at h2
    exact ⟨s2, by rw [e3, show ret + 1 + a = ret + (a + 1) by omega], h2⟩

theorem calcBM_calm (hw : DigitWidth w) (hK : K.Calm) (h : At K A sp s) {m p n : Nat} {z : Int} (hm : m < sp) (hp : p < sp) (hmp : m ≠ p)
    (am : ∀ o, A m o → V w z 0 o) (ap : ∀ o, A p o → o.Shows w n) {a o fuel : Nat} (hn : n - 1 = 2 ^ a * o) (hn1 : 1 ≤ n) (ho : o % 2 = 1) (hf : a < fuel) :
    ∃ s', calcBM w sp fuel m p s = .ok ((a : Int), s') ∧ At K (Function.update A m (V w (o : Int) 0)) sp s' := by
  have hw0 : 0 < w := by have := hw.pos; omega
  obtain ⟨s0, e0, h0⟩ := decl_run h 1
  unfold calcBM
  rw [bind_ok e0]
  obtain ⟨s1, e1, h1⟩ := const_at (N := 0) h0 1
  rw [bind_ok e1]
  have h1 := undecl (k := 0) h1
  set C : Env := Function.update A sp (· = ⟨some ⟨false, 1, 1⟩, .mem false [some 1]⟩) with hC
  have cC : ∀ v, v < sp → C v = A v := fun v hv => by rw [hC, Function.update_of_ne (by omega)]
  obtain ⟨s2, e2, h2⟩ := calm_leaf hK h1 (r := m) (by omega) (copy_leaf (am _ (by have := h1.objs m (by omega); rwa [cC m hm] at this))
    (ap _ (by have := h1.objs p (by omega); rwa [cC p hp] at this)))
  have v2 : V w (n : Int) 0 (s2.obj m) := by have := h2.objs m (by omega); rwa [Function.update_self] at this
  have o2 : (s2.obj sp).Shows w 1 := by
    have := h2.objs sp (by omega); rw [Function.update_of_ne (by omega), hC, Function.update_self] at this
    rw [this]; exact one_shows hw 1
  obtain ⟨s3, e3, h3⟩ := calm_leaf hK h2 (r := m) (by omega) (sub_leaf hw0 v2 v2.shows o2)
  rw [Function.update_idem] at h3
  have hz : (n : Int) - 1 = ((2 ^ a * o : Nat) : Int) := by rw [← hn]; push_cast [Nat.cast_sub hn1]; rfl
  rw [hz] at h3
  obtain ⟨s4, e4, h4⟩ := halveLoop_calm hw hK (m := m) (by omega) a fuel s3 _ 0 o h3 (fun ob hob => by rwa [Function.update_self] at hob) ho hf
  rw [Function.update_idem, hC, Function.update_comm (by omega)] at h4
  exact ⟨s4, by rw [chk_ok e2, chk_ok e3, e4, Nat.zero_add], const_exit h4⟩

/-- The squarings. -/
theorem mrLoop_calm (hw : DigitWidth w) (hK : K.Calm) {p one n : Nat} (hp : p < sp) (h1 : one < sp) (ap : ∀ o, A p o → o.Shows w n)
    (a1 : ∀ o, A one o → o.Shows w 1) (hn : 2 ≤ n) {x y : Int} : ∀ (b v : Nat) (t : Int) (s : St), At K (NV w sp A [x, y, (v : Int), t]) (sp + 4) s →
    v < n → (b = 0 ∨ 2 < n) → ∃ st s' L, mrLoop w (sp + 4) p one (sp + 2) (sp + 3) b s = .ok (st, s') ∧ At K (NV w sp A L) (sp + 4) s' ∧
      ((st = 1 ∧ ∃ i ≤ b, v ^ 2 ^ i % n = n - 1) ∨ (st = 0 ∧ ¬ ∃ i ≤ b, v ^ 2 ^ i % n = n - 1))
  | 0, v, t, s, h, hv, _ => by
    obtain ⟨s1, e1, k1⟩ := cn_add hw hK h rfl (r := sp + 2) (i := 2) rfl (by omega) (Src.loc (x := sp + 2) (j := 2) rfl (by omega)) (Src.arg h1 a1) rfl rfl
    have k1 : At K (NV w sp A [x, y, (v : Int) + 1, t]) (sp + 4) s1 := k1
    have e2 := cmp_eval (Src.get (Src.loc (x := sp + 2) (j := 2) rfl (by omega)) k1) (Src.get (Src.arg hp ap) k1)
    have e2 : cmp (sp + 2) p s1 = .ok (if (v : Int) + 1 < n then -1 else if (v : Int) + 1 = n then 0 else 1, s1) := e2
    refine ⟨_, s1, _, by unfold mrLoop; rw [chk_ok e1, bind_ok e2]; rfl, k1, ?_⟩
    have hi : (∃ i ≤ 0, v ^ 2 ^ i % n = n - 1) ↔ v + 1 = n := by
      constructor
      · rintro ⟨i, hi, e⟩
        obtain rfl : i = 0 := by omega
        rw [pow_zero, pow_one, Nat.mod_eq_of_lt hv] at e; omega
      · intro e; exact ⟨0, le_refl _, by rw [pow_zero, pow_one, Nat.mod_eq_of_lt hv]; omega⟩
    rw [hi]
    by_cases c : v + 1 = n
    · left; refine ⟨?_, c⟩
      rw [if_pos (cmp_sign.2 (by omega))]
    · right; refine ⟨?_, c⟩
      rw [if_neg (by rw [cmp_sign]; omega)]
  | b + 1, v, t, s, h, hv, hb => by
    have e0 := absOne_run hw.pos (n := v) (Src.get (Src.loc (x := sp + 2) (j := 2) rfl (by omega)) h)
    unfold mrLoop
    rw [bind_ok e0]
    by_cases c1 : v = 1
    · subst c1
      rw [if_pos (by simp)]
      refine ⟨0, s, _, rfl, h, Or.inr ⟨rfl, ?_⟩⟩
      rintro ⟨i, -, e⟩
      rw [one_pow, Nat.mod_eq_of_lt (by omega)] at e; omega
    rw [if_neg (by simpa using c1)]
    obtain ⟨s1, e1, k1⟩ := cn_copy hK h rfl (r := sp + 3) (i := 3) rfl (by omega) (Src.loc (x := sp + 2) (j := 2) rfl (by omega)) rfl
    have k1 : At K (NV w sp A [x, y, (v : Int), (v : Int)]) (sp + 4) s1 := k1
    obtain ⟨s2, e2, k2⟩ := cn_add hw hK k1 rfl (r := sp + 3) (i := 3) rfl (by omega) (Src.loc (x := sp + 3) (j := 3) rfl (by omega)) (Src.arg h1 a1) rfl rfl
    have k2 : At K (NV w sp A [x, y, (v : Int), (v : Int) + 1]) (sp + 4) s2 := k2
    have e3 := cmp_eval (Src.get (Src.loc (x := sp + 3) (j := 3) rfl (by omega)) k2) (Src.get (Src.arg hp ap) k2)
    have e3 : cmp (sp + 3) p s2 = .ok (if (v : Int) + 1 < n then -1 else if (v : Int) + 1 = n then 0 else 1, s2) := e3
    rw [chk_ok e1, chk_ok e2, bind_ok e3]
    by_cases c2 : v + 1 = n
    · rw [if_pos (cmp_sign.2 (by omega))]
      exact ⟨1, s2, _, rfl, k2, Or.inl ⟨rfl, 0, by omega, by rw [pow_zero, pow_one, Nat.mod_eq_of_lt hv]; omega⟩⟩
    rw [if_neg (by rw [cmp_sign]; omega)]
    obtain ⟨s4, e4, k4⟩ := cn_mul rfl hw hK k2 rfl (r := sp + 2) (i := 2) rfl (by omega) (Src.loc (x := sp + 2) (j := 2) rfl (by omega))
      (Src.loc (x := sp + 2) (j := 2) rfl (by omega)) rfl rfl
    have k4 : At K (NV w sp A [x, y, (v : Int) * v, (v : Int) + 1]) (sp + 4) s4 := k4
    obtain ⟨s5, e5, k5⟩ := cn_mod rfl hw hK k4 rfl (r := sp + 2) (i := 2) rfl (by omega) (Src.loc (x := sp + 2) (j := 2) rfl (by omega))
      (Src.arg hp ap) (by omega) (by omega) rfl rfl
    have k5 : At K (NV w sp A [x, y, ((v * v % n : Nat) : Int), (v : Int) + 1]) (sp + 4) s5 := by push_cast; exact k5
    obtain ⟨st, s6, L, e6, k6, h6⟩ := mrLoop_calm hw hK hp h1 ap a1 hn b (v * v % n) _ s5 k5 (Nat.mod_lt _ (by omega)) (by omega)
    refine ⟨st, s6, L, by rw [chk_ok e4, chk_ok e5, e6], k6, ?_⟩
    have hi : (∃ i ≤ b + 1, v ^ 2 ^ i % n = n - 1) ↔ ∃ i ≤ b, (v * v % n) ^ 2 ^ i % n = n - 1 := by
      have key : ∀ i, (v * v % n) ^ 2 ^ i % n = v ^ 2 ^ (i + 1) % n := fun i => by
        rw [← Nat.pow_mod, ← pow_two, ← pow_mul, pow_succ 2 i, mul_comm 2]
      constructor
      · rintro ⟨i, hi, e⟩
        cases i with
        | zero => rw [pow_zero, pow_one, Nat.mod_eq_of_lt hv] at e; omega
        | succ i => exact ⟨i, by omega, by rw [key]; exact e⟩
      · rintro ⟨i, hi, e⟩
        exact ⟨i + 1, by omega, by rw [← key]; exact e⟩
    rw [hi]; exact h6

theorem two_pow_odd_unique : ∀ {a b x y : Nat}, 2 ^ a * x = 2 ^ b * y → x % 2 = 1 → y % 2 = 1 → a = b ∧ x = y
  | 0, 0, x, y, h, _, _ => ⟨rfl, by simpa using h⟩
  | 0, b + 1, x, y, h, hx, _ => by rw [pow_zero, Nat.one_mul, pow_succ, Nat.mul_assoc, Nat.mul_left_comm] at h; omega
  | a + 1, 0, x, y, h, _, hy => by rw [pow_zero, Nat.one_mul, pow_succ, Nat.mul_assoc, Nat.mul_left_comm] at h; omega
  | a + 1, b + 1, x, y, h, hx, hy => by
    rw [pow_succ, pow_succ, mul_right_comm, mul_right_comm (2 ^ b)] at h
    obtain ⟨e1, e2⟩ := two_pow_odd_unique (Nat.eq_of_mul_eq_mul_right (by omega) h) hx hy
    exact ⟨by rw [e1], e2⟩

theorem passesMR_calm (hw : DigitWidth w) (hK : K.Calm) (h : At K A sp s) {p n fuel : Nat} (hp : p < sp) (ap : ∀ o, A p o → o.Shows w n) (hn : 2 ≤ n)
    (hf : n.size ≤ fuel) (bs : List Byte) (hl : bs.length = (n.size + 7) / 8) (hV : (2 ^ w) ^ ((n.size - 1) / w) ≤ beVal bs) :
    ∃ st s', passesMR w sp fuel p bs s = .ok (st, s') ∧ At K A sp s' ∧
      ((st = 1 ∧ StrongTest n (rangeVal n bs)) ∨ (st = 0 ∧ ¬ StrongTest n (rangeVal n bs))) := by
  have hw0 : 0 < w := by have := hw.pos; omega
  obtain ⟨b, o, hbo, ho⟩ := exists_odd_part (n := n - 1) (by omega)
  have ho1 : 1 ≤ o := by omega
  have hbf : b < fuel := by
    have h1 : 2 ^ b < n := by
      calc 2 ^ b ≤ 2 ^ b * o := Nat.le_mul_of_pos_right _ (by omega)
        _ = n - 1 := hbo.symm
        _ < n := by omega
    have h2 := Nat.lt_size_self n
    have := (Nat.pow_lt_pow_iff_right (by omega : 1 < 2)).1 (h1.trans h2)
    omega
  obtain ⟨s0, e0, h0⟩ := decl_run h 5
  unfold passesMR
  rw [bind_ok e0]
  obtain ⟨s1, e1, h1⟩ := const_at (N := 4) (by rw [show sp + 1 + 4 = sp + 5 by omega]; exact h0) 1
  rw [bind_ok e1]
  set C : Env := Function.update A sp (· = ⟨some ⟨false, 1, 1⟩, .mem false [some 1]⟩) with hC
  have hlist : ∀ v, v ∈ [sp + 1, sp + 2, sp + 3, sp + 4] ↔ sp + 1 ≤ v ∧ v < sp + 1 + 4 := by
    intro v; simp only [List.mem_cons, List.not_mem_nil, or_false]; omega
  obtain ⟨s2, e2, h2⟩ := initList_calm hw0 hK h1 hlist (by simp)
  rw [chk_ok e2]
  have h2 : At K (NV w (sp + 1) C [0, 0, 0, 0]) (sp + 1 + 4) s2 := h2
  have c1 : ∀ o, C sp o → o.Shows w 1 := fun o ho => by rw [hC, Function.update_self] at ho; rw [ho]; exact one_shows hw 1
  have cp : ∀ o, C p o → o.Shows w n := fun o ho => by rw [hC, Function.update_of_ne (by omega)] at ho; exact ap o ho
  obtain ⟨s3, e3, h3⟩ := calcBM_calm hw hK h2 (m := sp + 2) (p := p) (z := 0) (by omega) (by omega) (by omega)
    (fun ob hob => by rw [show sp + 2 = sp + 1 + 1 by omega, NV.hi] at hob; exact hob) (fun ob hob => by rw [NV.lo (by omega)] at hob; exact cp ob hob)
    hbo (by omega) ho hbf
  have h3 : At K (NV w (sp + 1) C [0, (o : Int), 0, 0]) (sp + 1 + 4) s3 := by
    refine h3.le ?_
    rw [show sp + 2 = sp + 1 + 1 by omega]
    exact Nums.set (Q := fun z => V w z 0) (L := [0, 0, 0, 0]) (i := 1) (by simp)
  have e3 : calcBM w (sp + 5) fuel (sp + 2) p s2 = .ok ((b : Int), s3) := by rw [show sp + 5 = sp + 1 + 4 by omega]; exact e3
  obtain ⟨s4, e4, h4⟩ := cn_leaf hK h3 (i := 0) (by omega) rfl (randRange_leaf hw (x := p) (Nums.val h3 (j := 0) (by omega)) (le_refl _)
    (Src.get (Src.arg (by omega) cp) h3) (by omega) (by omega) (by omega) (by omega) bs hl hV) rfl
  have h4 : At K (NV w (sp + 1) C [(rangeVal n bs : Int), (o : Int), 0, 0]) (sp + 1 + 4) s4 := h4
  have e4 : randRange w (sp + 5) (sp + 1) p bs s3 = .ok (0, s4) := by rw [show sp + 5 = sp + 1 + 4 by omega]; exact e4
  obtain ⟨s5, e5, h5⟩ := cn_modExp (by omega : sp + 5 = sp + 1 + 4) hw hK h4 rfl (r := sp + 3) (i := 2) (by omega) (by omega)
    (Src.loc (x := sp + 1) (j := 0) (by omega) (by omega)) (Src.loc (x := sp + 2) (j := 1) (by omega) (by omega)) (Src.arg (x := p) (by omega) cp)
    (show (0 : Int) ≤ (o : Int) by omega) (by omega) rfl rfl
  set a := rangeVal n bs with ha
  have h5 : At K (NV w (sp + 1) C [(a : Int), (o : Int), ((a ^ o % n : Nat) : Int), 0]) (sp + 1 + 4) s5 := by
    have e : ((a ^ o % n : Nat) : Int) = (a : Int) ^ (o : Int).toNat % (n : Int) := by rw [Int.toNat_natCast]; push_cast; rfl
    rw [e]; exact h5
  have e6 := absOne_run hw.pos (n := a ^ o % n) (a := sp + 3) (Src.get (Src.loc (x := sp + 3) (j := 2) (by omega) (by omega)) h5)
  have huniq : StrongTest n a ↔ (a ^ o % n = 1 ∨ ∃ i ≤ b, (a ^ o % n) ^ 2 ^ i % n = n - 1) := by
    have key : ∀ i, (a ^ o % n) ^ 2 ^ i % n = a ^ (o * 2 ^ i) % n := fun i => by rw [← Nat.pow_mod, ← pow_mul]
    simp only [key]
    constructor
    · rintro ⟨b', o', x1, x2, x3⟩
      obtain ⟨rfl, rfl⟩ := two_pow_odd_unique (hbo.symm.trans x1) ho x2
      exact x3
    · intro x; exact ⟨b, o, hbo, ho, x⟩
  have hbody : ∃ st s' L, (do
      let b ← calcBM w (sp + 5) fuel (sp + 2) p
      if b < 0 then pure (-1)
      else
        chk (randRange w (sp + 5) (sp + 1) p bs) <|
        chk (modExp w (sp + 5) (sp + 3) (sp + 1) (sp + 2) (some p)) do
          if ← absOne (sp + 3) then pure 1
          else mrLoop w (sp + 5) p sp (sp + 3) (sp + 4) b.toNat : M Int) s2 = .ok (st, s') ∧ At K (NV w (sp + 1) C L) (sp + 1 + 4) s' ∧
      ((st = 1 ∧ StrongTest n a) ∨ (st = 0 ∧ ¬ StrongTest n a)) := by
    rw [bind_ok e3, if_neg (by omega), chk_ok e4, chk_ok e5, bind_ok e6, huniq]
    by_cases c : a ^ o % n = 1
    · rw [if_pos (by simpa using c)]
      exact ⟨1, s5, _, rfl, h5, Or.inl ⟨rfl, Or.inl c⟩⟩
    · rw [if_neg (by simpa using c), Int.toNat_natCast, show sp + 5 = sp + 1 + 4 by omega, show sp + 3 = sp + 1 + 2 by omega, show sp + 4 = sp + 1 + 3 by omega]
      obtain ⟨st, s6, L, e6, h6, h7⟩ := mrLoop_calm hw hK (sp := sp + 1) (p := p) (one := sp) (by omega) (by omega) cp c1 hn b (a ^ o % n) _ s5 h5
        (Nat.mod_lt _ (by omega)) (by
          by_contra hc
          obtain rfl : n = 2 := by omega
          have : b ≠ 0 := by omega
          obtain ⟨b', rfl⟩ := Nat.exists_eq_succ_of_ne_zero this
          rw [pow_succ, mul_right_comm] at hbo; omega)
      refine ⟨st, s6, L, e6, h6, ?_⟩
      rcases h7 with ⟨x, y⟩ | ⟨x, y⟩
      · exact Or.inl ⟨x, Or.inr y⟩
      · exact Or.inr ⟨x, by rintro (z | z); exacts [c z, y z]⟩
  obtain ⟨st, s6, L, e7, h7, h8⟩ := hbody
  obtain ⟨s8, e8, h9⟩ := clearList_calm h7 hlist
  exact ⟨st, s8, by rw [bind_ok e7, bind_ok e8]; rfl, const_exit h9, h8⟩

theorem mrRepeat_calm (hw : DigitWidth w) (hK : K.Calm) {p n fuel : Nat} (hp : p < sp) (ap : ∀ o, A p o → o.Shows w n) (hn : 2 ≤ n)
    (hf : n.size ≤ fuel) : ∀ (bss : List (List Byte)) (res : Int) (s : St), At K A sp s → (bss = [] → res = 1) →
    (∀ bs ∈ bss, bs.length = (n.size + 7) / 8 ∧ (2 ^ w) ^ ((n.size - 1) / w) ≤ beVal bs) →
    ∃ st s', mrRepeat w sp fuel p bss res s = .ok (st, s') ∧ At K A sp s' ∧
      ((st = 1 ∧ ∀ bs ∈ bss, StrongTest n (rangeVal n bs)) ∨ (st = 0 ∧ ¬ ∀ bs ∈ bss, StrongTest n (rangeVal n bs)))
  | [], res, s, h, hr, _ => ⟨res, s, rfl, h, Or.inl ⟨hr rfl, by simp⟩⟩
  | bs :: bss, _, s, h, _, hb => by
    obtain ⟨hl, hV⟩ := hb bs (by simp)
    obtain ⟨st, s1, e1, h1, c1⟩ := passesMR_calm hw hK h hp ap hn hf bs hl hV
    unfold mrRepeat
    rw [bind_ok e1]
    rcases c1 with ⟨rfl, c⟩ | ⟨rfl, c⟩
    · rw [if_neg (by omega)]
      obtain ⟨st, s2, e2, h2, c2⟩ := mrRepeat_calm hw hK hp ap hn hf bss 1 s1 h1 (fun _ => rfl) (fun b hb' => hb b (by simp [hb']))
      refine ⟨st, s2, e2, h2, ?_⟩
      rw [List.forall_mem_cons]
      rcases c2 with ⟨x, y⟩ | ⟨x, y⟩
      · exact Or.inl ⟨x, c, y⟩
      · exact Or.inr ⟨x, fun z => y z.2⟩
    · rw [if_pos (le_refl _)]
      exact ⟨0, s1, rfl, h1, Or.inr ⟨rfl, fun z => c (z bs (by simp))⟩⟩

theorem isPrime_calm (hw : DigitWidth w) (hK : K.Calm) (h : At K A sp s) {p n fuel : Nat} (hp : p < sp) (ap : ∀ o, A p o → o.Shows w n) (hn : n ≠ 1)
    (hf : n.size ≤ fuel) (draw : Nat → List Byte)
    (hd : NoSmall n → ∀ i < 5, (draw i).length = (n.size + 7) / 8 ∧ (2 ^ w) ^ ((n.size - 1) / w) ≤ beVal (draw i)) :
    ∃ st s', isPrime w sp fuel p draw s = .ok (st, s') ∧ At K A sp s' ∧
      ((st = 1 ∧ Verdict n fun i => rangeVal n (draw i)) ∨ (st = 0 ∧ ¬ Verdict n fun i => rangeVal n (draw i))) := by
  obtain ⟨st, s1, e1, h1, c⟩ := trial_calm hw hK h hp ap
  unfold isPrime
  rw [bind_ok e1]
  rcases c with ⟨rfl, c⟩ | ⟨rfl, q, q1, q2, q3, q4, q5⟩ | ⟨rfl, c⟩
  · rw [if_neg (by omega), if_pos rfl]
    exact ⟨1, s1, rfl, h1, Or.inl ⟨rfl, Or.inl c⟩⟩
  · rw [if_neg (by omega), if_neg (by omega), if_pos rfl]
    refine ⟨0, s1, rfl, h1, Or.inr ⟨rfl, ?_⟩⟩
    rintro (⟨v1, -, -⟩ | ⟨v, -⟩)
    · rcases (Nat.dvd_prime v1).1 q4 with x | x
      · exact absurd x q1.one_lt.ne'
      · exact q5 x
    · exact v q q1 q2 q3 q4
  · rw [if_pos rfl]
    have h2n : 2 ≤ n := by
      by_contra hc
      have : n = 0 := by omega
      subst this
      exact c 3 (by decide) (by omega) (by omega) (dvd_zero 3)
    have hm : ∀ P : List Byte → Prop, (∀ bs ∈ [draw 0, draw 1, draw 2, draw 3, draw 4], P bs) ↔ ∀ i < 5, P (draw i) := fun P => by
      simp only [List.forall_mem_cons, List.not_mem_nil, false_imp_iff, implies_true, and_true]
      constructor
      · rintro ⟨x0, x1, x2, x3, x4⟩ i hi
        interval_cases i <;> assumption
      · intro x
        exact ⟨x 0 (by omega), x 1 (by omega), x 2 (by omega), x 3 (by omega), x 4 (by omega)⟩
    obtain ⟨st, s2, e2, h2, c2⟩ := mrRepeat_calm hw hK hp ap h2n hf [draw 0, draw 1, draw 2, draw 3, draw 4] 0 s1 h1 (by simp) ((hm _).2 (hd c))
    refine ⟨st, s2, e2, h2, ?_⟩
    rw [hm (fun bs => StrongTest n (rangeVal n bs))] at c2
    rcases c2 with ⟨x, y⟩ | ⟨x, y⟩
    · exact Or.inl ⟨x, Or.inr ⟨c, y⟩⟩
    · refine Or.inr ⟨x, ?_⟩
      rintro (⟨v1, v2, v3⟩ | ⟨-, v⟩)
      · exact c n v1 v2 v3 dvd_rfl
      · exact y v

end Verif.Mem
