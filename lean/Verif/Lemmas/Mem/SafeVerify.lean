import Verif.Lemmas.Mem.SafePk
import Verif.Lemmas.Mem.EcdsaLost
/-! `cry_ecdsa_verify` when a request for its local points fails. -/
namespace Verif.Mem
open Verif.Mpi

variable {w : Nat} {K : Ctx} {E A : Env} {S sp : Nat} {s : St} {g q r t : Nat}

theorem init_refused (a : Nat) (hf : s.fails s.tick = true) : ∃ s', init a s = .ok (-1, s') := by
  have hr : request 1 s = .ok (false, { s with tick := s.tick + 1 }) := if_pos hf
  exact ⟨_, by unfold init; rw [bind_ok hr]; rfl⟩

/-- Three numbers of which the first can be allocated and another cannot: the first two can be cleared again. -/
theorem init3_late (hw : 0 < w) (h : At K E S s) (hq : q + 2 < S) (ho : ∀ v, q ≤ v → v ≤ q + 2 → ∀ o, E v o → o.owns = 0)
    (f0 : s.fails s.tick = false) (f : s.fails (s.tick + 1) = true ∨ s.fails (s.tick + 2) = true) :
    ∃ s', initList [q, q + 1, q + 2] s = .ok (-1, s') ∧
      At K (Function.update (Function.update (Function.update E q Null) (q + 1) Null) (q + 2) fun o => o.owns = 0) S s' := by
  have own : ∀ v, q ≤ v → v ≤ q + 2 → (s.obj v).owns = 0 := fun v h1 h2 => ho v h1 h2 _ (h.objs v (by omega))
  have v0 : ∀ {o : Obj}, V w 0 8 o → Null o ∨ ∃ m, o.Holds m := fun h => h.clr
  obtain ⟨st, s1, e1, t1, r1⟩ := init_run (w := w) (sp := S) hw (own q (by omega) (by omega))
  obtain ⟨s1', e1', -, -⟩ := init_ok q f0
  rw [e1] at e1'; cases e1'
  have r1 : V w 0 8 (s1.obj q) := by
    rcases r1 with ⟨-, r1⟩ | ⟨c, -⟩
    · exact r1
    · cases c
  have k1 := init_tick e1
  have h1 := step_at (P := V w 0 8) h (by omega) t1 r1
  obtain ⟨st2, s2, e2, t2, r2⟩ := init_run (w := w) (sp := S) (s := s1) (a := q + 1) hw (by rw [t1.frame _ (by omega) (by omega)]; exact own _ (by omega) (by omega))
  rcases r2 with ⟨rfl, r2⟩ | ⟨rfl, -, r2⟩
  · have f2 : s.fails (s.tick + 2) = true := by
      rcases f with f | f
      · obtain ⟨s', e'⟩ := init_refused (s := s1) (q + 1) (by rw [t1.fails, k1]; exact f)
        rw [e2] at e'; cases e'
      · exact f
    have k2 := init_tick e2
    have h2 := step_at (P := V w 0 8) h1 (by omega) t2 r2
    obtain ⟨st3, s3, e3, t3, r3⟩ := init_run (w := w) (sp := S) (s := s2) (a := q + 2) hw (by
      rw [t2.frame _ (by omega) (by omega), t1.frame _ (by omega) (by omega)]; exact own _ (by omega) (by omega))
    obtain ⟨s3', e3'⟩ := init_refused (s := s2) (q + 2) (by rw [t2.fails, t1.fails, k2, k1]; exact f2)
    rw [e3] at e3'; cases e3'
    have r3 : Null (s3.obj (q + 2)) := by
      rcases r3 with ⟨c, -⟩ | ⟨-, -, r3⟩
      · cases c
      · exact r3
    have h3 := step_at (P := Null) h2 (by omega) t3 r3
    obtain ⟨s4, e4, h4, -⟩ := clearList_at [q, q + 1] _ s3 h3 (by intro a ha; simp at ha; omega) (by
      intro a ha o ho
      simp at ha
      rcases ha with rfl | rfl
      · rw [Function.update_of_ne (by omega), Function.update_of_ne (by omega), Function.update_self] at ho; exact v0 ho
      · rw [Function.update_of_ne (by omega), Function.update_self] at ho; exact v0 ho)
    refine ⟨s4, ?_, h4.le fun v hv o ho => ?_⟩
    · unfold initList initListLoop
      rw [bind_ok e1, if_pos rfl]
      unfold initListLoop
      rw [bind_ok e2, if_pos rfl]
      unfold initListLoop
      rw [bind_ok e3, if_neg (by decide)]
      exact (bind_ok e4).trans rfl
    · unfold Sets at ho
      by_cases c2 : v = q + 2
      · subst c2
        rw [if_neg (by simp), Function.update_self] at ho
        rw [Function.update_self]; exact ho.owns
      rw [Function.update_of_ne c2]
      by_cases c1 : v = q + 1
      · subst c1
        rw [if_pos (by simp)] at ho
        rw [Function.update_self, ho]; exact null_cleared
      rw [Function.update_of_ne c1]
      by_cases c0 : v = q
      · subst c0
        rw [if_pos (by simp)] at ho
        rw [Function.update_self, ho]; exact null_cleared
      rw [Function.update_of_ne c0]
      rw [if_neg (by simp; omega), Function.update_of_ne c2, Function.update_of_ne c1, Function.update_of_ne c0] at ho
      exact ho
  · have h2 := step_at (P := Null) h1 (by omega) t2 r2
    obtain ⟨s4, e4, h4, -⟩ := clearList_at [q] _ s2 h2 (by intro a ha; simp at ha; omega) (by
      intro a ha o ho
      simp at ha
      subst ha
      rw [Function.update_of_ne (by omega), Function.update_self] at ho; exact v0 ho)
    refine ⟨s4, ?_, h4.le fun v hv o ho' => ?_⟩
    · unfold initList initListLoop
      rw [bind_ok e1, if_pos rfl]
      unfold initListLoop
      rw [bind_ok e2, if_neg (by decide)]
      exact (bind_ok e4).trans rfl
    · unfold Sets at ho'
      by_cases c2 : v = q + 2
      · subst c2
        rw [if_neg (by simp), Function.update_of_ne (by omega), Function.update_of_ne (by omega)] at ho'
        rw [Function.update_self]; exact ho _ (by omega) (by omega) o ho'
      rw [Function.update_of_ne c2]
      by_cases c1 : v = q + 1
      · subst c1
        rw [if_neg (by simp), Function.update_self] at ho'
        rw [Function.update_self]; exact ho'
      rw [Function.update_of_ne c1]
      by_cases c0 : v = q
      · subst c0
        rw [if_pos (by simp)] at ho'
        rw [Function.update_self, ho']; exact null_cleared
      rw [Function.update_of_ne c0]
      rw [if_neg (by simp; omega), Function.update_of_ne c1, Function.update_of_ne c0] at ho'
      exact ho'

/-- Three numbers of which one cannot be allocated. -/
theorem init3_refused (hw : 0 < w) (h : At K E S s) (hq : q + 2 < S) (ho : ∀ v, q ≤ v → v ≤ q + 2 → ∀ o, E v o → o.owns = 0)
    (f : ∃ k, k < 3 ∧ s.fails (s.tick + k) = true) :
    ∃ s', initList [q, q + 1, q + 2] s = .ok (-1, s') ∧ At K (Sets E [q, q + 1, q + 2] fun o => o.owns = 0) S s' := by
  by_cases f0 : s.fails s.tick = true
  · obtain ⟨st, s1, e1, t1, r1⟩ := init_run (w := w) (sp := S) hw (ho q (by omega) (by omega) _ (h.objs q (by omega)))
    obtain ⟨s1', e1'⟩ := init_refused q f0
    rw [e1] at e1'; cases e1'
    have r1 : Null (s1.obj q) := by
      rcases r1 with ⟨c, -⟩ | ⟨-, -, r1⟩
      · cases c
      · exact r1
    refine ⟨s1, ?_, (step_at (P := Null) h (by omega) t1 r1).le fun v hv o ho' => ?_⟩
    · unfold initList initListLoop
      rw [bind_ok e1, if_neg (by decide)]; rfl
    · unfold Sets
      by_cases c0 : v = q
      · subst c0; rw [Function.update_self] at ho'; rw [if_pos (by simp)]; exact ho'.owns
      rw [Function.update_of_ne c0] at ho'
      split_ifs with c
      · simp at c; exact ho v (by omega) (by omega) o ho'
      · exact ho'
  · obtain ⟨s', e, h'⟩ := init3_late hw h hq ho (by simpa using f0) (by
      obtain ⟨k, k1, k2⟩ := f
      obtain rfl | rfl | rfl : k = 0 ∨ k = 1 ∨ k = 2 := by omega
      · exact absurd k2 f0
      · exact Or.inl k2
      · exact Or.inr k2)
    refine ⟨s', e, h'.le fun v hv o ho' => ?_⟩
    unfold Sets
    by_cases c2 : v = q + 2
    · subst c2; rw [Function.update_self] at ho'; rw [if_pos (by simp)]; exact ho'
    rw [Function.update_of_ne c2] at ho'
    by_cases c1 : v = q + 1
    · subst c1; rw [Function.update_self] at ho'; rw [if_pos (by simp)]; exact ho'.owns
    rw [Function.update_of_ne c1] at ho'
    by_cases c0 : v = q
    · subst c0; rw [Function.update_self] at ho'; rw [if_pos (by simp)]; exact ho'.owns
    rw [Function.update_of_ne c0] at ho'
    rw [if_neg (by simp; omega)]; exact ho'

/-- Clearing is undefined or leaves all other objects alone. -/
theorem clearList_cases : ∀ (as : List Nat) (s : St), clearList as s = .ub ∨ ∃ s', clearList as s = .ok ((), s') ∧ ∀ v, v ∉ as → s'.obj v = s.obj v
  | [], s => Or.inr ⟨s, rfl, fun _ _ => rfl⟩
  | a :: as, s => by
    unfold clearList
    rcases clear_cases a s with e | ⟨-, s1, e, h1⟩
    · left; rw [bind_apply, e]
    · rcases clearList_cases as s1 with e2 | ⟨s2, e2, h2⟩
      · left; rw [bind_ok e, e2]
      · refine Or.inr ⟨s2, by rw [bind_ok e, e2], fun v hv => ?_⟩
        simp at hv
        rw [h2 v hv.2, h1 v hv.1]

theorem ecpClearList_one {s' : St} (e : clearList [q, q + 1, q + 2] s = .ok ((), s')) : ecpClearList [q] s = .ok ((), s') := by
  unfold ecpClearList
  rw [bind_ok (show ecpClear q s = _ from e)]; rfl

/-- The beginning: `z` and `w` are allocated, the points come into being. -/
theorem ecdsaVerify_start (hw : DigitWidth w) (h : At K A sp s) (hf : ∀ k, k < 2 → s.fails (s.tick + k) = false) :
    ∃ s0 s1 s2, decl sp 2 s = .ok ((), s0) ∧ initList [sp, sp + 1] s0 = .ok (0, s1) ∧ decl (sp + 2) 6 s1 = .ok ((), s2) ∧
      s2.tick = s.tick + 2 ∧ At K (Locals (sp + 2) (NV w sp A (List.replicate 2 0)) (· = Obj.fresh)) (sp + 2 + 6) s2 := by
  have hw0 : 0 < w := by have := hw.pos; omega
  obtain ⟨s0, e0, h0⟩ := decl_run h 2
  have d0 : s0.tick = s.tick ∧ s0.fails = s.fails := by unfold decl at e0; cases e0; exact ⟨rfl, rfl⟩
  obtain ⟨s1, e1, h1, t1⟩ := initList_some hw0 h0 two_mem' (by simp) (fun k hk => by rw [d0.1, d0.2]; exact hf k hk)
  obtain ⟨s2, e2, h2⟩ := decl_run h1 6
  have d2 : s2.tick = s1.tick := by unfold decl at e2; cases e2; rfl
  exact ⟨s0, s1, s2, e0, e1, e2, by rw [d2, t1, d0.1]; rfl, h2⟩

theorem ecdsaVerify_early (hw : DigitWidth w) (h : At K A sp s) (msg : List Byte) (hf : ∀ k, k < 2 → s.fails (s.tick + k) = false)
    (f : ∃ k, 2 ≤ k ∧ k < 6 ∧ s.fails (s.tick + k) = true) : ecdsaVerify w sp g q r t msg s = .ub := by
  have hw0 : 0 < w := by have := hw.pos; omega
  obtain ⟨s0, s1, s2, e0, e1, e2, t2, h2⟩ := ecdsaVerify_start hw h hf
  have f2 : s2.fails = s.fails := h2.orc.trans h.orc.symm
  have fr : ∀ v, sp + 2 ≤ v → ∀ o, Locals (sp + 2) (NV w sp A (List.replicate 2 0)) (· = Obj.fresh) v o → o = Obj.fresh := fun v hv o ho => by
    rwa [Locals.hi hv] at ho
  unfold ecdsaVerify
  rw [bind_ok e0, chk_ok e1, bind_ok e2]
  by_cases c : ∃ k, k < 3 ∧ s2.fails (s2.tick + k) = true
  · obtain ⟨s3, e3, h3⟩ := init3_refused hw0 h2 (q := sp + 2) (by omega) (fun v h1 h2 o ho => by rw [fr v h1 o ho]; rfl) c
    have e4 : ecpInitList w [sp + 2, sp + 5] s2 = .ok (-1, s3) := by
      unfold ecpInitList ecpInitListLoop
      rw [bind_ok (show ecpInit w (sp + 2) s2 = _ by unfold ecpInit; rw [chk_fail e3 (by decide)]), if_neg (by decide)]; rfl
    rw [bind_ok (chk_fail e4 (by decide)), bind_apply, clearList_ub (v := sp + 5) _ _ (by simp)]
    have := h3.objs (sp + 5) (by omega)
    unfold Sets at this
    rw [if_neg (by simp)] at this
    rw [fr _ (by omega) _ this]; rfl
  · have c' : ∀ k, k < 3 → s2.fails (s2.tick + k) = false := fun k hk => by
      by_contra hh; exact c ⟨k, hk, by simpa using hh⟩
    have f5 : s.fails (s.tick + 5) = true := by
      obtain ⟨k, k1, k2, k3⟩ := f
      by_cases hk : k = 5
      · rw [hk] at k3; exact k3
      · have := c' (k - 2) (by omega)
        rw [f2, t2, show s.tick + 2 + (k - 2) = s.tick + k by omega, k3] at this
        cases this
    obtain ⟨s3, e3, h3, t3⟩ := ecpInit_tick hw h2 (q := sp + 2) (by omega) (fun v h1 h2 o ho => by rw [fr v h1 o ho]; rfl) c'
    obtain ⟨s4, e4, h4⟩ := ecpInit_no w (sp + 5) (s := s3) (by
      rw [show s3.fails = s.fails from h3.orc.trans h.orc.symm, t3, t2]; exact f5)
    have o6 : (s4.obj (sp + 6)).data = .indet := by
      have := h3.objs (sp + 6) (by omega)
      rw [But8.ne (by omega)] at this
      rw [h4 _ (by omega), fr _ (by omega) _ this]; rfl
    rcases clearList_cases [sp + 2, sp + 2 + 1, sp + 2 + 2] s4 with e5 | ⟨s5, e5, h5⟩
    · have : ecpInitList w [sp + 2, sp + 5] s2 = .ub := by
        unfold ecpInitList ecpInitListLoop
        rw [bind_ok e3, if_pos rfl]
        unfold ecpInitListLoop
        rw [bind_ok e4, if_neg (by decide), List.nil_append]
        unfold ecpClearList ecpClear
        rw [bind_apply, bind_apply, e5]
      unfold chk
      rw [bind_apply, bind_apply, this]
    · have e6 : ecpInitList w [sp + 2, sp + 5] s2 = .ok (-1, s5) := by
        unfold ecpInitList ecpInitListLoop
        rw [bind_ok e3, if_pos rfl]
        unfold ecpInitListLoop
        rw [bind_ok e4, if_neg (by decide), List.nil_append]
        rw [bind_ok (ecpClearList_one e5)]; rfl
      rw [bind_ok (chk_fail e6 (by decide)), bind_apply, clearList_ub (v := sp + 6) _ _ (by simp)]
      rw [h5 _ (by simp)]; exact o6

theorem ecdsaVerify_late (hw : DigitWidth w) (h : At K A sp s) (msg : List Byte) (hf : ∀ k, k < 6 → s.fails (s.tick + k) = false)
    (f : s.fails (s.tick + 6) = true ∨ s.fails (s.tick + 7) = true) : ∃ s', ecdsaVerify w sp g q r t msg s = .ok (-1, s') ∧ At K A sp s' := by
  have hw0 : 0 < w := by have := hw.pos; omega
  obtain ⟨s0, s1, s2, e0, e1, e2, t2, h2⟩ := ecdsaVerify_start hw h fun k hk => hf k (by omega)
  have f2 : s2.fails = s.fails := h2.orc.trans h.orc.symm
  obtain ⟨s3, e3, h3, t3⟩ := ecpInit_tick hw h2 (q := sp + 2) (by omega) (fun v h1 h2 o ho => by rw [Locals.hi h1] at ho; rw [ho]; rfl) (fun k hk => by
    rw [f2, t2, Nat.add_assoc]; exact hf _ (by omega))
  have f3 : s3.fails = s.fails := h3.orc.trans h.orc.symm
  obtain ⟨s4, e4, h4⟩ := init3_late hw0 h3 (q := sp + 5) (by omega) (fun v h1 h2 o ho => by
      rw [But8.ne (by omega), Locals.hi (by omega)] at ho; rw [ho]; rfl)
    (by rw [f3, t3, t2]; exact hf 5 (by omega)) (by rw [f3, t3, t2]; exact f)
  have e4 : ecpInit w (sp + 5) s3 = .ok (-1, s4) := by unfold ecpInit; rw [chk_fail e4 (by decide)]
  have pt : ∀ v, sp + 2 ≤ v → v ≤ sp + 4 → ∀ o, But8 w (Locals (sp + 2) (NV w sp A (List.replicate 2 0)) (· = Obj.fresh)) (sp + 2) 1 1 0 v o → Any w o := fun v a b o ho => by
    have := (But8.inf (w := w) (E := Locals (sp + 2) (NV w sp A (List.replicate 2 0)) (· = Obj.fresh)) (q := sp + 2)).pt
    obtain rfl | rfl | rfl : v = sp + 2 ∨ v = sp + 2 + 1 ∨ v = sp + 2 + 2 := by omega
    · exact this.x o ho
    · exact this.y o ho
    · exact this.z o ho
  obtain ⟨s5, e5, h5, -⟩ := clearList_at [sp + 2, sp + 2 + 1, sp + 2 + 2] _ s4 h4 (by intro a ha; simp at ha; omega) (by
    intro a ha o ho
    simp at ha
    rw [Function.update_of_ne (by omega), Function.update_of_ne (by omega), Function.update_of_ne (by omega)] at ho
    exact (pt a (by omega) (by omega) o ho).clr)
  have e6 : ecpInitList w [sp + 2, sp + 5] s2 = .ok (-1, s5) := by
    unfold ecpInitList ecpInitListLoop
    rw [bind_ok e3, if_pos rfl]
    unfold ecpInitListLoop
    rw [bind_ok e4, if_neg (by decide), List.nil_append]
    rw [bind_ok (ecpClearList_one e5)]; rfl
  have nv : ∀ v, sp ≤ v → v < sp + 2 → ∀ o, NV w sp A (List.replicate 2 0) v o → Any w o := fun v a b o ho => by
    have := NV.toAny (S := sp + 2) v b o ho
    rwa [Locals.hi a] at this
  obtain ⟨s6, e7, h6, -⟩ := clearList_at [sp, sp + 1, sp + 2, sp + 3, sp + 5, sp + 6] _ s5 h5 (by intro a ha; simp at ha; omega) (by
    intro a ha o ho
    unfold Sets at ho
    split_ifs at ho with c
    · left; rw [ho]; exact null_cleared
    · by_cases c5 : a = sp + 5
      · subst c5
        rw [Function.update_of_ne (by omega), Function.update_of_ne (by omega), Function.update_self] at ho
        exact Or.inl ho
      by_cases c6 : a = sp + 6
      · subst c6
        rw [Function.update_of_ne (by omega), show sp + 6 = sp + 5 + 1 from rfl, Function.update_self] at ho
        exact Or.inl ho
      simp at ha c
      rw [Function.update_of_ne (by omega), Function.update_of_ne (by omega), Function.update_of_ne (by omega), But8.ne (by omega), Locals.lo (by omega)] at ho
      exact (nv a (by omega) (by omega) o ho).clr)
  refine ⟨s6, ?_, (exit_at (sp := sp) (k := 8) h6 fun v h1 h2 o ho => ?_).le fun v hv o ho => ?_⟩
  · unfold ecdsaVerify
    rw [bind_ok e0, chk_ok e1, bind_ok e2, bind_ok (chk_fail e6 (by decide)), bind_ok e7]; rfl
  · unfold Sets at ho
    split_ifs at ho with c1 c2
    · rw [ho]; rfl
    · rw [ho]; rfl
    · have : v = sp + 7 := by simp at c1 c2; omega
      subst this
      rw [show sp + 7 = sp + 5 + 2 from rfl, Function.update_self] at ho
      exact ho
  · unfold Sets at ho
    rw [if_neg (by simp; omega), if_neg (by simp; omega), Function.update_of_ne (by omega), Function.update_of_ne (by omega), Function.update_of_ne (by omega), But8.ne (by omega),
      Locals.lo (by omega), NV.lo hv] at ho
    exact ho

/-- Two numbers of which one cannot be allocated. -/
theorem init2_refused {s' : St} {st : Int} (f : s.fails s.tick = true ∨ s.fails (s.tick + 1) = true) (e : initList [q, q + 1] s = .ok (st, s')) : st ≠ 0 := by
  unfold initList initListLoop at e
  by_cases f0 : s.fails s.tick = true
  · obtain ⟨s1, e1⟩ := init_refused q f0
    rw [bind_ok e1, if_neg (by decide)] at e
    cases e; decide
  · obtain ⟨s1, e1, -, -⟩ := init_ok (s := s) q (by simpa using f0)
    have t1 : s1.fails = s.fails := by
      have hr : request 1 s = .ok (true, { s with tick := s.tick + 1, live := s.live + 1 }) := if_neg f0
      unfold init at e1
      rw [bind_ok hr] at e1
      cases e1; rfl
    obtain ⟨s2, e2⟩ := init_refused (s := s1) (q + 1) (by rw [t1, init_tick e1]; exact f.resolve_left f0)
    rw [bind_ok e1, if_pos rfl] at e
    unfold initListLoop at e
    rw [bind_ok e2, if_neg (by decide)] at e
    rcases clearList_cases ([] ++ [q]) s2 with c | ⟨s3, c, -⟩
    · rw [bind_apply, c] at e; cases e
    · rw [bind_ok c] at e; cases e; decide

/-- `cry_ecdsa_verify` is safe unless `z` and `w` can be allocated and one of the next four requests fails. -/
theorem ecdsaVerify_safe' {Z : Int} {n : Nat} (hw : DigitWidth w) (hg : ∀ o, A g o → o.Shows w Z) (hZ : 0 < Z) (ha : RdC w A (g + 1)) (hb : Rd3 w A (g + 3))
    (hn : ∀ o, A (g + 6) o → o.Shows w n) (hn0 : 0 < n) (hq : Rd3 w A q) (hr : Rd w A r) (ht : Rd w A t)
    (hgs : g + 6 < sp) (hqs : q + 2 < sp) (hrs : r < sp) (hts : t < sp) (msg : List Byte)
    (hf : ¬ ((∀ k, k < 2 → s.fails (s.tick + k) = false) ∧ ∃ k, 2 ≤ k ∧ k < 6 ∧ s.fails (s.tick + k) = true)) (h : At K A sp s) :
    Safe K sp A A (ecdsaVerify w sp g q r t msg s) := by
  have hw0 : 0 < w := by have := hw.pos; omega
  by_cases c : ∀ k, k < 2 → s.fails (s.tick + k) = false
  · have c2 : ∀ k, 2 ≤ k → k < 6 → s.fails (s.tick + k) = false := fun k h1 h2 => by
      by_contra hh; exact hf ⟨c, k, h1, h2, by simpa using hh⟩
    by_cases c3 : s.fails (s.tick + 6) = true ∨ s.fails (s.tick + 7) = true
    · obtain ⟨s', e, h'⟩ := ecdsaVerify_late (g := g) (q := q) (r := r) (t := t) hw h msg (fun k hk => by
        by_cases k2 : k < 2
        · exact c k k2
        · exact c2 k (by omega) hk) c3
      rw [e]
      exact Or.inr ⟨-1, s', rfl, Or.inr ⟨rfl, h'⟩⟩
    · refine ecdsaVerify_safe hw hg hZ ha hb hn hn0 hq hr ht hgs hqs hrs hts msg (fun k h1 h2 => ?_) h
      by_cases k6 : k < 6
      · exact c2 k h1 k6
      · by_contra hh
        obtain rfl | rfl : k = 6 ∨ k = 7 := by omega
        · exact c3 (Or.inl (by simpa using hh))
        · exact c3 (Or.inr (by simpa using hh))
  · unfold ecdsaVerify
    obtain ⟨s0, e0, h0⟩ := decl_run h 2
    have d0 : s0.tick = s.tick ∧ s0.fails = s.fails := by unfold decl at e0; cases e0; exact ⟨rfl, rfl⟩
    rw [bind_ok e0]
    have f : s0.fails s0.tick = true ∨ s0.fails (s0.tick + 1) = true := by
      rw [d0.1, d0.2]
      by_contra hh
      simp only [not_or, Bool.not_eq_true] at hh
      refine c fun k hk => ?_
      obtain rfl | rfl : k = 0 ∨ k = 1 := by omega
      exacts [hh.1, hh.2]
    rcases initList_any (w := w) hw0 h0 two_mem' (by simp) with ⟨s1, e1, h1⟩ | ⟨s1, e1, -, h1⟩
    · exact absurd rfl (init2_refused f e1)
    · rw [chk_fail e1 (by decide)]
      exact Or.inr ⟨-1, s1, rfl, Or.inr ⟨rfl, h1⟩⟩

end Verif.Mem
