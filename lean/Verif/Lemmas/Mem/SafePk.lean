import Verif.Lemmas.Mem.SafeMul
import Verif.Lemmas.Mem.Ecdsa
/-! Memory safety of ECDSA, whichever allocations fail. -/
namespace Verif.Mem
open Verif.Mpi

variable {w : Nat} {K : Ctx} {E A B G : Env} {S sp N : Nat} {s : St} {pr p1 kk g q r t d n : Nat} {Z : Int}

/-- What an object is at this moment may be added to the environment. -/
def pin (E : Env) (s : St) (v : Nat) : Env := Function.update E v (· = s.obj v)

theorem at_pin (h : At K E S s) (v : Nat) : At K (pin E s v) S s := ⟨fun u hu => by
  unfold pin
  by_cases e : u = v
  · subst e; rw [Function.update_self]
  · rw [Function.update_of_ne e]; exact h.objs u hu, h.bal, h.orc, h.tick⟩

theorem pin_le (h : At K E S s) {v : Nat} (hv : v < S) : Le S (pin E s v) E :=
  (Le.refl _ _).update fun o ho => by rw [ho]; exact h.objs v hv

theorem pin_imp (h : At K E S s) {v u : Nat} (hv : v < S) {P : Obj → Prop} (hP : ∀ o, E u o → P o) : ∀ o, pin E s v u o → P o := fun o ho => by
  unfold pin at ho
  by_cases e : u = v
  · subst e; rw [Function.update_self] at ho; rw [ho]; exact hP _ (h.objs u hv)
  · rw [Function.update_of_ne e] at ho; exact hP o ho

/-- The multiple, where the environment does not say what the factor is. -/
theorem ecpMul_any (hw : DigitWidth w) (h1 : Rd3 w E p1) (hg : ∀ o, E g o → o.Shows w Z) (hZ : 0 < Z) (ha : RdC w E (g + 1)) (hk : Rd w E kk)
    (h1s : p1 + 2 < S) (hgs : g + 1 < S) (hks : kk < S) (hpr : Rdy w E pr) (hprs : pr + 2 < S) (hkp : kk < pr ∨ pr + 2 < kk) (h : At K E S s) :
    Safe K S E E (ecpMul w S pr p1 kk g s) := by
  obtain ⟨z, m, m1, m2, m3⟩ := hk _ (h.objs kk hks)
  have ne : ∀ {u}, u ≠ kk → pin E s kk u = E u := fun hu => Function.update_of_ne hu _ _
  refine (ecpMul_safe hw (A := pin E s kk) (m := m) ⟨pin_imp h hks h1.1, pin_imp h hks h1.2.1, pin_imp h hks h1.2.2⟩ (pin_imp h hks hg) hZ (ha.imp (pin_imp h hks) (pin_imp h hks))
    (fun o ho => ?_) h1s hgs hks ⟨?_, ?_, ?_⟩ hprs (at_pin h kk)).mono (pin_le h hks) (pin_le h hks)
  · unfold pin at ho; rw [Function.update_self] at ho; rw [ho]; exact m3
  · rw [ne (by omega)]; exact hpr.1
  · rw [ne (by omega)]; exact hpr.2.1
  · rw [ne (by omega)]; exact hpr.2.2

/-! ### Numbers of requests -/

theorem initList2_tick {a b : Nat} {s s' : St} (h : initList [a, b] s = .ok (0, s')) : s'.tick = s.tick + 2 := by
  have run : ∀ (a : Nat) (s : St), ∃ st s', init a s = .ok (st, s') := fun a s => by
    unfold init
    by_cases hf : s.fails s.tick = true
    · have hr : request 1 s = .ok (false, { s with tick := s.tick + 1 }) := if_pos hf
      rw [bind_ok hr]; exact ⟨_, _, rfl⟩
    · have hr : request 1 s = .ok (true, { s with tick := s.tick + 1, live := s.live + 1 }) := if_neg hf
      rw [bind_ok hr]; exact ⟨_, _, rfl⟩
  have bad : ∀ {c : M Unit} {s s' : St} {st : Int}, st ≠ 0 → (do c; pure st : M Int) s ≠ .ok (0, s') := by
    intro c s s' st hst e
    rw [bind_apply] at e
    split at e
    · cases e; exact hst rfl
    · cases e
    · cases e
  unfold initList initListLoop at h
  obtain ⟨st, s1, e1⟩ := run a s
  rw [bind_ok e1] at h
  split_ifs at h with c1
  swap
  · exact absurd h (bad c1)
  unfold initListLoop at h
  obtain ⟨st2, s2, e2⟩ := run b s1
  rw [bind_ok e2] at h
  split_ifs at h with c2
  swap
  · exact absurd h (bad c2)
  unfold initListLoop at h
  cases h
  rw [init_tick e2, init_tick e1]

theorem ecpInit_tick (hw : DigitWidth w) (h : At K E S s) (hq : q + 2 < S) (ho : ∀ v, q ≤ v → v ≤ q + 2 → ∀ o, E v o → o.owns = 0)
    (hf : ∀ k, k < 3 → s.fails (s.tick + k) = false) :
    ∃ s', ecpInit w q s = .ok (0, s') ∧ At K (But8 w E q 1 1 0) S s' ∧ s'.tick = s.tick + 3 := by
  have hw0 : 0 < w := by have := hw.pos; omega
  obtain ⟨st, s2, e3, h2⟩ := initListLoop_at (w := w) hw0 [q, q + 1, q + 2] [] s (E := E)
    (h.le fun v _ o ho => by unfold Sets; rw [if_neg (by simp)]; exact ho)
    (by intro a ha; simp at ha; omega) (by simp) (by
      intro a ha o hoa
      simp at ha
      exact ho a (by omega) (by omega) o hoa)
  rw [List.nil_append] at h2
  obtain ⟨rfl, t2⟩ := init3_tick e3 hf
  have h2 : At K (Sets E [q, q + 1, q + 2] (V w 0 8)) S s2 := by
    rcases h2 with ⟨-, h2⟩ | ⟨h2, -⟩
    · exact h2
    · cases h2
  have hS : ∀ v, q ≤ v → v ≤ q + 2 → Sets E [q, q + 1, q + 2] (V w 0 8) v = V w 0 8 := fun v h1 h2 => by
    unfold Sets; rw [if_pos (by simp; omega)]
  obtain ⟨s3, s4, s5, e4, e5, e6, h5, t5⟩ := set3_room hw h2 (q := q) (by omega) (x := 1) (y := 1) (z := 0) (by norm_num) (by norm_num) (by norm_num)
    fun v h1 h2 o ho => ⟨0, by rwa [hS v h1 h2] at ho⟩
  refine ⟨s5, ?_, h5.le fun v hv o ho => ?_, by omega⟩
  · unfold ecpInit initList ecpSetZero
    rw [chk_ok e3, ign_run e4, ign_run e5, ign_run e6]; rfl
  · by_cases c : v < q ∨ q + 2 < v
    · rw [But8.ne c] at *
      unfold Sets at ho; rwa [if_neg (by simp; omega)] at ho
    · obtain rfl | rfl | rfl : v = q ∨ v = q + 1 ∨ v = q + 2 := by omega
      all_goals
        unfold But8 at *
        simpa [Function.update] using ho

/-! ### Clearing -/

theorem ecdsaVerify_clearR (h : At K (Locals sp A (AnyR w)) (sp + 8) s) :
    ∃ s1 s2, ecpClearList [sp + 2, sp + 5] s = .ok ((), s1) ∧ clearList [sp, sp + 1, sp + 2, sp + 3, sp + 5, sp + 6] s1 = .ok ((), s2) ∧ At K A sp s2 := by
  have hN : ∀ v, sp ≤ v → ∀ o, Locals sp A (AnyR w) v o → Null o ∨ ∃ m, o.Holds m := by
    intro v hv o ho
    rw [Locals.hi hv] at ho
    exact ho.clr
  obtain ⟨s1, e1, h1, -⟩ := clearList_at [sp + 2, sp + 2 + 1, sp + 2 + 2] _ s h (by intro a ha; simp at ha; omega)
    (fun v hv => hN v (by simp at hv; omega))
  obtain ⟨s2, e2, h2, -⟩ := clearList_at [sp + 5, sp + 5 + 1, sp + 5 + 2] _ s1 h1 (by intro a ha; simp at ha; omega) (by
    intro v hv o ho
    unfold Sets at ho
    rw [if_neg (by simp at hv ⊢; omega)] at ho
    exact hN v (by simp at hv; omega) o ho)
  obtain ⟨s3, e3, h3, -⟩ := clearList_at [sp, sp + 1, sp + 2, sp + 3, sp + 5, sp + 6] _ s2 h2 (by intro a ha; simp at ha; omega) (by
    intro v hv o ho
    unfold Sets at ho
    split_ifs at ho
    · left; rw [ho]; exact null_cleared
    · left; rw [ho]; exact null_cleared
    · exact hN v (by simp at hv; omega) o ho)
  refine ⟨s2, s3, ?_, e3, ?_⟩
  · rw [ecpClearList, bind_ok (show ecpClear (sp + 2) s = _ from e1), ecpClearList, bind_ok (show ecpClear (sp + 5) s1 = _ from e2)]; rfl
  · refine (exit_at h3 fun v h1 h2 o ho => ?_).le fun v hv o ho => ?_
    · unfold Sets at ho
      split_ifs at ho with a1 a2 a3
      · rw [ho]; rfl
      · rw [ho]; rfl
      · rw [ho]; rfl
      · simp at a1 a2 a3; omega
    · unfold Sets at ho
      rw [if_neg (by simp; omega), if_neg (by simp; omega), if_neg (by simp; omega), Locals.lo hv] at ho
      exact ho

theorem ecdsaSign_clearR (h : At K (Locals sp A (AnyR w)) (sp + 5) s) :
    ∃ s1 s2, ecpClear (sp + 2) s = .ok ((), s1) ∧ clearList [sp, sp + 1] s1 = .ok ((), s2) ∧ At K A sp s2 := by
  have hN : ∀ v, sp ≤ v → ∀ o, Locals sp A (AnyR w) v o → Null o ∨ ∃ m, o.Holds m := by
    intro v hv o ho
    rw [Locals.hi hv] at ho
    exact ho.clr
  obtain ⟨s1, e1, h1, -⟩ := clearList_at [sp + 2, sp + 2 + 1, sp + 2 + 2] _ s h (by intro a ha; simp at ha; omega)
    (fun v hv => hN v (by simp at hv; omega))
  obtain ⟨s2, e2, h2, -⟩ := clearList_at [sp, sp + 1] _ s1 h1 (by intro a ha; simp at ha; omega) (by
    intro v hv o ho
    unfold Sets at ho
    rw [if_neg (by simp at hv ⊢; omega)] at ho
    exact hN v (by simp at hv; omega) o ho)
  refine ⟨s1, s2, e1, e2, (exit_at h2 fun v h1 h2 o ho => ?_).le fun v hv o ho => ?_⟩
  · unfold Sets at ho
    split_ifs at ho with a1 a2
    · rw [ho]; rfl
    · rw [ho]; rfl
    · simp at a1 a2; omega
  · unfold Sets at ho
    rw [if_neg (by simp; omega), if_neg (by simp; omega), Locals.lo hv] at ho
    exact ho

theorem two_mem' (v : Nat) : v ∈ [sp, sp + 1] ↔ sp ≤ v ∧ v < sp + 2 := by
  simp only [List.mem_cons, List.not_mem_nil, or_false]; omega

/-! ### ECDSA -/

theorem ecdsaVerify_safe (hw : DigitWidth w) (hg : ∀ o, A g o → o.Shows w Z) (hZ : 0 < Z) (ha : RdC w A (g + 1)) (hb : Rd3 w A (g + 3))
    (hn : ∀ o, A (g + 6) o → o.Shows w n) (hn0 : 0 < n) (hq : Rd3 w A q) (hr : Rd w A r) (ht : Rd w A t)
    (hgs : g + 6 < sp) (hqs : q + 2 < sp) (hrs : r < sp) (hts : t < sp) (msg : List Byte)
    (hf : ∀ k, 2 ≤ k → k < 8 → s.fails (s.tick + k) = false) (h : At K A sp s) : Safe K sp A A (ecdsaVerify w sp g q r t msg s) := by
  have hw0 : 0 < w := by have := hw.pos; omega
  unfold ecdsaVerify
  obtain ⟨s0, e0, h0⟩ := decl_run h 2
  have d0 : s0.tick = s.tick ∧ s0.fails = s.fails := by unfold decl at e0; cases e0; exact ⟨rfl, rfl⟩
  rw [bind_ok e0]
  rcases initList_any (w := w) hw0 h0 two_mem' (by simp) with ⟨s1, e1, h1⟩ | ⟨s1, e1, -, h1⟩
  swap
  · rw [chk_fail e1 (by decide)]
    exact Or.inr ⟨-1, s1, rfl, Or.inr ⟨rfl, h1⟩⟩
  rw [chk_ok e1]
  have t1 := initList2_tick e1
  obtain ⟨s2, e2, h2⟩ := decl_run h1 6
  have d2 : s2.tick = s1.tick ∧ s2.fails = s1.fails := by unfold decl at e2; cases e2; exact ⟨rfl, rfl⟩
  rw [bind_ok e2]
  have orc : ∀ k, 2 ≤ k → k < 8 → K.F (s.tick + k) = false := fun k h1 h2 => by rw [← h.orc]; exact hf k h1 h2
  obtain ⟨s3, e3, h3, t3⟩ := ecpInit_tick hw h2 (q := sp + 2) (by omega) (fun v h1 h2 o ho => by
    rw [Locals.hi h1] at ho; rw [ho]; rfl) (fun k hk => by
    rw [h2.orc, d2.1, t1, d0.1, Nat.add_assoc]; exact orc _ (by omega) (by omega))
  obtain ⟨s4, e4, h4, t4⟩ := ecpInit_tick hw h3 (q := sp + 5) (by omega) (fun v h1 h2 o ho => by
    rw [But8.ne (by omega), Locals.hi (by omega)] at ho; rw [ho]; rfl) (fun k hk => by
    rw [h3.orc, t3, d2.1, t1, d0.1, Nat.add_assoc, Nat.add_assoc]; exact orc _ (by omega) (by omega))
  have ei : ecpInitList w [sp + 2, sp + 5] s2 = .ok (0, s4) := by
    unfold ecpInitList ecpInitListLoop
    rw [bind_ok e3, if_pos rfl]
    unfold ecpInitListLoop
    rw [bind_ok e4, if_pos rfl]
    unfold ecpInitListLoop
    rfl
  set L : Env := Locals sp A (Any w) with hL
  set R : Env := Locals sp A (AnyR w) with hR
  have hi : ∀ v, sp ≤ v → L v = Any w := fun v hv => by rw [hL, Locals.hi hv]
  have lo : ∀ v, v < sp → L v = A v := fun v hv => by rw [hL, Locals.lo hv]
  have lr : Le (sp + 8) L R := Locals.mono fun o ho => ho.r
  have rb : ∀ v, sp ≤ v → ∀ o, AnyR w o → R v o := fun v hv o ho => by rw [hR, Locals.hi hv]; exact ho
  have rA : ∀ v, v < sp → Rd w A v → Rd w L v := fun v hv h o ho => h o (by rwa [lo v hv] at ho)
  have rl : ∀ v, sp ≤ v → Rd w L v := fun v hv => .any (hi v hv)
  have hg' : ∀ o, L g o → o.Shows w Z := fun o ho => hg o (by rwa [lo g (by omega)] at ho)
  have hn' : ∀ o, L (g + 6) o → o.Shows w n := fun o ho => hn o (by rwa [lo (g + 6) (by omega)] at ho)
  have rdy : ∀ v, sp ≤ v → Rdy w L v := fun v hv => loc_rdy hv
  have r3 : ∀ v, v + 2 < sp → Rd3 w A v → Rd3 w L v := fun v hv => loc_rd3 hv
  -- the first use, of the number that is still zero
  have z4 : V w 0 0 (s4.obj sp) := by
    have := h4.objs sp (by omega)
    rw [But8.ne (by omega), But8.ne (by omega), Locals.lo (by omega)] at this
    have h' : NV w sp A (List.replicate 2 0) (sp + 0) (s4.obj sp) := this
    rw [NV.hi] at h'
    exact h'
  have h5 : At K L (sp + 8) s4 := h4.le fun v hv o ho => by
    have pt : ∀ {E : Env} {q : Nat}, q ≤ v → v ≤ q + 2 → But8 w E q 1 1 0 v o → Any w o := fun {E q} a b ho => by
      have := But8.inf (w := w) (E := E) (q := q).pt
      obtain rfl | rfl | rfl : v = q ∨ v = q + 1 ∨ v = q + 2 := by omega
      · exact this.x o ho
      · exact this.y o ho
      · exact this.z o ho
    by_cases c5 : sp + 5 ≤ v
    · rw [hi v (by omega)]; exact pt c5 (by omega) ho
    rw [But8.ne (by omega)] at ho
    by_cases c2 : sp + 2 ≤ v
    · rw [hi v (by omega)]; exact pt c2 (by omega) ho
    rw [But8.ne (by omega), Locals.lo (by omega)] at ho
    exact NV.toAny v (S := sp + 2) (by omega) o ho
  obtain ⟨m, em, -⟩ := cutMsg_run hw0 (v := g + 6) (s := s4) (n := n) (hn' _ (h5.objs (g + 6) (by omega))) msg
  have body : Safe K (sp + 8) R R ((
        chk (loadBin w sp m) <|
        chk (copy (sp + 1) t) <|
        chk (inv w (sp + 8) (sp + 1) (sp + 1) (g + 6)) <|
        chk (mul w (sp + 8) sp sp (sp + 1)) <|
        chk (mod w (sp + 8) sp sp (g + 6)) <|
        chk (mul w (sp + 8) (sp + 1) r (sp + 1)) <|
        chk (mod w (sp + 8) (sp + 1) (sp + 1) (g + 6)) <|
        chk (ecpMul w (sp + 8) (sp + 2) (g + 3) sp g) <|
        chk (ecpMul w (sp + 8) (sp + 5) q (sp + 1) g) <|
        chk (ecpAdd w (sp + 8) (sp + 2) (sp + 2) (sp + 5) g) <|
        chk (mod w (sp + 8) (sp + 2) (sp + 2) (g + 6)) do
          let c ← cmpAbs (sp + 2) r
          pure (if c = 0 then 0 else -1)) s4) := by
    have n0 : (0 : Int) < n := by omega
    refine chk_safe (Safe.of_leaf (G := L) (B := L) h5 (by omega) (loadBin_v hw z4 (le_refl _) m) (upd_any h5 (by omega) (hi _ (by omega)) fun o ho => ho.any)
      (upd_any h5 (by omega) (hi _ (by omega)) fun o ho => ho.any)) lr fun s h => ?_
    refine chk_safe (copy_any_step h (by omega) (hi _ (by omega)) (rA t hts ht) (by omega) lr) (Le.refl _ _) fun s h => ?_
    refine chk_safe (inv_any_step h (by omega) (hi _ (by omega)) hw (rl _ (by omega)) hn' n0 (by omega) (by omega) (by omega) lr) (Le.refl _ _) fun s h => ?_
    refine chk_safe (mul_any_step h (by omega) (hi _ (by omega)) hw (rl _ (by omega)) (rl _ (by omega)) (by omega) (by omega) lr (rb _ (by omega))) (Le.refl _ _) fun s h => ?_
    refine chk_safe (mod_any_step h (by omega) (hi _ (by omega)) hw (rl _ (by omega)) hn' n0 (by omega) (by omega) (by omega) lr) (Le.refl _ _) fun s h => ?_
    refine chk_safe (mul_any_step h (by omega) (hi _ (by omega)) hw (rA r hrs hr) (rl _ (by omega)) (by omega) (by omega) lr (rb _ (by omega))) (Le.refl _ _) fun s h => ?_
    refine chk_safe (mod_any_step h (by omega) (hi _ (by omega)) hw (rl _ (by omega)) hn' n0 (by omega) (by omega) (by omega) lr) (Le.refl _ _) fun s h => ?_
    refine chk_safe (ecpMul_any hw (r3 _ (by omega) hb) hg' hZ (ha.congr (lo _ (by omega))) (rl sp (by omega)) (by omega) (by omega) (by omega) (rdy _ (by omega)) (by omega) (by omega) h) lr fun s h => ?_
    refine chk_safe (ecpMul_any hw (r3 _ (by omega) hq) hg' hZ (ha.congr (lo _ (by omega))) (rl (sp + 1) (by omega)) (by omega) (by omega) (by omega) (rdy _ (by omega)) (by omega) (by omega) h) lr fun s h => ?_
    refine chk_safe (ecpAdd_safe hw (rdy _ (by omega)) (rdy _ (by omega)).rd3 hg' hZ (by omega) (by omega) (by omega) (ha.congr (lo _ (by omega))) (rdy _ (by omega)).rd3 (by omega) h) lr fun s h => ?_
    refine chk_safe (mod_any_step h (by omega) (hi _ (by omega)) hw (rl _ (by omega)) hn' n0 (by omega) (by omega) (by omega) lr) (Le.refl _ _) fun s h => ?_
    obtain ⟨zx, vx⟩ := rl (sp + 2) (by omega) _ (h.objs (sp + 2) (by omega))
    obtain ⟨zr, vr⟩ := rA r hrs hr _ (h.objs r (by omega))
    obtain ⟨c, ec, -⟩ := cmpAbs_shows vx vr
    rw [bind_ok ec]
    split_ifs
    · exact Or.inr ⟨0, s, rfl, Or.inl ⟨rfl, h.le lr⟩⟩
    · exact Or.inr ⟨-1, s, rfl, Or.inr ⟨rfl, h.le lr⟩⟩
  rcases body with hh | ⟨st, s6, e6, h6⟩
  · refine Or.inl (hang_through ?_)
    rw [chk_ok ei, bind_ok em]
    exact hang_through hh
  have hst : st = 0 ∨ st = -1 := h6.imp (fun h => h.1) fun h => h.1
  replace h6 : At K R (sp + 8) s6 := h6.elim (fun h => h.2) fun h => h.2
  obtain ⟨s7, s8, e7, e8, h8⟩ := ecdsaVerify_clearR h6
  refine Or.inr ⟨st, s8, ?_, hst.imp (fun e => ⟨e, h8⟩) fun e => ⟨e, h8⟩⟩
  have inner := chk_ok ei (k := (do
      let m ← cutMsg w (g + 6) msg
      let st ←
        chk (loadBin w sp m) <|
        chk (copy (sp + 1) t) <|
        chk (inv w (sp + 8) (sp + 1) (sp + 1) (g + 6)) <|
        chk (mul w (sp + 8) sp sp (sp + 1)) <|
        chk (mod w (sp + 8) sp sp (g + 6)) <|
        chk (mul w (sp + 8) (sp + 1) r (sp + 1)) <|
        chk (mod w (sp + 8) (sp + 1) (sp + 1) (g + 6)) <|
        chk (ecpMul w (sp + 8) (sp + 2) (g + 3) sp g) <|
        chk (ecpMul w (sp + 8) (sp + 5) q (sp + 1) g) <|
        chk (ecpAdd w (sp + 8) (sp + 2) (sp + 2) (sp + 5) g) <|
        chk (mod w (sp + 8) (sp + 2) (sp + 2) (g + 6)) do
          let c ← cmpAbs (sp + 2) r
          pure (if c = 0 then 0 else -1)
      ecpClearList [sp + 2, sp + 5]
      pure st))
  rw [bind_ok em, bind_ok e6, bind_ok e7] at inner
  rw [bind_ok inner, bind_ok e8]; rfl

theorem ecdsaSign_safe (hw : DigitWidth w) (hg : ∀ o, A g o → o.Shows w Z) (hZ : 0 < Z) (ha : RdC w A (g + 1)) (hb : Rd3 w A (g + 3))
    (hn : ∀ o, A (g + 6) o → o.Shows w n) (hn0 : 0 < n) (hd : Rd w A d) (hr : A r = Any w) (ht : A t = Any w)
    (hgs : g + 6 < sp) (hds : d < sp) (hrs : r < sp) (hts : t < sp) (hgt : g + 6 ≠ t) (msg bs : List Byte) (hl : bs.length = (n.size + 7) / 8)
    (hV : (2 ^ w) ^ ((n.size - 1) / w) ≤ beVal bs) (h : At K A sp s) :
    Safe K sp (Function.update A t (AnyR w)) (Function.update A t (AnyR w)) (ecdsaSign w sp g d r t msg bs s) := by
  have hw0 : 0 < w := by have := hw.pos; omega
  set A' : Env := Function.update A t (AnyR w) with hA'
  have aa : ∀ {S}, Le S A A' := fun v _ o ho => by
    by_cases e : v = t
    · subst e; rw [hA', Function.update_self]; rw [ht] at ho; exact ho.r
    · rwa [hA', Function.update_of_ne e]
  unfold ecdsaSign
  obtain ⟨s0, e0, h0⟩ := decl_run h 2
  rw [bind_ok e0]
  rcases initList_any (w := w) hw0 h0 two_mem' (by simp) with ⟨s1, e1, h1⟩ | ⟨s1, e1, -, h1⟩
  swap
  · rw [chk_fail e1 (by decide)]
    exact Or.inr ⟨-1, s1, rfl, Or.inr ⟨rfl, h1.le aa⟩⟩
  rw [chk_ok e1]
  obtain ⟨s2, e2, h2⟩ := decl_run h1 3
  rw [bind_ok e2]
  obtain ⟨st, s3, e3, h3⟩ := ecpInit_res hw h2 (q := sp + 2) (by omega) fun v h1 h2 o ho => by
    rw [Locals.hi h1] at ho; rw [ho]; rfl
  rw [bind_ok e3]
  rcases h3 with ⟨rfl, h3⟩ | ⟨rfl, -, h3⟩
  swap
  · rw [if_neg (by decide)]
    have h3' : At K (NV w sp A (List.replicate 2 0)) (sp + 2) s3 := (exit_at (k := 3) h3 fun v h1 h2 o ho => by
      unfold Sets at ho
      rw [if_pos (by simp; omega)] at ho
      exact ho).le fun v hv o ho => by
        unfold Sets at ho
        rw [if_neg (by simp; omega), Locals.lo hv] at ho
        exact ho
    obtain ⟨s4, e4, h4, -⟩ := clearList_anyR (w := w) (h3'.le (NV.toAny.trans (Locals.mono fun o ho => ho.r))) two_mem'
    have : (do
        (pure () : M Unit)
        clearList [sp, sp + 1]
        pure 0 : M Int) s3 = .ok (0, s4) := by
      show (do clearList [sp, sp + 1]; pure 0 : M Int) s3 = _
      rw [bind_ok e4]; rfl
    exact Or.inr ⟨0, s4, this, Or.inl ⟨rfl, h4.le aa⟩⟩
  rw [if_pos rfl]
  set L : Env := Locals sp A (Any w) with hL
  set R : Env := Locals sp A' (AnyR w) with hR
  have hi : ∀ v, sp ≤ v → L v = Any w := fun v hv => by rw [hL, Locals.hi hv]
  have lo : ∀ v, v < sp → L v = A v := fun v hv => by rw [hL, Locals.lo hv]
  have lr : Le (sp + 5) L R := fun v hv o ho => by
    by_cases c : v < sp
    · rw [lo v c] at ho; rw [hR, Locals.lo c]; exact aa v hv o ho
    · rw [hi v (by omega)] at ho; rw [hR, Locals.hi (by omega)]; exact ho.r
  have rt : ∀ o, AnyR w o → R t o := fun o ho => by rw [hR, Locals.lo hts, hA', Function.update_self]; exact ho
  have rA : ∀ v, v < sp → Rd w A v → Rd w L v := fun v hv h o ho => h o (by rwa [lo v hv] at ho)
  have rl : ∀ v, sp ≤ v → Rd w L v := fun v hv => .any (hi v hv)
  have hg' : ∀ o, L g o → o.Shows w Z := fun o ho => hg o (by rwa [lo g (by omega)] at ho)
  have hn' : ∀ o, L (g + 6) o → o.Shows w n := fun o ho => hn o (by rwa [lo (g + 6) (by omega)] at ho)
  have Lt : L t = Any w := by rw [lo t hts, ht]
  have Lr : L r = Any w := by rw [lo r hrs, hr]
  have z3 : ∀ i, i < 2 → V w 0 0 (s3.obj (sp + i)) := fun i hi => by
    have := h3.objs (sp + i) (by omega)
    rw [But8.ne (by omega), Locals.lo (by omega), NV.hi] at this
    obtain rfl | rfl : i = 0 ∨ i = 1 := by omega
    · exact this
    · exact this
  have h5 : At K L (sp + 5) s3 := h3.le fun v hv o ho => by
    by_cases c2 : sp + 2 ≤ v
    · rw [hi v (by omega)]
      have := But8.inf (w := w) (E := Locals (sp + 2) (NV w sp A (List.replicate 2 0)) (· = Obj.fresh)) (q := sp + 2).pt
      obtain rfl | rfl | rfl : v = sp + 2 ∨ v = sp + 2 + 1 ∨ v = sp + 2 + 2 := by omega
      · exact this.x o ho
      · exact this.y o ho
      · exact this.z o ho
    rw [But8.ne (by omega), Locals.lo (by omega)] at ho
    exact NV.toAny v (S := sp + 2) (by omega) o ho
  obtain ⟨m, em, -⟩ := cutMsg_run hw0 (v := g + 6) (s := s3) (n := n) (hn' _ (h5.objs (g + 6) (by omega))) msg
  rw [bind_ok em]
  have body : Safe K (sp + 5) R R ((
        chk (loadBin w (sp + 1) m) <|
        chk (randRange w (sp + 5) sp (g + 6) bs) <|
        chk (ecpMul w (sp + 5) (sp + 2) (g + 3) sp g) do
          swap r (sp + 2)
          chk (inv w (sp + 5) sp sp (g + 6)) <|
            chk (mul w (sp + 5) t d r) <|
            chk (add (2 ^ w) t t (sp + 1)) <|
            chk (mul w (sp + 5) t t sp) <|
            chk (mod w (sp + 5) t t (g + 6)) (pure 0)) s3) := by
    have n0 : (0 : Int) < n := by omega
    have hp := at_pin h5 sp
    have pe : ∀ v, v ≠ sp → pin L s3 sp v = L v := fun v hv => Function.update_of_ne hv _ _
    refine chk_safe (Safe.of_leaf (G := pin L s3 sp) (B := L) hp (by omega) (loadBin_v hw (z3 1 (by omega)) (le_refl _) m)
      (upd_any hp (by omega) (by rw [pe _ (by omega), hi _ (by omega)]) fun o ho => ho.any)
      ((upd_any hp (by omega) (by rw [pe _ (by omega), hi _ (by omega)]) fun o ho => ho.any).trans (pin_le h5 (by omega)))) lr fun s h => ?_
    have zs : V w 0 0 (s.obj sp) := by
      have := h.objs sp (by omega)
      unfold pin at this
      rw [Function.update_self] at this
      rw [this]; exact z3 0 (by omega)
    replace h := h.le (pin_le h5 (by omega))
    refine chk_safe (Safe.of_leaf (G := L) (B := L) h (by omega) (randRange_leaf hw zs (le_refl _) (hn' _ (h.objs (g + 6) (by omega))) hn0 (by omega) (by omega) (by omega) bs hl hV)
      (upd_any h (by omega) (hi _ (by omega)) fun o ho => ho.any) (upd_any h (by omega) (hi _ (by omega)) fun o ho => ho)) lr fun s h => ?_
    refine chk_safe (ecpMul_any hw (loc_rd3 (by omega) hb) hg' hZ (ha.congr (lo _ (by omega))) (rl sp (by omega)) (by omega) (by omega) (by omega) (loc_rdy (by omega)) (by omega) (by omega) h) lr fun s h => ?_
    obtain ⟨s', e, h⟩ := swap_any h (x := r) (y := sp + 2) (by omega) (by omega) Lr (hi _ (by omega))
    rw [bind_ok e]
    refine chk_safe (inv_any_step h (by omega) (hi _ (by omega)) hw (rl _ (by omega)) hn' n0 (by omega) (by omega) (by omega) lr) (Le.refl _ _) fun s h => ?_
    refine chk_safe (mul_any_step h (by omega) Lt hw (rA d hds hd) (.any Lr) (by omega) (by omega) lr rt) (Le.refl _ _) fun s h => ?_
    refine chk_safe (add_any_step h (by omega) Lt hw (.any Lt) (rl _ (by omega)) (by omega) (by omega) lr) (Le.refl _ _) fun s h => ?_
    refine chk_safe (mul_any_step h (by omega) Lt hw (.any Lt) (rl _ (by omega)) (by omega) (by omega) lr rt) (Le.refl _ _) fun s h => ?_
    refine chk_safe (mod_any_step h (by omega) Lt hw (.any Lt) hn' n0 (by omega) (by omega) hgt lr) (Le.refl _ _) fun s h => ?_
    exact Or.inr ⟨0, s, rfl, Or.inl ⟨rfl, h.le lr⟩⟩
  rcases body with hh | ⟨st, s6, e6, h6⟩
  · exact Or.inl (hang_through hh)
  replace h6 : At K R (sp + 5) s6 := h6.elim (fun h => h.2) fun h => h.2
  obtain ⟨s7, s8, e7, e8, h8⟩ := ecdsaSign_clearR h6
  refine Or.inr ⟨0, s8, ?_, Or.inl ⟨rfl, h8⟩⟩
  rw [bind_ok e6, bind_ok e7]
  show (do clearList [sp, sp + 1]; pure 0 : M Int) s7 = _
  rw [bind_ok e8]; rfl

theorem ecdsaKeygen_safe (hw : DigitWidth w) (hg : ∀ o, A g o → o.Shows w Z) (hZ : 0 < Z) (ha : RdC w A (g + 1)) (hb : Rd3 w A (g + 3))
    (hn : ∀ o, A (g + 6) o → o.Shows w n) (hn0 : 0 < n) (hd : A d = Any w) (hz : ∃ z, V w z 0 (s.obj d) ∧ 0 ≤ z) (hq : Rdy w A q)
    (hgs : g + 6 < sp) (hds : d < sp) (hqs : q + 2 < sp) (hdg : g + 6 ≠ d) (hdq : d < q ∨ q + 2 < d) (bs : List Byte) (hl : bs.length = (n.size + 7) / 8)
    (hV : (2 ^ w) ^ ((n.size - 1) / w) ≤ beVal bs) (h : At K A sp s) : Safe K sp A A (ecdsaKeygen w sp d q g bs s) := by
  unfold ecdsaKeygen
  obtain ⟨z, vz, hz0⟩ := hz
  refine chk_safe (Safe.of_leaf (G := A) (B := A) h hds (randRange_leaf hw vz hz0 (hn _ (h.objs (g + 6) hgs)) hn0 hds hgs hdg bs hl hV)
    (upd_any h hds hd fun o ho => ho.any) (upd_any h hds hd fun o ho => ho)) (Le.refl _ _) fun s h => ?_
  exact ecpMul_any hw hb hg hZ ha (.any hd) (by omega) (by omega) hds hq hqs hdq h

end Verif.Mem
