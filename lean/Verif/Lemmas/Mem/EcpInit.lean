import Verif.Lemmas.Mem.EcpMul
/-! Initialisation and copying of points, whichever allocations fail. -/
namespace Verif.Mem
open Verif.Mpi
open WeierstrassCurve WeierstrassCurve.Affine
open Verif.Ecp (curve)

variable {w : Nat} {K : Ctx} {E A : Env} {S sp : Nat} {s : St} {q : Nat}

/-- Room for a `long` in each of the three numbers. -/
def But8 (w : Nat) (A : Env) (q : Nat) (x y z : Int) : Env :=
  Function.update (Function.update (Function.update A q (V w x 8)) (q + 1) (V w y 8)) (q + 2) (V w z 8)

theorem But8.le {x y z : Int} : Le S (But8 w A q x y z) (But3 w A q x y z) :=
  (((Le.refl S A).both fun _ h => h.weak (Nat.zero_le _)).both fun _ h => h.weak (Nat.zero_le _)).both fun _ h => h.weak (Nat.zero_le _)

theorem set3_room (hw : DigitWidth w) (h : At K E S s) (hq : q + 2 < S) {x y z : Int} (hx : x.natAbs < 2 ^ 63) (hy : y.natAbs < 2 ^ 63)
    (hz : z.natAbs < 2 ^ 63) (h0 : ∀ v, q ≤ v → v ≤ q + 2 → ∀ o, E v o → ∃ z, V w z 8 o) :
    ∃ s1 s2 s3, setInt w q x s = .ok (0, s1) ∧ setInt w (q + 1) y s1 = .ok (0, s2) ∧ setInt w (q + 2) z s2 = .ok (0, s3) ∧
      At K (But8 w E q x y z) S s3 ∧ s3.tick = s.tick := by
  obtain ⟨z1, v1⟩ := h0 q (by omega) (by omega) _ (h.objs _ (by omega))
  obtain ⟨s1, e1, t1, w1, k1⟩ := setInt_run (S := S) hw v1 hx
  have h1 := step_at (P := V w x 8) h (by omega) t1 w1
  obtain ⟨z2, v2⟩ := h0 (q + 1) (by omega) (by omega) (s1.obj (q + 1)) (by
    have := h1.objs (q + 1) (by omega); rwa [Function.update_of_ne (by omega)] at this)
  obtain ⟨s2, e2, t2, w2, k2⟩ := setInt_run (S := S) hw v2 hy
  have h2 := step_at (P := V w y 8) h1 (by omega) t2 w2
  obtain ⟨z3, v3⟩ := h0 (q + 2) (by omega) (by omega) (s2.obj (q + 2)) (by
    have := h2.objs (q + 2) (by omega); rwa [Function.update_of_ne (by omega), Function.update_of_ne (by omega)] at this)
  obtain ⟨s3, e3, t3, w3, k3⟩ := setInt_run (S := S) hw v3 hz
  have h3 := step_at (P := V w z 8) h2 (by omega) t3 w3
  exact ⟨s1, s2, s3, e1, e2, e3, h3, by omega⟩

theorem init_tick {a : Nat} {s s' : St} {st : Int} (h : init a s = .ok (st, s')) : s'.tick = s.tick + 1 := by
  unfold init at h
  by_cases hf : s.fails s.tick = true
  · have hr : request 1 s = .ok (false, { s with tick := s.tick + 1 }) := if_pos hf
    rw [bind_ok hr] at h
    cases h; rfl
  · have hr : request 1 s = .ok (true, { s with tick := s.tick + 1, live := s.live + 1 }) := if_neg hf
    rw [bind_ok hr] at h
    cases h; rfl

theorem ecpInit_res (hw : DigitWidth w) (h : At K E S s) (hq : q + 2 < S) (ho : ∀ v, q ≤ v → v ≤ q + 2 → ∀ o, E v o → o.owns = 0) :
    WP (ecpInit w q) (Res K S (But8 w E q 1 1 0) (Sets E [q, q + 1, q + 2] fun o => o.owns = 0)) s := by
  have hw0 : 0 < w := by have := hw.pos; omega
  have hr := initListLoop_at (w := w) hw0 [q, q + 1, q + 2] [] s (E := E)
    (h.le fun v _ o ho => by unfold Sets; rw [if_neg (by simp)]; exact ho)
    (by intro a ha; simp at ha; omega) (by simp) (by
      intro a ha o hoa
      simp at ha
      exact ho a (by omega) (by omega) o hoa)
  rw [List.nil_append] at hr
  refine chk_res hr (Le.refl _ _) fun s1 h1 => ?_
  have hS : ∀ v, q ≤ v → v ≤ q + 2 → Sets E [q, q + 1, q + 2] (V w 0 8) v = V w 0 8 := fun v h1 h2 => by
    unfold Sets; rw [if_pos (by simp; omega)]
  obtain ⟨s2, s3, s4, e2, e3, e4, h4, -⟩ := set3_room hw h1 hq (x := 1) (y := 1) (z := 0) (by norm_num) (by norm_num) (by norm_num)
    fun v h1 h2 o ho => ⟨0, by rwa [hS v h1 h2] at ho⟩
  refine ⟨0, s4, by unfold ecpSetZero; rw [ign_run e2, ign_run e3, ign_run e4]; rfl, Or.inl ⟨rfl, h4.le fun v hv o ho => ?_⟩⟩
  unfold But8 at *
  by_cases g1 : v = q + 2
  · subst g1; rw [Function.update_self] at *; exact ho
  rw [Function.update_of_ne g1] at *
  by_cases g2 : v = q + 1
  · subst g2; rw [Function.update_self] at *; exact ho
  rw [Function.update_of_ne g2] at *
  by_cases g3 : v = q
  · subst g3; rw [Function.update_self] at *; exact ho
  rw [Function.update_of_ne g3] at *
  unfold Sets at ho
  rwa [if_neg (by simp; omega)] at ho

theorem But8.at {x y z : Int} {v : Nat} (h1 : q ≤ v) (h2 : v ≤ q + 2) : ∀ o, But8 w A q x y z v o → ∃ z, V w z 8 o := by
  intro o ho
  unfold But8 at ho
  obtain rfl | rfl | rfl : v = q ∨ v = q + 1 ∨ v = q + 2 := by omega
  · rw [Function.update_of_ne (by omega), Function.update_of_ne (by omega), Function.update_self] at ho; exact ⟨_, ho⟩
  · rw [Function.update_of_ne (by omega), Function.update_self] at ho; exact ⟨_, ho⟩
  · rw [Function.update_self] at ho; exact ⟨_, ho⟩

theorem ecpInitInt_res (hw : DigitWidth w) (h : At K E S s) (hq : q + 2 < S) (ho : ∀ v, q ≤ v → v ≤ q + 2 → ∀ o, E v o → o.owns = 0)
    {x y : Int} (hx : x.natAbs < 2 ^ 63) (hy : y.natAbs < 2 ^ 63) :
    WP (ecpInitInt w q x y) (Res K S (But8 w E q x y 1) (Sets E [q, q + 1, q + 2] fun o => o.owns = 0)) s := by
  refine chk_res (ecpInit_res hw h hq ho) (Le.refl _ _) fun s1 h1 => ?_
  obtain ⟨s2, s3, s4, e2, e3, e4, h4, -⟩ := set3_room hw h1 hq hx hy (z := 1) (by norm_num) fun v h1 h2 => But8.at h1 h2
  have e : chk (setInt w q x) (chk (setInt w (q + 1) y) (setInt w (q + 2) 1)) s1 = .ok (0, s4) := by
    rw [chk_ok e2, chk_ok e3, e4]
  refine ⟨0, s4, by rw [bind_ok e]; rfl, Or.inl ⟨rfl, h4.le fun v hv o ho => ?_⟩⟩
  unfold But8 at *
  by_cases g1 : v = q + 2
  · subst g1; rw [Function.update_self] at *; exact ho
  rw [Function.update_of_ne g1] at *
  by_cases g2 : v = q + 1
  · subst g2; rw [Function.update_self] at *; exact ho
  rw [Function.update_of_ne g2] at *
  by_cases g3 : v = q
  · subst g3; rw [Function.update_self] at *; exact ho
  rw [Function.update_of_ne g3] at *
  rwa [Function.update_of_ne g1, Function.update_of_ne g2, Function.update_of_ne g3] at ho

/-- `cry_ecp_copy`, whichever allocations fail. -/
theorem ecpCopy_res {d : Nat} {x y z x' y' z' : Int} (h : At K (But3 w A d x' y' z') sp s) (hd : d + 2 < sp) (hq : q + 2 < sp)
    (hP : At3 w (But3 w A d x' y' z') q x y z) (hdq : SameOrApart d q) :
    WP (ecpCopy d q) (Res K sp (But3 w A d x y z) (Sets A [d, d + 1, d + 2] (Any w))) s := by
  have hB : ∀ (x y z : Int), Le sp (But3 w A d x y z) (Sets A [d, d + 1, d + 2] (Any w)) := by
    intro x y z v hv o ho
    unfold Sets
    by_cases hm : v ∈ [d, d + 1, d + 2]
    · rw [if_pos hm]
      simp only [List.mem_cons, List.not_mem_nil, or_false] at hm
      rcases hm with rfl | rfl | rfl
      · rw [But3.atX] at ho; exact ho.any
      · rw [But3.atY] at ho; exact ho.any
      · rw [But3.atZ] at ho; exact ho.any
    · rw [if_neg hm]
      simp only [List.mem_cons, List.not_mem_nil, or_false, not_or] at hm
      rwa [But3.ne hm] at ho
  unfold SameOrApart at hdq
  have v1 := h.objs d (by omega); rw [But3.atX] at v1
  have l1 : Le sp (Function.update (But3 w A d x' y' z') d (V w x 0)) (But3 w A d x y' z') := by
    intro v hv o ho
    by_cases g : v = d
    · subst g; rw [Function.update_self] at ho; rw [But3.atX]; exact ho
    rw [Function.update_of_ne g] at ho
    unfold But3 at ho ⊢
    by_cases g1 : v = d + 2
    · subst g1; rw [Function.update_self] at *; exact ho
    rw [Function.update_of_ne g1] at *
    by_cases g2 : v = d + 1
    · subst g2; rw [Function.update_self] at *; exact ho
    rw [Function.update_of_ne g2] at *
    rw [Function.update_of_ne g] at *; exact ho
  have l2 : Le sp (Function.update (But3 w A d x y' z') (d + 1) (V w y 0)) (But3 w A d x y z') := by
    intro v hv o ho
    by_cases g : v = d + 1
    · subst g; rw [Function.update_self] at ho; rw [But3.atY]; exact ho
    rw [Function.update_of_ne g] at ho
    unfold But3 at ho ⊢
    by_cases g1 : v = d + 2
    · subst g1; rw [Function.update_self] at *; exact ho
    rw [Function.update_of_ne g1] at *
    rw [Function.update_of_ne g] at *; exact ho
  have l3 : Le sp (Function.update (But3 w A d x y z') (d + 2) (V w z 0)) (But3 w A d x y z) := by
    intro v hv o ho
    by_cases g : v = d + 2
    · subst g; rw [Function.update_self] at ho; rw [But3.atZ]; exact ho
    rw [Function.update_of_ne g] at ho
    unfold But3 at ho ⊢
    rw [Function.update_of_ne g] at *; exact ho
  have self : ∀ {x y z : Int}, Le sp (Function.update (But3 w A d x y z) d (V w x 0)) (But3 w A d x y z) := fun {x y z} =>
    (Le.refl _ _).update fun o ho => by rw [But3.atX]; exact ho
  have self1 : ∀ {x y z : Int}, Le sp (Function.update (But3 w A d x y z) (d + 1) (V w y 0)) (But3 w A d x y z) := fun {x y z} =>
    (Le.refl _ _).update fun o ho => by rw [But3.atY]; exact ho
  have self2 : ∀ {x y z : Int}, Le sp (Function.update (But3 w A d x y z) (d + 2) (V w z 0)) (But3 w A d x y z) := fun {x y z} =>
    (Le.refl _ _).update fun o ho => by rw [But3.atZ]; exact ho
  refine chk_res (leaf_at h (r := d) (by omega) (copy_leaf v1 (hP.x _ (h.objs _ (by omega))))) (self.trans (hB _ _ _)) fun s1 h1 => ?_
  replace h1 := h1.le l1
  have v2 := h1.objs (d + 1) (by omega); rw [But3.atY] at v2
  have b1 : (But3 w A d x' y' z') (q + 1) (s1.obj (q + 1)) := by
    have := h1.objs (q + 1) (by omega)
    rcases hdq with rfl | hdq
    · rw [But3.atY] at *; exact this
    · rw [But3.ne (by omega)] at *; exact this
  refine chk_res (leaf_at h1 (r := d + 1) (by omega) (copy_leaf v2 (hP.y _ b1))) (self1.trans (hB _ _ _)) fun s2 h2 => ?_
  replace h2 := h2.le l2
  have v3 := h2.objs (d + 2) (by omega); rw [But3.atZ] at v3
  have b2 : (But3 w A d x' y' z') (q + 2) (s2.obj (q + 2)) := by
    have := h2.objs (q + 2) (by omega)
    rcases hdq with rfl | hdq
    · rw [But3.atZ] at *; exact this
    · rw [But3.ne (by omega)] at *; exact this
  exact (leaf_at h2 (r := d + 2) (by omega) (copy_leaf v3 (hP.z _ b2))).mono fun st s3 h3 => h3.le l3 (self2.trans (hB _ _ _))

/-- The point at infinity, with room. -/
structure Inf8 (w : Nat) (E : Env) (q : Nat) : Prop where
  x : ∀ o, E q o → V w 1 8 o
  y : ∀ o, E (q + 1) o → V w 1 8 o
  z : ∀ o, E (q + 2) o → V w 0 8 o

theorem Inf8.pt (h : Inf8 w E q) : Pt3 w E q := ⟨fun o ho => (h.x o ho).any, fun o ho => (h.y o ho).any, fun o ho => (h.z o ho).any⟩
theorem Inf8.congr {E' : Env} (h : Inf8 w E q) (he : ∀ v, q ≤ v → v ≤ q + 2 → E' v = E v) : Inf8 w E' q :=
  ⟨by rw [he q (by omega) (by omega)]; exact h.x, by rw [he (q + 1) (by omega) (by omega)]; exact h.y,
    by rw [he (q + 2) (by omega) (by omega)]; exact h.z⟩
theorem But8.inf : Inf8 w (But8 w E q 1 1 0) q := by
  unfold But8
  refine ⟨fun o ho => ?_, fun o ho => ?_, fun o ho => ?_⟩
  · rwa [Function.update_of_ne (by omega), Function.update_of_ne (by omega), Function.update_self] at ho
  · rwa [Function.update_of_ne (by omega), Function.update_self] at ho
  · rwa [Function.update_self] at ho
theorem But8.ne {x y z : Int} {v : Nat} (h : v < q ∨ q + 2 < v) : But8 w E q x y z v = E v := by
  unfold But8; rw [Function.update_of_ne (by omega), Function.update_of_ne (by omega), Function.update_of_ne (by omega)]

/-- `cry_ecp_init_list`, whichever allocations fail. -/
theorem ecpInitListLoop_at (hw : DigitWidth w) : ∀ (qs done : List Nat) (E : Env) (s : St), At K E S s → (∀ q ∈ done ++ qs, q + 2 < S) →
    (∀ q ∈ qs, ∀ v, q ≤ v → v ≤ q + 2 → ∀ o, E v o → o.owns = 0) → (∀ q ∈ done, Inf8 w E q) →
    (done ++ qs).Pairwise (fun a b => a + 2 < b ∨ b + 2 < a) →
    ∃ st s' E', ecpInitListLoop w done qs s = .ok (st, s') ∧ At K E' S s' ∧ (∀ v, (∀ q ∈ done ++ qs, v < q ∨ q + 2 < v) → E' v = E v) ∧
      ((st = 0 ∧ ∀ q ∈ done ++ qs, Inf8 w E' q) ∨
        (st = -1 ∧ Bad K s' ∧ ∀ q ∈ done ++ qs, ∀ v, q ≤ v → v ≤ q + 2 → ∀ o, E' v o → o.owns = 0))
  | [], done, E, s, h, _, _, hd, _ => ⟨0, s, E, rfl, h, fun _ _ => rfl, Or.inl ⟨rfl, by rw [List.append_nil]; exact hd⟩⟩
  | q :: qs, done, E, s, h, hS, ho, hd, hp => by
    have hp' := hp
    rw [List.pairwise_append, List.pairwise_cons] at hp
    obtain ⟨hp1, ⟨hp2, hp3⟩, hp4⟩ := hp
    have ap : ∀ q' ∈ done, ∀ v, q' ≤ v → v ≤ q' + 2 → v < q ∨ q + 2 < v := fun q' hq' v _ _ => by
      have := hp4 q' hq' q (by simp); omega
    have ap2 : ∀ q' ∈ qs, ∀ v, q' ≤ v → v ≤ q' + 2 → v < q ∨ q + 2 < v := fun q' hq' v _ _ => by
      have := hp2 q' hq'; omega
    obtain ⟨st, s1, e1, h1⟩ := ecpInit_res hw h (hS q (by simp)) (ho q (by simp))
    unfold ecpInitListLoop
    rw [bind_ok e1]
    rcases h1 with ⟨rfl, h1⟩ | ⟨rfl, hb, h1⟩
    · rw [if_pos rfl]
      obtain ⟨st, s2, E', e2, h2, f2, r2⟩ := ecpInitListLoop_at hw qs (done ++ [q]) _ s1 h1 (by simpa using hS)
        (fun q' hq' v a b o hov => by rw [But8.ne (ap2 q' hq' v a b)] at hov; exact ho q' (by simp [hq']) v a b o hov)
        (fun q' hq' => by
          rw [List.mem_append, List.mem_singleton] at hq'
          rcases hq' with hq' | rfl
          · exact (hd q' hq').congr fun v a b => But8.ne (ap q' hq' v a b)
          · exact But8.inf) (by simpa using hp')
      rw [List.append_assoc] at f2 r2
      exact ⟨st, s2, E', e2, h2, fun v hv => by rw [f2 v hv, But8.ne (hv q (by simp))], r2⟩
    · rw [if_neg (by decide)]
      have fr : ∀ v, (v < q ∨ q + 2 < v) → Sets E [q, q + 1, q + 2] (fun o => o.owns = 0) v = E v := fun v hv => by
        unfold Sets; rw [if_neg (by simp; omega)]
      obtain ⟨s2, E2, e2, h2, c2, f2, ht⟩ := ecpClearList_calm (w := w) done _ s1 h1 (fun q' hq' => ⟨hS q' (by simp [hq']),
        (hd q' hq').pt.congr fun v a b => fr v (ap q' hq' v a b)⟩) hp1
      refine ⟨-1, s2, E2, by rw [bind_ok e2]; rfl, h2, fun v hv => ?_, Or.inr ⟨rfl, ?_, fun q' hq' v a b o hov => ?_⟩⟩
      · rw [f2 v fun q' hq' => hv q' (by simp [hq']), fr v (hv q (by simp))]
      · obtain ⟨k, k1, k2, k3⟩ := hb
        exact ⟨k, k1, by omega, k3⟩
      · rw [List.mem_append, List.mem_cons] at hq'
        rcases hq' with hq' | rfl | hq'
        · exact c2 q' hq' v a b o hov
        · rw [f2 v fun q'' hq'' => by have := hp4 q'' hq'' q' (by simp); omega] at hov
          unfold Sets at hov
          rwa [if_pos (by simp; omega)] at hov
        · rw [f2 v fun q'' hq'' => by have := hp4 q'' hq'' q' (by simp [hq']); omega, fr v (ap2 q' hq' v a b)] at hov
          exact ho q' (by simp [hq']) v a b o hov

/-! ### The window of `cry_ecp_mul` cannot be allocated -/

/-- Three initialisations, when nothing but the first three requests succeeds. -/
theorem init3_tick {a b c : Nat} {s s' : St} {st : Int} (h : initList [a, b, c] s = .ok (st, s')) (hf : ∀ k, k < 3 → s.fails (s.tick + k) = false) :
    st = 0 ∧ s'.tick = s.tick + 3 := by
  have run : ∀ (a : Nat) (s : St), s.fails s.tick = false → ∃ s', init a s = .ok (0, s') ∧ s'.fails = s.fails ∧ s'.tick = s.tick + 1 := by
    intro a s hf
    have hr : request 1 s = .ok (true, { s with tick := s.tick + 1, live := s.live + 1 }) := if_neg (by rw [hf]; simp)
    unfold init
    rw [bind_ok hr]
    exact ⟨_, rfl, rfl, rfl⟩
  obtain ⟨s1, e1, f1, t1⟩ := run a s (by simpa using hf 0 (by omega))
  obtain ⟨s2, e2, f2, t2⟩ := run b s1 (by rw [f1, t1]; exact hf 1 (by omega))
  obtain ⟨s3, e3, f3, t3⟩ := run c s2 (by rw [f2, f1, t2, t1]; exact hf 2 (by omega))
  unfold initList initListLoop at h
  rw [bind_ok e1, if_pos rfl] at h
  unfold initListLoop at h
  rw [bind_ok e2, if_pos rfl] at h
  unfold initListLoop at h
  rw [bind_ok e3, if_pos rfl] at h
  unfold initListLoop at h
  cases h
  exact ⟨rfl, by omega⟩

theorem ecpMul_no_window (hw : DigitWidth w) {pr p1 kk g : Nat} {z : Int} (h : At K A sp s) (hp1 : p1 + 2 < sp)
    (hz : ∀ o, A (p1 + 2) o → o.Shows w z) (hz0 : z ≠ 0) (hf : ∀ k, k < 3 → s.fails (s.tick + k) = false) (hf3 : s.fails (s.tick + 3) = true) :
    ∃ s', ecpMul w sp pr p1 kk g s = .ok (0, s') ∧ At K A sp s' := by
  have hw0 : 0 < w := by have := hw.pos; omega
  obtain ⟨s1, e1, k1⟩ := decl_run h 27
  have et : s1.tick = s.tick ∧ s1.fails = s.fails := by unfold decl at e1; cases e1; exact ⟨rfl, rfl⟩
  have e2 := ecpIsZero_run (q := p1) (s := s1) (hz _ (by have := k1.objs (p1 + 2) (by omega); rwa [Locals.lo hp1] at this))
  unfold ecpMul
  rw [bind_ok e1, bind_ok e2, if_neg (by simpa using hz0)]
  have ho : ∀ v, sp ≤ v → v ≤ sp + 2 → ∀ o, Locals sp A (· = Obj.fresh) v o → o.owns = 0 := fun v h1 h2 o ho => by
    rw [Locals.hi h1] at ho; rw [ho]; rfl
  obtain ⟨st, s2, e3, h2⟩ := initListLoop_at (w := w) hw0 [sp, sp + 1, sp + 2] [] s1 (E := Locals sp A (· = Obj.fresh))
    (k1.le fun v _ o ho => by unfold Sets; rw [if_neg (by simp)]; exact ho)
    (by intro a ha; simp at ha; omega) (by simp) (by
      intro a ha o hoa
      simp at ha
      exact ho a (by omega) (by omega) o hoa)
  rw [List.nil_append] at h2
  obtain ⟨rfl, t2⟩ := init3_tick e3 (by rw [et.1, et.2]; exact hf)
  have h2 : At K (Sets (Locals sp A (· = Obj.fresh)) [sp, sp + 1, sp + 2] (V w 0 8)) (sp + 27) s2 := by
    rcases h2 with ⟨-, h2⟩ | ⟨h2, -⟩
    · exact h2
    · cases h2
  have hS : ∀ v, sp ≤ v → v ≤ sp + 2 → Sets (Locals sp A (· = Obj.fresh)) [sp, sp + 1, sp + 2] (V w 0 8) v = V w 0 8 := fun v h1 h2 => by
    unfold Sets; rw [if_pos (by simp; omega)]
  obtain ⟨s3, s4, s5, e4, e5, e6, h5, t5⟩ := set3_room hw h2 (q := sp) (by omega) (x := 1) (y := 1) (z := 0) (by norm_num) (by norm_num) (by norm_num)
    fun v h1 h2 o ho => ⟨0, by rwa [hS v h1 h2] at ho⟩
  have ei : ecpInit w sp s1 = .ok (0, s5) := by
    unfold ecpInit initList ecpSetZero
    rw [chk_ok e3, ign_run e4, ign_run e5, ign_run e6]; rfl
  have hff : s5.fails s5.tick = true := by rw [h5.orc, ← h.orc, t5, t2, et.1]; exact hf3
  have er : request 1 s5 = .ok (false, { s5 with tick := s5.tick + 1 }) := if_pos hff
  have h6 : At K (But3 w (Sets (Locals sp A (· = Obj.fresh)) [sp, sp + 1, sp + 2] (V w 0 8)) sp 1 1 0) (sp + 27) { s5 with tick := s5.tick + 1 } :=
    At.le ⟨h5.objs, h5.bal, h5.orc, h5.tick.trans (Nat.le_succ _)⟩ But8.le
  obtain ⟨s7, E7, e7, h7, c7, f7, -⟩ := ecpClear_calm (w := w) h6 (q := sp) (by omega) pt3_but3
  refine ⟨s7, ?_, (exit_at h7 fun v h1 h2 o ho => ?_).le fun v hv o ho => ?_⟩
  · rw [chk_ok ei]
    have inner : (do
        if ← request 1 then do
          let st ← chk (ecpWinInit w [] (winAt sp)) (do
            let st ← ecpMulBody w sp pr p1 kk g
            ecpClearList (winAt sp)
            pure st)
          release
          pure st
        else pure 0 : M Int) s5 = .ok (0, { s5 with tick := s5.tick + 1 }) := by rw [bind_ok er]; rfl
    rw [bind_ok inner, bind_ok e7]; rfl
  · by_cases hv : v ≤ sp + 2
    · exact c7 v h1 hv o ho
    · rw [f7 v (by omega), But3.ne (by omega)] at ho
      unfold Sets at ho
      rw [if_neg (by simp; omega), Locals.hi h1] at ho
      rw [ho]; rfl
  · rw [f7 v (by omega), But3.ne (by omega)] at ho
    unfold Sets at ho
    rwa [if_neg (by simp; omega), Locals.lo hv] at ho

end Verif.Mem
