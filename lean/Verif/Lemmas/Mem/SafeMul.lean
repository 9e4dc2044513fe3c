import Verif.Lemmas.Mem.SafeEcp
import Verif.Lemmas.Mem.EcpInit
/-! Memory safety of the multiple of a point, whichever allocations fail. -/
namespace Verif.Mem
open Verif.Mpi

variable {w : Nat} {K : Ctx} {E A B G : Env} {S sp N : Nat} {s : St} {pr p1 kk g : Nat} {Z : Int} {m : Mpi}

theorem rd_reads {i : Nat} (h : (s.obj kk).Reads m) (hi : i < m.digs.length) : ∃ d, rd kk i s = .ok (d, s) := by
  obtain ⟨a, -, t, ht⟩ := h
  refine ⟨m.digs[i], rd_ok ?_⟩
  rw [← ht, List.getElem?_append_left (by simpa using hi)]
  simp [hi]

section
variable (hw : DigitWidth w) (h1 : Rd3 w A p1) (hg : ∀ o, A g o → o.Shows w Z) (hM : 0 < Z) (ha : RdC w A (g + 1)) (hk : ∀ o, A kk o → o.Reads m)
  (h1s : p1 + 2 < sp) (hgs : g + 1 < sp) (hks : kk < sp)

theorem loc_rdy {q : Nat} (hq : sp ≤ q) : Rdy w (Locals sp A (Any w)) q := ⟨Locals.hi hq, Locals.hi (by omega), Locals.hi (by omega)⟩
theorem loc_rd {v : Nat} (hv : v < sp) (h : Rd w A v) : Rd w (Locals sp A (Any w)) v := fun o ho => h o (by rwa [Locals.lo hv] at ho)
theorem loc_rd3 {q : Nat} (hv : q + 2 < sp) (h : Rd3 w A q) : Rd3 w (Locals sp A (Any w)) q :=
  ⟨loc_rd (by omega) h.1, loc_rd (by omega) h.2.1, loc_rd (by omega) h.2.2⟩

include hw hg hM ha hgs

theorem dbl_loc {q : Nat} (hq : sp ≤ q) (hqs : q + 2 < sp + 27) (h : At K (Locals sp A (Any w)) (sp + 27) s) :
    Safe K (sp + 27) (Locals sp A (Any w)) (Locals sp A (Any w)) (ecpDbl w (sp + 27) q q g s) :=
  ecpDbl_safe hw (loc_rdy hq) (loc_rdy hq).rd3 (M := Z) (fun o ho => hg o (by rwa [Locals.lo (by omega)] at ho)) hM hqs hqs (by omega) (ha.congr (Locals.lo hgs)) h

theorem add_loc {q q1 q2 : Nat} (hq : sp ≤ q) (hqs : q + 2 < sp + 27) (r1 : Rd3 w (Locals sp A (Any w)) q1) (r1s : q1 + 2 < sp + 27)
    (r2 : Rd3 w (Locals sp A (Any w)) q2) (r2s : q2 + 2 < sp + 27) (h : At K (Locals sp A (Any w)) (sp + 27) s) :
    Safe K (sp + 27) (Locals sp A (Any w)) (Locals sp A (Any w)) (ecpAdd w (sp + 27) q q1 q2 g s) :=
  ecpAdd_safe hw (loc_rdy hq) r1 (M := Z) (fun o ho => hg o (by rwa [Locals.lo (by omega)] at ho)) hM hqs r1s (by omega) (ha.congr (Locals.lo hgs)) r2 r2s h

theorem dblUnless_safe (paf : Bool) (h : At K (Locals sp A (Any w)) (sp + 27) s) :
    Safe K (sp + 27) (Locals sp A (Any w)) (Locals sp A (Any w)) (ecpDblUnless w sp g paf s) := by
  unfold ecpDblUnless
  split_ifs
  · exact Or.inr ⟨0, s, rfl, Or.inl ⟨rfl, h⟩⟩
  · exact dbl_loc hw hg hM ha hgs (Nat.le_refl _) (by omega) h

theorem addOrCopy_safe (paf : Bool) {q : Nat} (r : Rd3 w (Locals sp A (Any w)) q) (rs : q + 2 < sp + 27) (h : At K (Locals sp A (Any w)) (sp + 27) s) :
    Safe K (sp + 27) (Locals sp A (Any w)) (Locals sp A (Any w)) (ecpAddOrCopy w sp q g paf s) := by
  unfold ecpAddOrCopy
  split_ifs
  · exact ecpCopy_safe h (loc_rdy (Nat.le_refl _)) r (by omega) rs
  · exact add_loc hw hg hM ha hgs (Nat.le_refl _) (by omega) (loc_rdy (Nat.le_refl _)).rd3 (by omega) r rs h

include hk hks

theorem ecpWindow_safe (paf : Bool) {k : Nat → Nat → Nat → M Int}
    (hkk : ∀ v i j s, i < m.digs.length → At K (Locals sp A (Any w)) (sp + 27) s → Safe K (sp + 27) (Locals sp A (Any w)) (Locals sp A (Any w)) (k v i j s)) :
    ∀ (fuel i j v : Nat) (s : St), i < m.digs.length → 1 ≤ v → (i ≠ 0 ∨ 8 ≤ v * 2 ^ j) → At K (Locals sp A (Any w)) (sp + 27) s →
      Safe K (sp + 27) (Locals sp A (Any w)) (Locals sp A (Any w)) (ecpWindow w sp g kk paf k fuel i j v s)
  | 0, _, _, _, _, _, _, _, _ => Or.inl rfl
  | fuel + 1, i, j, v, s, hi, hv, hij, h => by
    have hw8 := hw.pos
    rw [ecpWindow]
    by_cases c1 : v < 8
    swap
    · rw [if_neg c1]; exact hkk v i j s hi h
    rw [if_pos c1]
    by_cases c2 : j = 0 ∧ i = 0
    · obtain ⟨rfl, rfl⟩ := c2
      omega
    · rw [if_neg c2]
      refine chk_safe (dblUnless_safe hw hg hM ha hgs paf h) (Le.refl _ _) fun s' h' => ?_
      have hi' : (if j = 0 then i - 1 else i) < m.digs.length := by split_ifs <;> omega
      obtain ⟨d, ed⟩ := rd_reads (hk _ (by have := h'.objs kk (by omega); rwa [Locals.lo hks] at this)) hi'
      rw [bind_ok ed]
      refine ecpWindow_safe paf hkk fuel _ _ _ s' hi' (by omega) ?_ h'
      generalize (if (d >>> ((if j = 0 then w else j) - 1)) &&& 1 ≠ 0 then 1 else 0) = b
      have grow : ∀ n, v * (2 * 2 ^ n) ≤ (2 * v + b) * 2 ^ n := fun n => by
        have : 0 ≤ b * 2 ^ n := Nat.zero_le _
        nlinarith
      by_cases hj : j = 0
      · right
        rw [if_pos hj]
        have h7 : 2 ^ 7 ≤ 2 ^ (w - 1) := Nat.pow_le_pow_right (by omega) (by omega)
        have := grow (w - 1)
        nlinarith
      · rw [if_neg hj, if_neg hj]
        refine hij.imp id fun h8 => ?_
        have := grow (j - 1)
        rw [← Nat.pow_succ', Nat.succ_eq_add_one, Nat.sub_add_cancel (by omega)] at this
        omega

include h1 h1s

theorem ecpMulLoop_safe : ∀ (fuel i j : Nat) (paf : Bool) (s : St), i ≤ m.digs.length → (j ≠ 0 → i < m.digs.length) →
    At K (Locals sp A (Any w)) (sp + 27) s →
    Safe K (sp + 27) (Locals sp A (Any w)) (Locals sp A (Any w)) (ecpMulLoop w sp p1 g kk fuel i j paf s)
  | 0, _, _, _, _, _, _, _ => Or.inl (by unfold ecpMulLoop; rfl)
  | fuel + 1, i, 0, paf, s, hi, _, h => by
    rw [ecpMulLoop]
    split_ifs with c
    · exact Or.inr ⟨0, s, rfl, Or.inl ⟨rfl, h⟩⟩
    · exact ecpMulLoop_safe fuel (i - 1) w paf s (by omega) (by omega) h
  | fuel + 1, i, j + 1, paf, s, hi, hij, h => by
    rw [ecpMulLoop]
    have hlt : i < m.digs.length := hij (by omega)
    refine chk_safe (dblUnless_safe hw hg hM ha hgs paf h) (Le.refl _ _) fun s' h' => ?_
    obtain ⟨d, ed⟩ := rd_reads (hk _ (by have := h'.objs kk (by omega); rwa [Locals.lo hks] at this)) hlt
    rw [bind_ok ed]
    split_ifs with c1 c2
    · refine ecpWindow_safe hw hg hM ha hk hgs hks paf (fun v i j s hi h => ?_) 4 i j 1 s' hlt (Nat.le_refl _) (c2.imp id fun c => ?_) h'
      · have : v &&& 7 ≤ 7 := Nat.and_le_right
        refine chk_safe (addOrCopy_safe hw hg hM ha hgs paf (loc_rdy (by omega)).rd3 (by omega) h) (Le.refl _ _) fun s h => ?_
        exact ecpMulLoop_safe fuel i j false s (by omega) (fun _ => hi) h
      · rw [Nat.one_mul]
        exact Nat.pow_le_pow_right (by omega : 0 < 2) c
    · refine chk_safe (addOrCopy_safe hw hg hM ha hgs paf (loc_rd3 h1s h1) (by omega) h') (Le.refl _ _) fun s h => ?_
      exact ecpMulLoop_safe fuel i j false s (by omega) (fun _ => hlt) h
    · exact ecpMulLoop_safe fuel i j paf s' (by omega) (fun _ => hlt) h'

theorem ecpMulBody_safe (hpr : Rdy w A pr) (hprs : pr + 2 < sp) (h : At K (Locals sp A (Any w)) (sp + 27) s) :
    Safe K (sp + 27) (Locals sp A (Any w)) (Locals sp A (Any w)) (ecpMulBody w sp pr p1 kk g s) := by
  unfold ecpMulBody
  have r1 := loc_rd3 (sp := sp) h1s h1
  have rw' : ∀ i, Rd3 w (Locals sp A (Any w)) (sp + i) := fun i => (loc_rdy (by omega)).rd3
  refine chk_safe (ecpCopy_safe h (loc_rdy (by omega)) r1 (by omega) (by omega)) (Le.refl _ _) fun s h => ?_
  refine chk_safe (dbl_loc hw hg hM ha hgs (by omega) (by omega) h) (Le.refl _ _) fun s h => ?_
  refine chk_safe (dbl_loc hw hg hM ha hgs (by omega) (by omega) h) (Le.refl _ _) fun s h => ?_
  refine chk_safe (dbl_loc hw hg hM ha hgs (by omega) (by omega) h) (Le.refl _ _) fun s h => ?_
  refine chk_safe (add_loc hw hg hM ha hgs (by omega) (by omega) (rw' 3) (by omega) r1 (by omega) h) (Le.refl _ _) fun s h => ?_
  refine chk_safe (add_loc hw hg hM ha hgs (by omega) (by omega) (rw' 6) (by omega) r1 (by omega) h) (Le.refl _ _) fun s h => ?_
  refine chk_safe (add_loc hw hg hM ha hgs (by omega) (by omega) (rw' 9) (by omega) r1 (by omega) h) (Le.refl _ _) fun s h => ?_
  refine chk_safe (add_loc hw hg hM ha hgs (by omega) (by omega) (rw' 12) (by omega) r1 (by omega) h) (Le.refl _ _) fun s h => ?_
  refine chk_safe (add_loc hw hg hM ha hgs (by omega) (by omega) (rw' 15) (by omega) r1 (by omega) h) (Le.refl _ _) fun s h => ?_
  refine chk_safe (add_loc hw hg hM ha hgs (by omega) (by omega) (rw' 18) (by omega) r1 (by omega) h) (Le.refl _ _) fun s h => ?_
  refine chk_safe (add_loc hw hg hM ha hgs (by omega) (by omega) (rw' 21) (by omega) r1 (by omega) h) (Le.refl _ _) fun s h => ?_
  obtain ⟨a, hh, -⟩ := hk _ (by have := h.objs kk (by omega); rwa [Locals.lo hks] at this)
  rw [bind_ok (hdr_ok hh)]
  refine chk_safe (ecpMulLoop_safe hw h1 hg hM ha hk h1s hgs hks _ _ 0 true s (Nat.le_refl _) (by simp) h) (Le.refl _ _) fun s h => ?_
  obtain ⟨s', e, h'⟩ := ecpSwap_any h (pr := pr) (q := sp) (by omega) (by omega)
    ⟨by rw [Locals.lo (by omega), hpr.1], by rw [Locals.lo (by omega), hpr.2.1], by rw [Locals.lo (by omega), hpr.2.2]⟩ (loc_rdy (Nat.le_refl _))
  rw [bind_ok e]
  exact Or.inr ⟨0, s', rfl, Or.inl ⟨rfl, h'⟩⟩
end

/-- The initialisation of the window, whichever allocations fail: on failure the points initialised before are cleared. -/
theorem ecpWinInit_any (hw : DigitWidth w) : ∀ (qs done : List Nat) (E : Env) (s : St), At K E S s → (∀ q ∈ done ++ qs, q + 2 < S) →
    (∀ q ∈ qs, ∀ v, q ≤ v → v ≤ q + 2 → ∀ o, E v o → o.owns = 0) → (∀ q ∈ done, Pt3 w E q) →
    (done ++ qs).Pairwise (fun a b => a + 2 < b ∨ b + 2 < a) →
    ∃ st s' E', ecpWinInit w done qs s = .ok (st, s') ∧ At K E' S s' ∧ (∀ v, (∀ q ∈ done ++ qs, v < q ∨ q + 2 < v) → E' v = E v) ∧
      ((st = 0 ∧ ∀ q ∈ done ++ qs, Pt3 w E' q) ∨
        (st = -1 ∧ ∀ q ∈ done ++ qs, ∀ v, q ≤ v → v ≤ q + 2 → ∀ o, E' v o → o.owns = 0))
  | [], done, E, s, h, _, _, hd, _ => ⟨0, s, E, rfl, h, fun _ _ => rfl, Or.inl ⟨rfl, by rw [List.append_nil]; exact hd⟩⟩
  | q :: qs, done, E, s, h, hS, ho, hd, hp => by
    have hp' := hp
    rw [List.pairwise_append, List.pairwise_cons] at hp
    obtain ⟨hp1, ⟨hp2, hp3⟩, hp4⟩ := hp
    have ap : ∀ q' ∈ done, ∀ v, q' ≤ v → v ≤ q' + 2 → v < q ∨ q + 2 < v := fun q' hq' v _ _ => by
      have := hp4 q' hq' q (by simp); omega
    have ap2 : ∀ q' ∈ qs, ∀ v, q' ≤ v → v ≤ q' + 2 → v < q ∨ q + 2 < v := fun q' hq' v _ _ => by
      have := hp2 q' hq'; omega
    obtain ⟨st, s1, e1, h1⟩ := ecpInit_res hw h (hS q (by simp)) (ho q (by simp))
    rw [ecpWinInit, bind_ok e1]
    rcases h1 with ⟨rfl, h1⟩ | ⟨rfl, hb, h1⟩
    · rw [if_neg (by decide)]
      have sw : ∀ q', q' ∈ (q :: done) ++ qs ↔ q' ∈ done ++ q :: qs := fun q' => by
        simp only [List.mem_append, List.mem_cons]; tauto
      obtain ⟨st, s2, E', e2, h2, f2, r2⟩ := ecpWinInit_any hw qs (q :: done) _ s1 h1 (fun q' hq' => hS q' ((sw q').1 hq'))
        (fun q' hq' v a b o hov => by rw [But8.ne (ap2 q' hq' v a b)] at hov; exact ho q' (by simp [hq']) v a b o hov)
        (fun q' hq' => by
          rw [List.mem_cons] at hq'
          rcases hq' with rfl | hq'
          · exact But8.inf.pt
          · exact (hd q' hq').congr fun v a b => But8.ne (ap q' hq' v a b))
        (by
          rw [List.cons_append, List.pairwise_cons, List.pairwise_append]
          refine ⟨fun q' hq' => ?_, hp1, hp3, fun a ha b hb => hp4 a ha b (by simp [hb])⟩
          rw [List.mem_append] at hq'
          rcases hq' with hq' | hq'
          · have := hp4 q' hq' q (by simp); omega
          · exact hp2 q' hq')
      refine ⟨st, s2, E', e2, h2, fun v hv => ?_, ?_⟩
      · rw [f2 v fun q' hq' => hv q' ((sw q').1 hq'), But8.ne (hv q (by simp))]
      · exact r2.imp (fun r => ⟨r.1, fun q' hq' => r.2 q' ((sw q').2 hq')⟩) fun r => ⟨r.1, fun q' hq' => r.2 q' ((sw q').2 hq')⟩
    · rw [if_pos (by decide)]
      have fr : ∀ v, (v < q ∨ q + 2 < v) → Sets E [q, q + 1, q + 2] (fun o => o.owns = 0) v = E v := fun v hv => by
        unfold Sets; rw [if_neg (by simp; omega)]
      obtain ⟨s2, E2, e2, h2, c2, f2, ht⟩ := ecpClearList_calm (w := w) done _ s1 h1 (fun q' hq' => ⟨hS q' (by simp [hq']),
        (hd q' hq').congr fun v a b => fr v (ap q' hq' v a b)⟩) hp1
      refine ⟨-1, s2, E2, by rw [bind_ok e2]; rfl, h2, fun v hv => ?_, Or.inr ⟨rfl, fun q' hq' v a b o hov => ?_⟩⟩
      · rw [f2 v fun q' hq' => hv q' (by simp [hq']), fr v (hv q (by simp))]
      · rw [List.mem_append, List.mem_cons] at hq'
        rcases hq' with hq' | rfl | hq'
        · exact c2 q' hq' v a b o hov
        · rw [f2 v fun q'' hq'' => by have := hp4 q'' hq'' q' (by simp); omega] at hov
          unfold Sets at hov
          rwa [if_pos (by simp; omega)] at hov
        · rw [f2 v fun q'' hq'' => by have := hp4 q'' hq'' q' (by simp [hq']); omega, fr v (ap2 q' hq' v a b)] at hov
          exact ho q' (by simp [hq']) v a b o hov

theorem ecpMul_safe (hw : DigitWidth w) (h1 : Rd3 w A p1) (hg : ∀ o, A g o → o.Shows w Z) (hM : 0 < Z) (ha : RdC w A (g + 1)) (hk : ∀ o, A kk o → o.Reads m)
    (h1s : p1 + 2 < sp) (hgs : g + 1 < sp) (hks : kk < sp) (hpr : Rdy w A pr) (hprs : pr + 2 < sp) (h : At K A sp s) :
    Safe K sp A A (ecpMul w sp pr p1 kk g s) := by
  unfold ecpMul
  obtain ⟨s1, e1, k1⟩ := decl_run h 27
  rw [bind_ok e1]
  obtain ⟨zz, vz⟩ := h1.2.2 (s1.obj (p1 + 2)) (by have := k1.objs (p1 + 2) (by omega); rwa [Locals.lo (by omega)] at this)
  rw [bind_ok (ecpIsZero_run vz)]
  by_cases hz : zz = 0
  · rw [if_pos (by simpa using hz)]
    split_ifs
    · exact ecpCopy_safe (undecl k1) hpr h1 hprs h1s
    · exact Or.inr ⟨0, s1, rfl, Or.inl ⟨rfl, undecl k1⟩⟩
  rw [if_neg (by simpa using hz)]
  obtain ⟨st, s2, e2, k2⟩ := ecpInit_res hw k1 (q := sp) (by omega) fun v h1 h2 o ho => by rw [Locals.hi h1] at ho; rw [ho]; rfl
  rcases k2 with ⟨rfl, k2⟩ | ⟨rfl, -, k2⟩
  swap
  · rw [chk_fail e2 (by decide)]
    refine Or.inr ⟨-1, s2, rfl, Or.inr ⟨rfl, (exit_at k2 fun v h1 h2 o ho => ?_).le fun v hv o ho => ?_⟩⟩
    · unfold Sets at ho
      split_ifs at ho with c
      · exact ho
      · rw [Locals.hi h1] at ho; rw [ho]; rfl
    · unfold Sets at ho
      rw [if_neg (by simp; omega), Locals.lo hv] at ho
      exact ho
  rw [chk_ok e2]
  -- the end: `r` is cleared, and what the window points own is nothing
  have fin : ∀ {s5 : St} {E5 : Env} {st : Int}, At K E5 (sp + 27) s5 → (∀ v, v < sp → E5 v = A v) → Pt3 w E5 sp →
      (∀ v, sp + 2 < v → v < sp + 27 → ∀ o, E5 v o → o.owns = 0) → (st = 0 ∨ st = -1) →
      Safe K sp A A ((do ecpClear sp; pure st : M Int) s5) := by
    intro s5 E5 st k5 l5 p5 o5 hst
    obtain ⟨s8, E8, e8, k8, o8, f8, -⟩ := ecpClear_calm (w := w) k5 (q := sp) (by omega) p5
    rw [bind_ok e8]
    have : At K A sp s8 := (exit_at k8 fun v h1 h2 o ho => by
      by_cases hv : v ≤ sp + 2
      · exact o8 v h1 hv o ho
      · rw [f8 v (by omega)] at ho; exact o5 v (by omega) h2 o ho).le fun v hv o ho => by rwa [f8 v (by omega), l5 v hv] at ho
    exact Or.inr ⟨st, s8, rfl, hst.imp (fun e => ⟨e, this⟩) fun e => ⟨e, this⟩⟩
  have p2 : Pt3 w (But8 w (Locals sp A (· = Obj.fresh)) sp 1 1 0) sp := But8.inf.pt
  have l2 : ∀ v, v < sp → But8 w (Locals sp A (· = Obj.fresh)) sp 1 1 0 v = A v := fun v hv => by rw [But8.ne (by omega), Locals.lo hv]
  have o2 : ∀ v, sp + 2 < v → v < sp + 27 → ∀ o, But8 w (Locals sp A (· = Obj.fresh)) sp 1 1 0 v o → o.owns = 0 := fun v h1 _ o ho => by
    rw [But8.ne (by omega), Locals.hi (by omega)] at ho; rw [ho]; rfl
  rcases request_any k2 with ⟨s3, e3, k3, -⟩ | ⟨s3, e3, k3⟩
  · have inner : (do
        if ← request 1 then do
          let st ← chk (ecpWinInit w [] (winAt sp)) (do
            let st ← ecpMulBody w sp pr p1 kk g
            ecpClearList (winAt sp)
            pure st)
          release
          pure st
        else pure 0 : M Int) s2 = .ok (0, s3) := by rw [bind_ok e3]; rfl
    rw [bind_ok inner]
    exact fin k3 l2 p2 o2 (Or.inl rfl)
  obtain ⟨st, s4, E4, e4, k4, f4, r4⟩ := ecpWinInit_any hw (K := K.more) (winAt sp) [] _ s3 k3 (fun q hq => by
    obtain ⟨i, hi, rfl⟩ := (winAt_mem q).1 hq; omega) (fun q hq v h1 h2 o ho => by
    obtain ⟨i, hi, rfl⟩ := (winAt_mem q).1 hq
    exact o2 v (by omega) (by omega) o ho) (by simp) winAt_pairwise
  have far : ∀ v, v ≤ sp + 2 → E4 v = But8 w (Locals sp A (· = Obj.fresh)) sp 1 1 0 v := fun v hv => f4 v fun q hq => by
    obtain ⟨i, hi, rfl⟩ := (winAt_mem q).1 hq; omega
  have cover : ∀ v, sp + 2 < v → v < sp + 27 → ∃ q ∈ winAt sp, q ≤ v ∧ v ≤ q + 2 := fun v h1 h2 =>
    ⟨sp + 3 + 3 * ((v - sp - 3) / 3), (winAt_mem _).2 ⟨_, by omega, rfl⟩, by omega, by omega⟩
  rcases r4 with ⟨rfl, r4⟩ | ⟨rfl, r4⟩
  swap
  · obtain ⟨s5, e5, k5⟩ := release_more k4
    have inner : (do
        if ← request 1 then do
          let st ← chk (ecpWinInit w [] (winAt sp)) (do
            let st ← ecpMulBody w sp pr p1 kk g
            ecpClearList (winAt sp)
            pure st)
          release
          pure st
        else pure 0 : M Int) s2 = .ok (-1, s5) := by rw [bind_ok e3, if_pos rfl, bind_ok (chk_fail e4 (by decide)), bind_ok e5]; rfl
    rw [bind_ok inner]
    refine fin k5 (fun v hv => by rw [far v (by omega), l2 v hv]) (p2.congr fun v h1 h2 => far v h2) (fun v h1 h2 o ho => ?_) (Or.inr rfl)
    obtain ⟨q, hq, a, b⟩ := cover v h1 h2
    exact r4 q hq v a b o ho
  have k4' : At K.more (Locals sp A (Any w)) (sp + 27) s4 := k4.le fun v hv o ho => by
    by_cases c : v < sp
    · rw [Locals.lo c]; rwa [far v (by omega), l2 v c] at ho
    rw [Locals.hi (by omega)]
    have pick : ∀ q, Pt3 w E4 q → q ≤ v → v ≤ q + 2 → Any w o := fun q hq a b => by
      obtain rfl | rfl | rfl : v = q ∨ v = q + 1 ∨ v = q + 2 := by omega
      · exact hq.x o ho
      · exact hq.y o ho
      · exact hq.z o ho
    by_cases c2 : v ≤ sp + 2
    · exact pick sp (p2.congr fun v h1 h2 => far v h2) (by omega) c2
    · obtain ⟨q, hq, a, b⟩ := cover v (by omega) hv
      exact pick q (r4 q hq) a b
  rcases ecpMulBody_safe (K := K.more) hw h1 hg hM ha hk h1s hgs hks hpr hprs k4' with hh | ⟨st, s5, e5, k5⟩
  · refine Or.inl (hang_through ?_)
    rw [bind_ok e3, if_pos rfl]
    refine hang_through ?_
    rw [chk_ok e4]
    exact hang_through hh
  have hst : st = 0 ∨ st = -1 := k5.imp (fun h => h.1) fun h => h.1
  replace k5 : At K.more (Locals sp A (Any w)) (sp + 27) s5 := k5.elim (fun h => h.2) fun h => h.2
  obtain ⟨s6, E6, e6, k6, o6, f6, -⟩ := ecpClearList_calm (w := w) (winAt sp) _ s5 k5 (fun q hq => by
    obtain ⟨i, hi, rfl⟩ := (winAt_mem q).1 hq
    have := loc_rdy (w := w) (A := A) (sp := sp) (q := sp + 3 + 3 * i) (by omega)
    exact ⟨by omega, by rw [this.1]; exact fun o h => h, by rw [this.2.1]; exact fun o h => h, by rw [this.2.2]; exact fun o h => h⟩) winAt_pairwise
  have far6 : ∀ v, v ≤ sp + 2 → E6 v = Locals sp A (Any w) v := fun v hv => f6 v fun q hq => by
    obtain ⟨i, hi, rfl⟩ := (winAt_mem q).1 hq; omega
  obtain ⟨s7, e7, k7⟩ := release_more k6
  have inner : (do
      if ← request 1 then do
        let st ← chk (ecpWinInit w [] (winAt sp)) (do
          let st ← ecpMulBody w sp pr p1 kk g
          ecpClearList (winAt sp)
          pure st)
        release
        pure st
      else pure 0 : M Int) s2 = .ok (st, s7) := by
    have i1 : chk (ecpWinInit w [] (winAt sp)) (do
          let st ← ecpMulBody w sp pr p1 kk g
          ecpClearList (winAt sp)
          pure st) s3 = .ok (st, s6) := by rw [chk_ok e4, bind_ok e5, bind_ok e6]; rfl
    rw [bind_ok e3, if_pos rfl, bind_ok i1, bind_ok e7]; rfl
  rw [bind_ok inner]
  refine fin k7 (fun v hv => by rw [far6 v (by omega), Locals.lo hv]) ⟨?_, ?_, ?_⟩ (fun v h1 h2 o ho => ?_) hst
  · rw [far6 _ (by omega), Locals.hi (by omega)]; exact fun o h => h
  · rw [far6 _ (by omega), Locals.hi (by omega)]; exact fun o h => h
  · rw [far6 _ (by omega), Locals.hi (by omega)]; exact fun o h => h
  obtain ⟨q, hq, a, b⟩ := cover v h1 h2
  exact o6 q hq v a b o ho

end Verif.Mem
