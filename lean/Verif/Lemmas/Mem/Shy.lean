import Verif.Lemmas.Mem.DsaSign
/-! Which calls put a request to the allocator: needed to follow a request that fails. -/
namespace Verif.Mem
open Verif.Mpi

variable {w : Nat} {K : Ctx} {A : Env} {sp N : Nat} {s : St} {α β : Type}

/-- Puts no request. -/
def Quiet (c : M α) : Prop := ∀ s a s', c s = .ok (a, s') → s'.tick = s.tick ∧ s'.fails = s.fails
/-- If it succeeds although the next request fails, it put none. -/
def Shy (c : M Int) : Prop := ∀ s s', s.fails s.tick = true → c s = .ok (0, s') → s'.tick = s.tick

theorem Quiet.shy {c : M Int} (h : Quiet c) : Shy c := fun s s' _ e => (h s 0 s' e).1
theorem Quiet.pure (a : α) : Quiet (Pure.pure a : M α) := fun s b s' e => by cases e; exact ⟨rfl, rfl⟩
theorem Quiet.ub : Quiet (ub : M α) := fun s b s' e => by cases e
theorem Quiet.bind {c : M α} {f : α → M β} (h : Quiet c) (hf : ∀ a, Quiet (f a)) : Quiet (c >>= f) := by
  intro s b s' e
  rw [bind_apply] at e
  cases hc : c s with
  | ub => rw [hc] at e; cases e
  | hang => rw [hc] at e; cases e
  | ok q =>
    obtain ⟨a, s1⟩ := q
    rw [hc] at e
    have h1 := h s a s1 hc
    have h2 := hf a s1 b s' e
    exact ⟨h2.1.trans h1.1, h2.2.trans h1.2⟩
theorem Quiet.getObj (v : Nat) : Quiet (getObj v) := fun s b s' e => by cases e; exact ⟨rfl, rfl⟩
theorem Quiet.setObj (v : Nat) (o : Obj) : Quiet (setObj v o) := fun s b s' e => by cases e; exact ⟨rfl, rfl⟩
theorem Quiet.hdr (v : Nat) : Quiet (hdr v) := by
  refine (Quiet.getObj v).bind fun o => ?_
  cases o.hdr with
  | none => exact Quiet.ub
  | some h => exact Quiet.pure _
theorem Quiet.setHdr (v : Nat) (h : Hdr) : Quiet (setHdr v h) := (Quiet.getObj v).bind fun _ => Quiet.setObj _ _
theorem Quiet.setUsed (v n : Nat) : Quiet (setUsed v n) := (Quiet.hdr v).bind fun _ => Quiet.setHdr _ _
theorem Quiet.setSign (v : Nat) (g : Bool) : Quiet (setSign v g) := (Quiet.hdr v).bind fun _ => Quiet.setHdr _ _
theorem Quiet.rd (v i : Nat) : Quiet (rd v i) := by
  refine (Quiet.getObj v).bind fun o => ?_
  split
  · split
    · exact Quiet.pure _
    · exact Quiet.ub
  · exact Quiet.ub
theorem Quiet.wr (v i d : Nat) : Quiet (wr v i d) := by
  refine (Quiet.getObj v).bind fun o => ?_
  split
  · split
    · exact Quiet.setObj _ _
    · exact Quiet.ub
  · exact Quiet.ub
theorem Quiet.zero (v : Nat) : Quiet (zero v) := by
  unfold Mem.zero
  exact (Quiet.hdr v).bind fun _ => Quiet.setHdr _ _
theorem Quiet.copyLoop (d x : Nat) : ∀ n i, Quiet (copyLoop d x n i)
  | 0, _ => Quiet.pure _
  | n + 1, i => (Quiet.rd x i).bind fun _ => (Quiet.wr _ _ _).bind fun _ => Quiet.copyLoop d x n (i + 1)
theorem Quiet.loadLoop (x : Nat) : ∀ bs d m i, Quiet (loadLoop w x bs d m i)
  | [], _, _, _ => Quiet.pure _
  | p :: ps, d, m, i => by
    unfold Mem.loadLoop
    dsimp only
    split
    · exact (Quiet.wr _ _ _).bind fun _ => Quiet.loadLoop x ps _ _ _
    · exact Quiet.loadLoop x ps _ _ _

theorem Shy.chk {c k : M Int} (hc : Shy c) (hq : Quiet k) : Shy (chk c k) := by
  intro s s' hf e
  unfold Mem.chk at e
  rw [bind_apply] at e
  cases h : c s with
  | ub => rw [h] at e; cases e
  | hang => rw [h] at e; cases e
  | ok q =>
    obtain ⟨st, s1⟩ := q
    rw [h] at e
    dsimp only at e
    by_cases h0 : st = 0
    · subst h0
      rw [if_neg (by simp)] at e
      exact (hq _ _ _ e).1.trans (hc s s1 hf h)
    · rw [if_pos h0] at e
      cases e; exact absurd rfl h0
theorem Shy.bind {c : M α} {f : α → M Int} (h : Quiet c) (hf : ∀ a, Shy (f a)) : Shy (c >>= f) := by
  intro s s' hs e
  rw [bind_apply] at e
  cases hc : c s with
  | ub => rw [hc] at e; cases e
  | hang => rw [hc] at e; cases e
  | ok q =>
    obtain ⟨a, s1⟩ := q
    rw [hc] at e
    have h1 := h s a s1 hc
    exact (hf a s1 s' (by rw [h1.1, h1.2]; exact hs) e).trans h1.1
theorem Shy.request {d : Int} {c : M Int} : Shy (do if ← request d then c else pure (-1)) := by
  intro s s' hs e
  have hr : Mem.request d s = .ok (false, { s with tick := s.tick + 1 }) := if_pos hs
  rw [bind_ok hr] at e
  cases e

theorem Shy.grow (a n : Nat) : Shy (grow a n) := by
  unfold Mem.grow
  refine Shy.bind (Quiet.hdr a) fun h => ?_
  dsimp only
  split
  · exact (Quiet.pure _).shy
  refine Shy.bind (Quiet.getObj a) fun o => ?_
  split
  · exact Quiet.ub.shy
  · exact Shy.request
  · exact Quiet.ub.shy
  · exact Shy.request

theorem Shy.copy (d x : Nat) : Shy (copy d x) := by
  unfold Mem.copy
  split
  · exact (Quiet.pure _).shy
  refine Shy.bind (Quiet.hdr _) fun hd => Shy.bind (Quiet.hdr _) fun hx => Shy.chk ?_ ?_
  · split
    · exact Shy.grow _ _
    · exact (Quiet.pure _).shy
  · exact (Quiet.copyLoop _ _ _ _).bind fun _ => (Quiet.setUsed _ _).bind fun _ => (Quiet.setSign _ _).bind fun _ => Quiet.pure _

theorem Shy.loadBin (x : Nat) (bs : List Byte) : Shy (loadBin w x bs) := by
  unfold Mem.loadBin
  split
  · exact ((Quiet.zero _).bind fun _ => Quiet.pure _).shy
  refine Shy.bind (Quiet.hdr _) fun hd => Shy.chk ?_ ?_
  · split
    · exact Shy.grow _ _
    · exact (Quiet.pure _).shy
  · exact (Quiet.setUsed _ _).bind fun _ => (Quiet.loadLoop _ _ _ _ _).bind fun _ => Quiet.pure _

theorem init_ok (a : Nat) (hf : s.fails s.tick = false) : ∃ s', init a s = .ok (0, s') ∧ s'.fails = s.fails ∧ s'.tick = s.tick + 1 := by
  have hr : request 1 s = .ok (true, { s with tick := s.tick + 1, live := s.live + 1 }) := if_neg (by rw [hf]; simp)
  unfold init
  rw [bind_ok hr]
  exact ⟨_, rfl, rfl, rfl⟩
theorem init_no (a : Nat) (hf : s.fails s.tick = true) : ∃ s', init a s = .ok (-1, s') := by
  have hr : request 1 s = .ok (false, { s with tick := s.tick + 1 }) := if_pos hf
  unfold init
  rw [bind_ok hr]
  exact ⟨_, rfl⟩

theorem initListLoop_tick : ∀ (as done : List Nat) (s : St), (∀ k, k < as.length → s.fails (s.tick + k) = false) →
    ∃ s', initListLoop done as s = .ok (0, s') ∧ s'.tick = s.tick + as.length
  | [], _, s, _ => ⟨s, rfl, rfl⟩
  | a :: as, done, s, hf => by
    obtain ⟨s1, e1, f1, t1⟩ := init_ok (s := s) a (hf 0 (by simp))
    obtain ⟨s2, e2, t2⟩ := initListLoop_tick as (done ++ [a]) s1 (fun k hk => by
      have := hf (k + 1) (by simpa using hk)
      rw [f1, t1, show s.tick + 1 + k = s.tick + (k + 1) by omega]; exact this)
    refine ⟨s2, ?_, by rw [t2, t1, List.length_cons]; omega⟩
    unfold initListLoop
    rw [bind_ok e1, if_pos rfl, e2]

/-- `cry_mpi_init_list` on all locals, when its requests succeed. -/
theorem initList_some (hw : 0 < w) {as : List Nat} (h : At K (Locals sp A (· = Obj.fresh)) (sp + N) s)
    (has : ∀ v, v ∈ as ↔ sp ≤ v ∧ v < sp + N) (hn : as.Nodup) (hf : ∀ k, k < as.length → s.fails (s.tick + k) = false) :
    ∃ s', initList as s = .ok (0, s') ∧ At K (NV w sp A (List.replicate N 0)) (sp + N) s' ∧ s'.tick = s.tick + as.length := by
  obtain ⟨s1, e1, t1⟩ := initListLoop_tick as [] s hf
  obtain ⟨st, s', e, h'⟩ := initListLoop_at (w := w) hw as [] s (E := Locals sp A (· = Obj.fresh))
    (h.le fun v _ o ho => by unfold Sets; rw [if_neg (by simp)]; exact ho)
    (by intro a ha; exact ((has a).1 (by simpa using ha)).2) (by simpa using hn) (by
      intro a ha o ho
      rw [Locals.hi ((has a).1 ha).1] at ho
      rw [ho]; rfl)
  rw [e1] at e
  injection e with e
  injection e with e2 e3
  subst e2 e3
  rcases h' with ⟨-, h'⟩ | ⟨h0, -⟩
  swap
  · cases h0
  refine ⟨s1, e1, h'.le fun v hv o ho => ?_, t1⟩
  unfold Sets at ho
  by_cases hs : v < sp
  · rw [if_neg (by rw [List.nil_append, has]; omega), Locals.lo hs] at ho
    rw [NV.lo hs]; exact ho
  · obtain ⟨j, rfl⟩ := Nat.exists_eq_add_of_le (Nat.not_lt.1 hs)
    rw [if_pos (by rw [List.nil_append, has]; omega)] at ho
    rw [NV.hi, List.getD_replicate (h := by omega)]
    exact ho.weak (Nat.zero_le _)

/-- `cry_mpi_init_list` on all locals, when its first request fails. -/
theorem initList_first (hw : 0 < w) {a : Nat} {as : List Nat} (h : At K (Locals sp A (· = Obj.fresh)) (sp + N) s)
    (has : ∀ v, v ∈ a :: as ↔ sp ≤ v ∧ v < sp + N) (hn : (a :: as).Nodup) (hf : s.fails s.tick = true) :
    ∃ s', initList (a :: as) s = .ok (-1, s') ∧ At K A sp s' := by
  obtain ⟨s1, e1⟩ := init_no a hf
  obtain ⟨st, s', e, h'⟩ := initListLoop_at (w := w) hw (a :: as) [] s (E := Locals sp A (· = Obj.fresh))
    (h.le fun v _ o ho => by unfold Sets; rw [if_neg (by simp)]; exact ho)
    (by intro a ha; exact ((has a).1 (by simpa using ha)).2) (by simpa using hn) (by
      intro a ha o ho
      rw [Locals.hi ((has a).1 ha).1] at ho
      rw [ho]; rfl)
  have e2 : initListLoop [] (a :: as) s = .ok (-1, s1) := by
    unfold initListLoop
    rw [bind_ok e1, if_neg (by decide)]; rfl
  rw [e2] at e
  injection e with e
  injection e with e3 e4
  subst e3 e4
  rcases h' with ⟨h0, -⟩ | ⟨-, -, h'⟩
  · cases h0
  refine ⟨s1, e2, (exit_at h' fun v h1 h2 o ho => ?_).le fun v hv o ho => ?_⟩
  · unfold Sets at ho
    rw [if_pos (by rw [List.nil_append, has]; omega)] at ho; exact ho
  · unfold Sets at ho
    rwa [if_neg (by rw [List.nil_append, has]; omega), Locals.lo hv] at ho

/-- `cry_mpi_inv` when its first request fails. -/
theorem inv_first (hw : 0 < w) {r a m : Nat} (h : At K A sp s) (hf : s.fails s.tick = true) :
    ∃ s', inv w sp r a m s = .ok (-1, s') ∧ At K A sp s' := by
  obtain ⟨s1, e1, h1⟩ := decl_run h 5
  have ht : s1.fails s1.tick = true := by unfold decl at e1; cases e1; exact hf
  obtain ⟨s2, e2, h2⟩ := initList_first (N := 5) (a := sp) (as := [sp + 1, sp + 2, sp + 3, sp + 4]) hw h1 (by
    intro v; simp only [List.mem_cons, List.not_mem_nil, or_false]; omega) (by simp) ht
  refine ⟨s2, ?_, h2⟩
  unfold inv invTurns
  rw [bind_ok e1, chk_fail e2 (by decide)]

/-- `cry_dsa_verify` when the four locals are allocated and the next request fails. -/
theorem dsaVerify_lost (hw : DigitWidth w) (h : At K A sp s) {p q g pub r t : Nat} {T : Int} {mq : Mpi}
    (hq : q < sp) (ht : t < sp) (aq : ∀ o, A q o → o.Reads mq) (at' : ∀ o, A t o → o.Shows w T) (msg : List Byte)
    (hf : ∀ k, k < 4 → s.fails (s.tick + k) = false) (hf4 : s.fails (s.tick + 4) = true) :
    ∃ s', dsaVerify w sp p q g pub r t msg s = .ok (0, s') ∧ At K A sp s' := by
  have hw0 : 0 < w := by have := hw.pos; omega
  obtain ⟨s0, e0, h0⟩ := decl_run h 4
  have ht0 : s0.tick = s.tick ∧ s0.fails = s.fails := by unfold decl at e0; cases e0; exact ⟨rfl, rfl⟩
  have hlist : ∀ v, v ∈ [sp, sp + 1, sp + 2, sp + 3] ↔ sp ≤ v ∧ v < sp + 4 := by
    intro v; simp only [List.mem_cons, List.not_mem_nil, or_false]; omega
  obtain ⟨s1, e1, h1, t1⟩ := initList_some hw0 h0 hlist (by simp) (fun k hk => by rw [ht0.1, ht0.2]; exact hf k hk)
  unfold dsaVerify
  rw [bind_ok e0, chk_ok e1]
  have f1 : s1.fails = s.fails := h1.orc.trans h.orc.symm
  have t1 : s1.fails s1.tick = true := by rw [f1, t1, ht0.1]; exact hf4
  obtain ⟨c, hc1, hc2⟩ := aq _ (by have := h1.objs q (by omega); rwa [NV.lo hq] at this)
  have ec : ∃ m, cutMsg w q msg s1 = .ok (m, s1) := by
    unfold cutMsg
    rw [bind_ok (hdr_ok hc1)]
    exact ⟨_, rfl⟩
  obtain ⟨m, ec⟩ := ec
  rw [bind_ok ec]
  have fin : ∀ {s2 : St} {k : M Int} {L : List Int}, At K (NV w sp A L) (sp + 4) s2 → k s1 = .ok (0, s2) → ∃ s', (do
      let st ← k
      clearList [sp, sp + 1, sp + 2, sp + 3]
      pure st : M Int) s1 = .ok (0, s') ∧ At K A sp s' := by
    intro s2 k L h2 e
    obtain ⟨s3, e3, h3⟩ := clearList_calm h2 hlist
    exact ⟨s3, by rw [bind_ok e, bind_ok e3]; rfl, h3⟩
  have v1 : V w 0 0 (s1.obj sp) := by
    have := h1.objs sp (by omega); rwa [show NV w sp A (List.replicate 4 0) sp = V w 0 0 from NV.hi (i := 0)] at this
  obtain ⟨st, s2, e2, p2, h2⟩ := loadBin_v (S := sp + 4) hw v1 (by decide) m
  rcases h2 with ⟨rfl, h2⟩ | ⟨rfl, -, h2⟩
  swap
  · refine fin (L := List.replicate 4 0) ?_ (lose_fail e2 (by decide))
    have := step_at (P := V w 0 0) h1 (r := sp) (by omega) p2 h2
    exact this.le fun v hv o ho => by
      by_cases hv : v = sp
      · subst hv; rw [Function.update_self] at ho; rwa [show NV w v A (List.replicate 4 0) v = V w 0 0 from NV.hi (i := 0)]
      · rwa [Function.update_of_ne hv] at ho
  have t2 : s2.tick = s1.tick := Shy.loadBin _ _ _ _ t1 e2
  have k2 : At K (NV w sp A [(beVal m : Int), 0, 0, 0]) (sp + 4) s2 :=
    (step_at (P := V w (beVal m) 0) h1 (r := sp) (by omega) p2 h2).le (Nums.set (i := 0) (L := [0, 0, 0, 0]) (by simp))
  have f2 : s2.fails s2.tick = true := by rw [p2.fails, t2]; exact t1
  have v2 : V w 0 0 (s2.obj (sp + 1)) := by
    have := k2.objs (sp + 1) (by omega); rwa [NV.hi] at this
  have sT : (s2.obj t).Shows w T := at' _ (by have := k2.objs t (by omega); rwa [NV.lo ht] at this)
  obtain ⟨st, s3, e3, p3, h3⟩ := copy_leaf (sp := sp + 4) v2 sT
  rcases h3 with ⟨rfl, h3⟩ | ⟨rfl, -, h3⟩
  swap
  · refine fin (L := [(beVal m : Int), 0, 0, 0]) ?_ (by rw [lose_ok e2, lose_fail e3 (by decide)])
    exact (step_at (P := V w 0 0) k2 (r := sp + 1) (by omega) p3 h3).le (Nums.set (i := 1) (by simp))
  have k3 : At K (NV w sp A [(beVal m : Int), T, 0, 0]) (sp + 4) s3 :=
    (step_at (P := V w T 0) k2 (r := sp + 1) (by omega) p3 h3).le (Nums.set (i := 1) (by simp))
  have f3 : s3.fails s3.tick = true := by rw [p3.fails, Shy.copy _ _ _ _ f2 e3]; exact f2
  obtain ⟨s4, e4, h4⟩ := inv_first (r := sp + 1) (a := sp + 1) (m := q) hw0 k3 f3
  exact fin h4 (by rw [lose_ok e2, lose_ok e3, lose_fail e4 (by decide)])

/-- `secret_gen` when its first request fails. -/
theorem dsaSecret_first (hw : 0 < w) {k q : Nat} {bs : List Byte} (h : At K A sp s) (hf : s.fails s.tick = true) :
    ∃ s', dsaSecret w sp k q bs s = .ok (-1, s') ∧ At K A sp s' := by
  obtain ⟨s0, e0, h0⟩ := decl_run h 2
  obtain ⟨s1, e1, h1⟩ := const_at (N := 1) h0 0
  have ht : s1.fails s1.tick = true := by unfold decl at e0; unfold setObj at e1; cases e0; cases e1; exact hf
  obtain ⟨s2, e2, h2⟩ := initList_first (N := 1) (a := sp + 1) (as := []) hw h1 (by
    intro v; simp only [List.mem_singleton]; omega) (by simp) ht
  refine ⟨s2, ?_, const_exit h2⟩
  unfold dsaSecret
  rw [bind_ok e0, bind_ok e1, ← initList_one, chk_fail e2 (by decide)]

/-- `cry_dsa_sign` when the two locals are allocated and the next request fails. -/
theorem dsaSign_lost (hw : DigitWidth w) (h : At K A sp s) {p q g pvt r t : Nat} {mq : Mpi}
    (hq : q < sp) (aq : ∀ o, A q o → o.Reads mq) (msg bs : List Byte)
    (hf : ∀ k, k < 2 → s.fails (s.tick + k) = false) (hf2 : s.fails (s.tick + 2) = true) :
    ∃ s', dsaSign w sp p q g pvt r t msg bs s = .ok (0, s') ∧ At K A sp s' := by
  have hw0 : 0 < w := by have := hw.pos; omega
  obtain ⟨s0, e0, h0⟩ := decl_run h 2
  have ht0 : s0.tick = s.tick ∧ s0.fails = s.fails := by unfold decl at e0; cases e0; exact ⟨rfl, rfl⟩
  have hlist : ∀ v, v ∈ [sp, sp + 1] ↔ sp ≤ v ∧ v < sp + 2 := by
    intro v; simp only [List.mem_cons, List.not_mem_nil, or_false]; omega
  obtain ⟨s1, e1, h1, t1⟩ := initList_some hw0 h0 hlist (by simp) (fun k hk => by rw [ht0.1, ht0.2]; exact hf k hk)
  unfold dsaSign
  rw [bind_ok e0, chk_ok e1]
  have f1 : s1.fails = s.fails := h1.orc.trans h.orc.symm
  have t1 : s1.fails s1.tick = true := by rw [f1, t1, ht0.1]; exact hf2
  obtain ⟨c, hc1, hc2⟩ := aq _ (by have := h1.objs q (by omega); rwa [NV.lo hq] at this)
  have ec : ∃ m, cutMsg w q msg s1 = .ok (m, s1) := by
    unfold cutMsg
    rw [bind_ok (hdr_ok hc1)]
    exact ⟨_, rfl⟩
  obtain ⟨m, ec⟩ := ec
  rw [bind_ok ec]
  have fin : ∀ {s2 : St} {k : M Int} {L : List Int}, At K (NV w sp A L) (sp + 2) s2 → k s1 = .ok (0, s2) → ∃ s', (do
      let st ← k
      clearList [sp, sp + 1]
      pure st : M Int) s1 = .ok (0, s') ∧ At K A sp s' := by
    intro s2 k L h2 e
    obtain ⟨s3, e3, h3⟩ := clearList_calm h2 hlist
    exact ⟨s3, by rw [bind_ok e, bind_ok e3]; rfl, h3⟩
  have v1 : V w 0 0 (s1.obj (sp + 1)) := by
    have := h1.objs (sp + 1) (by omega); rwa [NV.hi] at this
  obtain ⟨st, s2, e2, p2, h2⟩ := loadBin_v (S := sp + 2) hw v1 (by decide) m
  rcases h2 with ⟨rfl, h2⟩ | ⟨rfl, -, h2⟩
  swap
  · refine fin (L := [0, 0]) ?_ (lose_fail e2 (by decide))
    exact (step_at (P := V w 0 0) h1 (r := sp + 1) (by omega) p2 h2).le (Nums.set (i := 1) (L := [0, 0]) (by simp))
  have t2 : s2.tick = s1.tick := Shy.loadBin _ _ _ _ t1 e2
  have k2 : At K (NV w sp A [0, (beVal m : Int)]) (sp + 2) s2 :=
    (step_at (P := V w (beVal m) 0) h1 (r := sp + 1) (by omega) p2 h2).le (Nums.set (i := 1) (L := [0, 0]) (by simp))
  have f2 : s2.fails s2.tick = true := by rw [p2.fails, t2]; exact t1
  obtain ⟨s3, e3, h3⟩ := dsaSecret_first (k := sp) (q := q) (bs := bs) hw0 k2 f2
  exact fin h3 (by rw [lose_ok e2, lose_fail e3 (by decide)])

end Verif.Mem
