import Verif.Props.Mem.Ecp
/-!
# C84: making, copying and clearing points in memory

Whichever allocations fail: no undefined behaviour, nothing leaks, and a failure is reported.
-/
namespace Verif.Mem
open Verif.Mpi

variable {w sp q d : Nat} {s : St} {x y z : Int}

/-- The three numbers at `q` own no allocated block. -/
def EmptyAt (s : St) (q : Nat) : Prop := ∀ i, i ≤ 2 → (s.obj (q + i)).owns = 0

theorem EmptyAt.at (h : EmptyAt s q) {v : Nat} (h1 : q ≤ v) (h2 : v ≤ q + 2) : ∀ o, Now s v o → o.owns = 0 := by
  intro o ho
  obtain ⟨i, rfl⟩ := Nat.exists_eq_add_of_le h1
  rw [show o = s.obj (q + i) from ho]
  exact h i (by omega)

theorem emptyAt_of {K : Ctx} {E : Env} {s' : St} (h : At K E sp s') (hq : q + 2 < sp)
    (hE : ∀ v, q ≤ v → v ≤ q + 2 → ∀ o, E v o → o.owns = 0) : EmptyAt s' q :=
  fun i hi => hE (q + i) (by omega) (by omega) _ (h.objs (q + i) (by omega))

theorem sets3 {E : Env} {P : Obj → Prop} {v : Nat} (h1 : q ≤ v) (h2 : v ≤ q + 2) : Sets E [q, q + 1, q + 2] P v = P := by
  unfold Sets; rw [if_pos (by simp; omega)]
theorem sets3_ne {E : Env} {P : Obj → Prop} {v : Nat} (h : v < q ∨ q + 2 < v) : Sets E [q, q + 1, q + 2] P v = E v := by
  unfold Sets; rw [if_neg (by simp; omega)]

/-- C84: `cry_ecp_init` makes the point at infinity, or reports failure (which some allocation request caused) and owns nothing. -/
theorem mem_ecp_init (hw : DigitWidth w) (hq : q + 2 < sp) (h0 : EmptyAt s q) :
    PtEnds sp s q (ecpInit w q) 0 (fun s' => Coords w s' q 1 1 0 ∧ ReadyAt w s' q) ∨
    PtEnds sp s q (ecpInit w q) (-1) (fun s' => Failed s s' ∧ EmptyAt s' q) := by
  obtain ⟨st, s', e, ⟨rfl, h⟩ | ⟨rfl, hb, h⟩⟩ := ecpInit_res hw (at_now sp s) hq fun v h1 h2 => h0.at h1 h2
  · exact Or.inl (ptEnds_of hq e h (fun v _ hv => But8.ne hv) (coords_of hq (h.le But8.le)))
  · exact Or.inr (ptEnds_of hq e h (fun v _ hv => sets3_ne hv) ⟨hb, emptyAt_of h hq fun v h1 h2 o ho => by rwa [sets3 h1 h2] at ho⟩)

/-- C84: `cry_ecp_init_int` makes the point with the two coordinates (of type `long`). -/
theorem mem_ecp_init_int (hw : DigitWidth w) (hq : q + 2 < sp) (h0 : EmptyAt s q) (hx : x.natAbs < 2 ^ 63) (hy : y.natAbs < 2 ^ 63) :
    PtEnds sp s q (ecpInitInt w q x y) 0 (fun s' => Coords w s' q x y 1 ∧ ReadyAt w s' q) ∨
    PtEnds sp s q (ecpInitInt w q x y) (-1) (fun s' => Failed s s' ∧ EmptyAt s' q) := by
  obtain ⟨st, s', e, ⟨rfl, h⟩ | ⟨rfl, hb, h⟩⟩ := ecpInitInt_res hw (at_now sp s) hq (fun v h1 h2 => h0.at h1 h2) hx hy
  · exact Or.inl (ptEnds_of hq e h (fun v _ hv => But8.ne hv) (coords_of hq (h.le But8.le)))
  · exact Or.inr (ptEnds_of hq e h (fun v _ hv => sets3_ne hv) ⟨hb, emptyAt_of h hq fun v h1 h2 o ho => by rwa [sets3 h1 h2] at ho⟩)

theorem Obj.Shows.uniq {o : Obj} {u v : Int} : o.Shows w u → o.Shows w v → u = v := by
  rintro ⟨m, -, m2, m3⟩ ⟨m', -, n2, n3⟩
  rw [← m2, ← n2, same_num m3 n3]

/-- C84: `cry_ecp_copy` copies a point, also onto itself; if it reports failure the target still consists of numbers that may be
written to and cleared. -/
theorem mem_ecp_copy (hd : d + 2 < sp) (hq : q + 2 < sp) (hdq : SameOrApart d q) (hr : ReadyAt w s d) (hP : Coords w s q x y z) :
    PtEnds sp s d (ecpCopy d q) 0 (fun s' => Coords w s' d x y z ∧ ReadyAt w s' d) ∨
    PtEnds sp s d (ecpCopy d q) (-1) (fun s' => Failed s s' ∧ ReadyAt w s' d) := by
  obtain ⟨x', hx⟩ := hr 0 (by omega)
  obtain ⟨y', hy⟩ := hr 1 (by omega)
  obtain ⟨z', hz⟩ := hr 2 (by omega)
  have hA : At (ctxOf sp s) (But3 w (Now s) d x' y' z') sp s := (at_now sp s).le fun v _ o ho => by
    have ho : o = s.obj v := ho
    subst ho
    by_cases g : v < d ∨ d + 2 < v
    · rw [But3.ne (by omega)]; rfl
    obtain rfl | rfl | rfl : v = d ∨ v = d + 1 ∨ v = d + 2 := by omega
    · rw [But3.atX]; exact V.of_is hx
    · rw [But3.atY]; exact V.of_is hy
    · rw [But3.atZ]; exact V.of_is hz
  have hP3 : At3 w (But3 w (Now s) d x' y' z') q x y z := by
    rcases hdq with rfl | h
    · have e1 := hP.1.uniq hx.shows
      have e2 := hP.2.1.uniq hy.shows
      have e3 := hP.2.2.uniq hz.shows
      subst e1 e2 e3
      exact at3_but3
    · exact hP.at3.congr fun v h1 h2 => But3.ne (by omega)
  obtain ⟨st, s', e, ⟨rfl, h⟩ | ⟨rfl, hb, h⟩⟩ := ecpCopy_res hA hd hq hP3 hdq
  · exact Or.inl (ptEnds_of hd e h (fun v _ hv => But3.ne (by omega)) (coords_of hd h))
  · refine Or.inr (ptEnds_of hd e h (fun v _ hv => sets3_ne hv) ⟨hb, fun i hi => ?_⟩)
    have := h.objs (d + i) (by omega)
    rw [sets3 (by omega) (by omega)] at this
    obtain ⟨z, hz⟩ := this
    exact ⟨z, hz.is⟩

/-- C84: `cry_ecp_clear` gives every block of the point back. -/
theorem mem_ecp_clear (hq : q + 2 < sp) (hr : ReadyAt w s q) :
    ∃ s', ecpClear q s = .ok ((), s') ∧ (∀ v, v < sp → (v < q ∨ q + 2 < v) → s'.obj v = s.obj v) ∧ EmptyAt s' q ∧
      s'.live = s.live - ((s.obj q).owns + (s.obj (q + 1)).owns + (s.obj (q + 2)).owns) := by
  obtain ⟨s', E', e, h, h0, hE, -⟩ := ecpClear_calm (at_now sp s) hq hr.pt3
  obtain ⟨s2, e2, f, b, -⟩ := ptEnds_of (c := do ecpClear q; pure 0) (st := 0) (good := fun _ => True) hq (by rw [bind_ok e]; rfl) h
    (fun v _ hv => hE v hv) trivial
  rw [bind_ok e] at e2
  cases e2
  have h0 := emptyAt_of h hq h0
  refine ⟨_, e, f, h0, ?_⟩
  have a0 := h0 0 (by omega)
  have a1 := h0 1 (by omega)
  have a2 := h0 2 (by omega)
  rw [Nat.add_zero] at a0
  rw [a0, a1, a2] at b
  omega

/-- No two of the points have a number in common. -/
def Apart (qs : List Nat) : Prop := qs.Pairwise fun a b => a + 2 < b ∨ b + 2 < a

/-- C84: `cry_ecp_init_list`: all points become infinity, or failure is reported and none owns anything. -/
theorem mem_ecp_init_list (hw : DigitWidth w) {qs : List Nat} (hq : ∀ q ∈ qs, q + 2 < sp ∧ EmptyAt s q) (ha : Apart qs) :
    ∃ st s', ecpInitList w qs s = .ok (st, s') ∧ (∀ v, v < sp → (∀ q ∈ qs, v < q ∨ q + 2 < v) → s'.obj v = s.obj v) ∧ Balanced sp s s' ∧
      ((st = 0 ∧ ∀ q ∈ qs, Coords w s' q 1 1 0 ∧ ReadyAt w s' q) ∨ (st = -1 ∧ Failed s s' ∧ ∀ q ∈ qs, EmptyAt s' q)) := by
  obtain ⟨st, s', E', e, h, hE, h0⟩ := ecpInitListLoop_at hw qs [] (Now s) s (at_now sp s) (fun q h => (hq q h).1)
    (fun q h v h1 h2 => (hq q h).2.at h1 h2) (by simp) ha
  rw [List.nil_append] at *
  refine ⟨st, s', e, fun v hv hv' => ?_, ?_, h0.imp (fun ⟨a, b⟩ => ⟨a, fun q hm => ?_⟩) fun ⟨a, b, c⟩ => ⟨a, b, fun q hm => emptyAt_of h (hq q hm).1 (c q hm)⟩⟩
  · have := h.objs v hv; rwa [hE v hv'] at this
  · have := h.bal
    have e : (ctxOf sp s).B = s.live - ∑ v ∈ Finset.range sp, (s.obj v).owns := rfl
    unfold Balanced
    rw [this, e]; ring
  · have hs := (hq q hm).1
    have i := b q hm
    have v0 := i.x _ (h.objs q (by omega))
    have v1 := i.y _ (h.objs (q + 1) (by omega))
    have v2 := i.z _ (h.objs (q + 2) (by omega))
    refine ⟨⟨v0.shows, v1.shows, v2.shows⟩, fun i hi => ?_⟩
    obtain rfl | rfl | rfl : i = 0 ∨ i = 1 ∨ i = 2 := by omega
    exacts [⟨_, v0.is⟩, ⟨_, v1.is⟩, ⟨_, v2.is⟩]

/-- C84: `cry_ecp_clear_list` gives every block of the points back. -/
theorem mem_ecp_clear_list {qs : List Nat} (hq : ∀ q ∈ qs, q + 2 < sp ∧ ReadyAt w s q) (ha : Apart qs) :
    ∃ s', ecpClearList qs s = .ok ((), s') ∧ (∀ v, v < sp → (∀ q ∈ qs, v < q ∨ q + 2 < v) → s'.obj v = s.obj v) ∧ Balanced sp s s' ∧
      ∀ q ∈ qs, EmptyAt s' q := by
  obtain ⟨s', E', e, h, h0, hE, -⟩ := ecpClearList_calm qs (Now s) s (at_now sp s) (fun q h => ⟨(hq q h).1, (hq q h).2.pt3⟩) ha
  refine ⟨s', e, fun v hv hv' => ?_, ?_, fun q hm => emptyAt_of h (hq q hm).1 (h0 q hm)⟩
  · have := h.objs v hv; rwa [hE v hv'] at this
  · have := h.bal
    have e : (ctxOf sp s).B = s.live - ∑ v ∈ Finset.range sp, (s.obj v).owns := rfl
    unfold Balanced
    rw [this, e]; ring

/-- C84: `cry_ecp_grp_init`: all members 0 and the base point infinity, or failure is reported and nothing is owned. -/
theorem mem_ecp_grp_init (hw : DigitWidth w) {g : Nat} (hg : g + 6 < sp) (h0 : ∀ i, i ≤ 6 → (s.obj (g + i)).owns = 0) :
    ∃ st s', ecpGrpInit w g s = .ok (st, s') ∧ (∀ v, v < sp → (v < g ∨ g + 6 < v) → s'.obj v = s.obj v) ∧ Balanced sp s s' ∧
      ((st = 0 ∧ (∀ i ∈ [0, 1, 2, 6], (s'.obj (g + i)).Is w 0) ∧ Coords w s' (g + 3) 1 1 0 ∧ ReadyAt w s' (g + 3)) ∨
        (st = -1 ∧ Failed s s' ∧ ∀ i, i ≤ 6 → (s'.obj (g + i)).owns = 0)) := by
  have hw0 : 0 < w := by have := hw.pos; omega
  have hm : ∀ v, v ∈ [g, g + 1, g + 2, g + 6, g + 3, g + 4, g + 5] ↔ g ≤ v ∧ v ≤ g + 6 := by intro v; simp; omega
  have hr := initListLoop_at (w := w) hw0 [g, g + 1, g + 2, g + 6, g + 3, g + 4, g + 5] [] s (E := Now s)
    ((at_now sp s).le fun v _ o ho => by unfold Sets; rw [if_neg (by simp)]; exact ho)
    (by intro a ha; rw [List.nil_append, hm] at ha; omega) (by simp) (by
      intro a ha o hoa
      rw [hm] at ha
      obtain ⟨i, rfl⟩ := Nat.exists_eq_add_of_le ha.1
      rw [show o = s.obj (g + i) from hoa]
      exact h0 i (by omega))
  rw [List.nil_append] at hr
  have hS : ∀ {P : Obj → Prop} {v : Nat}, g ≤ v → v ≤ g + 6 → Sets (Now s) [g, g + 1, g + 2, g + 6, g + 3, g + 4, g + 5] P v = P := fun h1 h2 => by
    unfold Sets; rw [if_pos ((hm _).2 ⟨h1, h2⟩)]
  have hN : ∀ {P : Obj → Prop} {v : Nat}, (v < g ∨ g + 6 < v) → Sets (Now s) [g, g + 1, g + 2, g + 6, g + 3, g + 4, g + 5] P v = Now s v := fun h => by
    unfold Sets; rw [if_neg fun h' => by have := (hm _).1 h'; omega]
  have hB : ∀ {E : Env} {s' : St}, At (ctxOf sp s) E sp s' → Balanced sp s s' := fun h => by
    have := h.bal
    have e : (ctxOf sp s).B = s.live - ∑ v ∈ Finset.range sp, (s.obj v).owns := rfl
    unfold Balanced
    rw [this, e]; ring
  obtain ⟨st, s1, e1, ⟨rfl, h1⟩ | ⟨rfl, hb, h1⟩⟩ := hr
  · obtain ⟨s2, s3, s4, e2, e3, e4, h4, -⟩ := set3_room hw h1 (q := g + 3) (by omega) (x := 1) (y := 1) (z := 0) (by norm_num) (by norm_num) (by norm_num)
      fun v h1 h2 o ho => ⟨0, by rwa [hS (by omega) (by omega)] at ho⟩
    refine ⟨0, s4, ?_, fun v hv hv' => ?_, hB h4, Or.inl ⟨rfl, fun i hi => ?_, coords_of (by omega) (h4.le But8.le)⟩⟩
    · unfold ecpGrpInit initList
      rw [chk_ok e1]
      unfold ecpSetZero; rw [ign_run e2, ign_run e3, ign_run e4]; rfl
    · have := h4.objs v hv
      rwa [But8.ne (by omega), hN hv'] at this
    · simp only [List.mem_cons, List.not_mem_nil, or_false] at hi
      have := h4.objs (g + i) (by omega)
      rw [But8.ne (by omega), hS (by omega) (by omega)] at this
      exact this.is
  · refine ⟨-1, s1, by unfold ecpGrpInit initList; rw [chk_fail e1 (by decide)], fun v hv hv' => ?_, hB h1, Or.inr ⟨rfl, hb, fun i hi => ?_⟩⟩
    · have := h1.objs v hv; rwa [hN hv'] at this
    · have := h1.objs (g + i) (by omega); rwa [hS (by omega) (by omega)] at this

/-- C84: `cry_ecp_grp_clear` gives every block of a group back. -/
theorem mem_ecp_grp_clear {g : Nat} (hg : g + 6 < sp) (hr : ∀ i, i ≤ 6 → ∃ z, (s.obj (g + i)).Is w z) :
    ∃ s', ecpGrpClear g s = .ok ((), s') ∧ (∀ v, v < sp → (v < g ∨ g + 6 < v) → s'.obj v = s.obj v) ∧ Balanced sp s s' ∧
      ∀ i, i ≤ 6 → (s'.obj (g + i)).owns = 0 := by
  have hm : ∀ v, v ∈ [g, g + 1, g + 2, g + 6, g + 3, g + 4, g + 5] ↔ g ≤ v ∧ v ≤ g + 6 := by intro v; simp; omega
  obtain ⟨s', e, h, -⟩ := clearList_at [g, g + 1, g + 2, g + 6, g + 3, g + 4, g + 5] (Now s) s (at_now sp s)
    (by intro a ha; rw [hm] at ha; omega) (by
      intro a ha o ho
      rw [hm] at ha
      obtain ⟨i, rfl⟩ := Nat.exists_eq_add_of_le ha.1
      rw [show o = s.obj (g + i) from ho]
      obtain ⟨z, m, -, -, h⟩ := hr i (by omega)
      exact Or.inr ⟨m, h⟩)
  refine ⟨s', e, fun v hv hv' => ?_, ?_, fun i hi => ?_⟩
  · have := h.objs v hv
    unfold Sets at this
    rwa [if_neg fun h' => by have := (hm _).1 h'; omega] at this
  · have := h.bal
    have e : (ctxOf sp s).B = s.live - ∑ v ∈ Finset.range sp, (s.obj v).owns := rfl
    unfold Balanced
    rw [this, e]; ring
  · have := h.objs (g + i) (by omega)
    unfold Sets at this
    rw [if_pos ((hm _).2 ⟨by omega, by omega⟩)] at this
    rw [this]; rfl

/-- Addresses from 14 on hold nothing: the hypotheses of the theorems about making points and groups are met. -/
theorem exEcp_empty (f : Nat → Bool) {v : Nat} (hv : 14 ≤ v) : ((exEcp f).obj v).owns = 0 := by
  show (match [5, 1, 1, 6, 3, 1, 17, 2, 2, 5, 1, 1, 19, 7][v]? with | some n => exNum n | none => ⟨some ⟨false, 0, 0⟩, .null⟩ : Obj).owns = 0
  rw [List.getElem?_eq_none (by simpa using hv)]; rfl

example (f : Nat → Bool) : PtEnds 17 (exEcp f) 14 (ecpInitInt 8 14 (-5) 70000) 0 (fun s' => Coords 8 s' 14 (-5) 70000 1 ∧ ReadyAt 8 s' 14) ∨
    PtEnds 17 (exEcp f) 14 (ecpInitInt 8 14 (-5) 70000) (-1) (fun s' => Failed (exEcp f) s' ∧ EmptyAt s' 14) :=
  mem_ecp_init_int (Or.inl rfl) (by decide) (fun _ _ => exEcp_empty f (by omega)) (by decide) (by decide)

example (f : Nat → Bool) : ∃ st s', ecpInitList 8 [14, 17] (exEcp f) = .ok (st, s') ∧
    (∀ v, v < 20 → (∀ q ∈ [14, 17], v < q ∨ q + 2 < v) → s'.obj v = (exEcp f).obj v) ∧ Balanced 20 (exEcp f) s' ∧
    ((st = 0 ∧ ∀ q ∈ [14, 17], Coords 8 s' q 1 1 0 ∧ ReadyAt 8 s' q) ∨ (st = -1 ∧ Failed (exEcp f) s' ∧ ∀ q ∈ [14, 17], EmptyAt s' q)) :=
  mem_ecp_init_list (Or.inl rfl) (fun q hq => by
    simp only [List.mem_cons, List.not_mem_nil, or_false] at hq
    exact ⟨by omega, fun _ _ => exEcp_empty f (by omega)⟩) (by unfold Apart; simp)

/-- (5, 1) is copied over (6, 3); the result is cleared. -/
example (f : Nat → Bool) : (PtEnds 14 (exEcp f) 3 (ecpCopy 3 0) 0 (fun s' => Coords 8 s' 3 5 1 1 ∧ ReadyAt 8 s' 3) ∨
    PtEnds 14 (exEcp f) 3 (ecpCopy 3 0) (-1) (fun s' => Failed (exEcp f) s' ∧ ReadyAt 8 s' 3)) ∧
    ∃ s', ecpClear 3 (exEcp f) = .ok ((), s') ∧ (∀ v, v < 14 → (v < 3 ∨ 3 + 2 < v) → s'.obj v = (exEcp f).obj v) ∧ EmptyAt s' 3 ∧ s'.live = 11 :=
  ⟨mem_ecp_copy (by decide) (by decide) (Or.inr (by decide)) (exEcp_ready f) ⟨(exNum_is (n := 5) (by decide) (by decide)).shows,
    (exNum_is (n := 1) (by decide) (by decide)).shows, (exNum_is (n := 1) (by decide) (by decide)).shows⟩,
    mem_ecp_clear (by decide) (exEcp_ready f)⟩

/-- Three points are made although the tenth request fails: nothing is left behind. -/
example : ∃ s', ecpInitList 8 [14, 17, 20, 23] (exEcp fun k => k == 9) = .ok (-1, s') ∧ decide (s'.live = 14 ∧ s'.tick = 10) = true :=
  endsIn_ok (by decide +kernel)

end Verif.Mem
