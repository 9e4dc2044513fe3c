import Verif.Lemmas.Mem.Loops
/-! Functions of the memory model without local objects: outcome, result and effect on the allocator. -/
namespace Verif.Mem
open Verif.Mpi (Mpi Norm val)

/-- Only `r` (and what lies above `sp`) changes, and the number of blocks changes by what `r` owns. -/
structure Step (sp : Nat) (s s' : St) (r : Nat) : Prop where
  frame : ∀ v, v < sp → v ≠ r → s'.obj v = s.obj v
  live : s'.live + (s.obj r).owns = s.live + (s'.obj r).owns
  fails : s'.fails = s.fails
  tick : s.tick ≤ s'.tick

theorem Step.refl (sp : Nat) (s : St) (r : Nat) : Step sp s s r := ⟨fun _ _ _ => rfl, rfl, rfl, Nat.le_refl _⟩
theorem Step.trans {sp : Nat} {s s1 s2 : St} {r : Nat} (h1 : Step sp s s1 r) (h2 : Step sp s1 s2 r) : Step sp s s2 r :=
  ⟨fun v hv hr => (h2.frame v hv hr).trans (h1.frame v hv hr), by have := h1.live; have := h2.live; omega,
    h2.fails.trans h1.fails, h1.tick.trans h2.tick⟩
@[simp] theorem owns_put (o : Obj) (h : Hdr) (c) : (o.upd h c).owns = o.owns := by
  unfold Obj.upd Obj.owns
  cases o.data with
  | mem hp _ => cases hp <;> rfl
  | null => rfl
  | indet => rfl
theorem Step.upd (sp : Nat) (s : St) (r : Nat) (h : Hdr) (c) : Step sp s (s.upd r h c) r :=
  ⟨fun v _ hv => upd_obj_ne _ _ _ hv, by simp, rfl, Nat.le_refl _⟩
theorem Failed.mono {s s1 s2 : St} (h : Failed s s1) (h2 : s1.tick ≤ s2.tick) : Failed s s2 := by
  obtain ⟨k, a, b, c⟩ := h; exact ⟨k, a, by omega, c⟩
theorem Failed.pre {s s1 s2 : St} (h : Failed s1 s2) (ht : s.tick ≤ s1.tick) (hf : s1.fails = s.fails) : Failed s s2 := by
  obtain ⟨k, a, b, c⟩ := h; exact ⟨k, by omega, b, by rw [← hf]; exact c⟩

theorem Obj.Holds.reads {o : Obj} {m : Mpi} (h : o.Holds m) : o.Reads m := ⟨_, h.1, h.2.1⟩
theorem Obj.Reads.seg {s : St} {v : Nat} {m : Mpi} (h : (s.obj v).Reads m) : Seg s v 0 m.digs := by
  obtain ⟨a, -, h⟩ := h
  unfold Seg; rw [List.drop_zero]; exact h
theorem Obj.Holds.hdr {o : Obj} {m : Mpi} (h : o.Holds m) : o.hdr = some ⟨m.neg, m.digs.length, o.cells.length⟩ := h.1
theorem Obj.Holds.len {o : Obj} {m : Mpi} (h : o.Holds m) : m.digs.length ≤ o.cells.length := by
  have := h.2.1.length_le; simpa using this

theorem Reads.seg_keep {s s1 : St} {x : Nat} {xs : List Nat} (h : Seg s x 0 xs)
    (hk : (s.obj x).cells <+: (s1.obj x).cells) : Seg s1 x 0 xs := by
  unfold Seg at *
  rw [List.drop_zero] at *
  exact h.trans hk

/-- Room for `n` digits was made in `r`: its number is unchanged. -/
structure Grown (sp : Nat) (s s' : St) (r n : Nat) : Prop where
  step : Step sp s s' r
  hdr : ∀ h, (s.obj r).hdr = some h → (s'.obj r).hdr = some { h with alloc := (s'.obj r).cells.length }
  cells : ∃ k, (s'.obj r).cells = (s.obj r).cells ++ List.replicate k none
  room : n ≤ (s'.obj r).cells.length
  data : (s'.obj r).data = .null ∨ ∃ c, c ≠ [] ∧ (s'.obj r).data = .mem true c
  others : ∀ v, v ≠ r → s'.obj v = s.obj v

theorem Grown.pref {sp : Nat} {s s' : St} {r n : Nat} (h : Grown sp s s' r n) (x : Nat) :
    (s.obj x).cells <+: (s'.obj x).cells := by
  by_cases hx : x = r
  · subst hx
    obtain ⟨k, hk⟩ := h.cells
    rw [hk]; exact List.prefix_append _ _
  · rw [h.others x hx]

theorem Grown.holds {sp : Nat} {s s' : St} {r n : Nat} {m : Mpi} (h : Grown sp s s' r n) (hm : (s.obj r).Holds m) :
    (s'.obj r).Holds m :=
  ⟨h.hdr _ hm.1, hm.2.1.trans (h.pref r), h.data⟩

theorem Grown.reads {sp : Nat} {s s' : St} {r n : Nat} {x : Nat} {m : Mpi} (h : Grown sp s s' r n)
    (hm : (s.obj x).Reads m) : (s'.obj x).Reads m := by
  by_cases hx : x = r
  · subst hx
    obtain ⟨a, h1, h2⟩ := hm
    exact ⟨_, h.hdr _ h1, h2.trans (h.pref x)⟩
  · rw [h.others x hx]; exact hm

theorem Grown.refl {sp : Nat} {s : St} {r n : Nat} {m : Mpi} (hm : (s.obj r).Holds m) (hn : n ≤ (s.obj r).cells.length) :
    Grown sp s s r n :=
  ⟨Step.refl _ _ _, fun h hh => by rw [hm.1] at hh; cases hh; exact hm.1, ⟨0, by simp⟩, hn, hm.2.2, fun _ _ => rfl⟩

/-- `cry_mpi_grow`: room is made, or an allocation failed and nothing changed. -/
theorem grow_run (sp : Nat) {s : St} {r : Nat} {m : Mpi} (hm : (s.obj r).Holds m) (n : Nat) :
    ∃ st s', grow r n s = .ok (st, s') ∧
      ((st = 0 ∧ Grown sp s s' r n) ∨ (st = -1 ∧ Failed s s' ∧ s'.obj = s.obj ∧ s'.live = s.live ∧ s'.fails = s.fails ∧
        s.tick ≤ s'.tick)) := by
  unfold grow
  rw [bind_ok (hdr_ok hm.1)]
  dsimp only
  by_cases hn : n ≤ (s.obj r).cells.length
  · rw [if_pos hn]
    exact ⟨0, s, rfl, Or.inl ⟨rfl, Grown.refl hm hn⟩⟩
  · rw [if_neg hn, bind_ok (show getObj r s = .ok (s.obj r, s) from rfl)]
    generalize hd : n + (quantum * 2 - n % quantum) = d
    have hd' : n < d := by unfold quantum at hd; omega
    by_cases hf : s.fails s.tick = true
    · have hbad : Failed s { s with tick := s.tick + 1 } := ⟨s.tick, Nat.le_refl _, Nat.lt_succ_self _, hf⟩
      have hr : ∀ z : Int, request z s = .ok (false, { s with tick := s.tick + 1 }) := fun z => if_pos hf
      rcases hm.2.2 with h0 | ⟨c, hc, h0⟩
      · rw [h0]; dsimp only
        rw [bind_ok (hr 1)]
        exact ⟨-1, _, rfl, Or.inr ⟨rfl, hbad, rfl, rfl, rfl, Nat.le_succ _⟩⟩
      · rw [h0]; dsimp only
        rw [bind_ok (hr 0)]
        exact ⟨-1, _, rfl, Or.inr ⟨rfl, hbad, rfl, rfl, rfl, Nat.le_succ _⟩⟩
    · have hr : ∀ z : Int, request z s = .ok (true, { s with tick := s.tick + 1, live := s.live + z }) := fun z => if_neg hf
      rcases hm.2.2 with h0 | ⟨c, hc, h0⟩
      · have hcells : (s.obj r).cells = [] := by unfold Obj.cells; rw [h0]; rfl
        rw [h0]; dsimp only
        rw [bind_ok (hr 1)]
        refine ⟨0, _, rfl, Or.inl ⟨rfl, ⟨⟨?_, ?_, rfl, Nat.le_succ _⟩, ?_, ⟨d, ?_⟩, ?_, ?_, ?_⟩⟩⟩
        · intro v _ hv; exact set_obj_ne _ _ hv
        · have : (s.obj r).owns = 0 := by unfold Obj.owns; rw [h0]
          rw [set_obj_same, set_live, this]
          show s.live + 1 + 0 = s.live + 1
          omega
        · intro h hh
          rw [hm.1] at hh; cases hh
          rw [set_obj_same]
          simp [Obj.cells, Data.cells]
        · rw [set_obj_same, hcells]; rfl
        · rw [set_obj_same]; simp [Obj.cells, Data.cells]; omega
        · rw [set_obj_same]
          exact Or.inr ⟨List.replicate d none, by simp; omega, rfl⟩
        · intro v hv; exact set_obj_ne _ _ hv
      · have hcells : (s.obj r).cells = c := by unfold Obj.cells; rw [h0]; rfl
        rw [hcells] at hn
        have ht : c.take d = c := List.take_of_length_le (by omega)
        rw [h0]; dsimp only
        rw [bind_ok (hr 0), ht]
        refine ⟨0, _, rfl, Or.inl ⟨rfl, ⟨⟨?_, ?_, rfl, Nat.le_succ _⟩, ?_, ⟨d - c.length, ?_⟩, ?_, ?_, ?_⟩⟩⟩
        · intro v _ hv; exact set_obj_ne _ _ hv
        · have : (s.obj r).owns = 1 := by unfold Obj.owns; rw [h0]
          rw [set_obj_same, set_live, this]
          show s.live + 0 + 1 = s.live + 1
          omega
        · intro h hh
          rw [hm.1] at hh; cases hh
          rw [set_obj_same]
          simp [Obj.cells, Data.cells]; omega
        · rw [set_obj_same, hcells]; rfl
        · rw [set_obj_same]; simp [Obj.cells, Data.cells]; omega
        · rw [set_obj_same]
          exact Or.inr ⟨_, by simp [hc], rfl⟩
        · intro v hv; exact set_obj_ne _ _ hv

/-- A function with destination `r`: it returns 0 and `r` satisfies `good`, or it returns −1 because an
allocation failed, and `r` satisfies `bad`. -/
def Leaf (sp : Nat) (s : St) (r : Nat) (c : M Int) (good bad : Obj → Prop) : Prop :=
  ∃ st s', c s = .ok (st, s') ∧ Step sp s s' r ∧
    ((st = 0 ∧ good (s'.obj r)) ∨ (st = -1 ∧ Failed s s' ∧ bad (s'.obj r)))

theorem Leaf.mono {sp : Nat} {s : St} {r : Nat} {c : M Int} {g g' b b' : Obj → Prop} (h : Leaf sp s r c g b)
    (hg : ∀ o, g o → g' o) (hb : ∀ o, b o → b' o) : Leaf sp s r c g' b' := by
  obtain ⟨st, s', h1, h2, h3⟩ := h
  refine ⟨st, s', h1, h2, ?_⟩
  rcases h3 with ⟨a, h⟩ | ⟨a, f, h⟩
  · exact Or.inl ⟨a, hg _ h⟩
  · exact Or.inr ⟨a, f, hb _ h⟩

/-- `chk (if alloc < n then grow r n else 0) k` -/
theorem ensure_run {sp : Nat} {s : St} {r : Nat} {m : Mpi} (hm : (s.obj r).Holds m) (n : Nat) {c k : M Int}
    {good bad : Obj → Prop}
    (hc : c s = (if (s.obj r).cells.length < n then grow r n else pure 0 : M Int) s)
    (hbad : (s.obj r).cells.length < n → bad (s.obj r))
    (hk : ∀ s1, Grown sp s s1 r n → ∃ s', k s1 = .ok (0, s') ∧ Step sp s1 s' r ∧ good (s'.obj r)) :
    Leaf sp s r (chk c k) good bad := by
  have key : ∃ st s', c s = .ok (st, s') ∧
      ((st = 0 ∧ Grown sp s s' r n) ∨ (st = -1 ∧ (s.obj r).cells.length < n ∧ Failed s s' ∧ s'.obj = s.obj ∧ s'.live = s.live ∧ s'.fails = s.fails ∧
        s.tick ≤ s'.tick)) := by
    rw [hc]
    by_cases h : (s.obj r).cells.length < n
    · rw [if_pos h]
      obtain ⟨st, s', h1, h2⟩ := grow_run sp hm n
      exact ⟨st, s', h1, h2.imp id fun ⟨a, b⟩ => ⟨a, h, b⟩⟩
    · rw [if_neg h]
      exact ⟨0, s, rfl, Or.inl ⟨rfl, Grown.refl hm (by omega)⟩⟩
  obtain ⟨st, s1, h1, h2⟩ := key
  rcases h2 with ⟨rfl, hg⟩ | ⟨rfl, hlt, hf, ho, hl, hfl, ht⟩
  · obtain ⟨s', e1, e2, e3⟩ := hk s1 hg
    rw [Leaf]
    exact ⟨0, s', by rw [chk_ok h1, e1], hg.step.trans e2, Or.inl ⟨rfl, e3⟩⟩
  · exact ⟨-1, s1, chk_fail h1 (by decide), ⟨fun v _ _ => by rw [ho], by rw [ho, hl], hfl, ht⟩,
      Or.inr ⟨rfl, hf, by rw [ho]; exact hbad hlt⟩⟩

/-- The object after digits `L` and new members were written. -/
theorem holds_upd {o : Obj} {m m' : Mpi} (hm : o.Holds m) {c : List (Option Nat)} (hc : c.length = o.cells.length)
    (hp : m'.digs.map some <+: c) : (o.upd ⟨m'.neg, m'.digs.length, o.cells.length⟩ c).Holds m' := by
  refine ⟨by rw [cells_upd hc, hc]; rfl, by rw [cells_upd hc]; exact hp, ?_⟩
  rcases hm.2.2 with h | ⟨c0, h0, h⟩
  · left; unfold Obj.upd; rw [h]; rfl
  · right
    refine ⟨c, ?_, by unfold Obj.upd; rw [h]; rfl⟩
    rintro rfl
    have : o.cells = c0 := by unfold Obj.cells; rw [h]; rfl
    rw [this] at hc
    exact h0 (List.eq_nil_of_length_eq_zero hc.symm)

/-- The object holds `m` and has room for at least `n` digits. -/
def HoldsC (m : Mpi) (n : Nat) (o : Obj) : Prop := o.Holds m ∧ n ≤ o.cells.length

/-! ### `cry_mpi_copy`, `cry_mpi_abs` -/

theorem copy_run {sp : Nat} {s : St} {d x : Nat} {md mx : Mpi} {n : Nat} (hd : HoldsC md n (s.obj d))
    (hx : (s.obj x).Reads mx) (hdx : d ≠ x) : Leaf sp s d (copy d x) (HoldsC mx n) (HoldsC md n) := by
  obtain ⟨a, hx1, hx2⟩ := hx
  have e : copy d x s = chk (if (s.obj d).cells.length < mx.digs.length then grow d mx.digs.length else pure 0) (do
      copyLoop d x mx.digs.length 0
      setUsed d mx.digs.length
      setSign d mx.neg
      pure 0) s := by
    unfold copy
    rw [if_neg hdx, bind_ok (hdr_ok hd.1.1), bind_ok (hdr_ok hx1)]
  have := ensure_run (sp := sp) (s := s) (r := d) hd.1 mx.digs.length (c := if (s.obj d).cells.length < mx.digs.length then grow d mx.digs.length else pure 0)
    (k := do
      copyLoop d x mx.digs.length 0
      setUsed d mx.digs.length
      setSign d mx.neg
      pure 0) (good := HoldsC mx n) (bad := HoldsC md n) rfl (fun _ => hd) ?_
  · obtain ⟨st, s', h1, h2⟩ := this
    exact ⟨st, s', by rw [e, h1], h2⟩
  · intro s1 hg
    have hseg : Seg s1 x 0 mx.digs := Reads.seg_keep (Obj.Reads.seg ⟨a, hx1, hx2⟩) (hg.pref x)
    have hh := (hg.holds hd.1)
    have hroom := hg.room
    have hlen : (over (s1.obj d).cells 0 mx.digs).length = (s1.obj d).cells.length := over_length (by omega)
    rw [bind_ok (copyLoop_ok d x _ mx.digs 0 s1 hh.1 hseg (by omega)), bind_ok (setUsed_ok (by rw [upd_obj_same]; rfl) _),
      bind_ok (setSign_ok (by rw [upd_obj_same]; rfl) _)]
    simp only [upd_upd, upd_obj_same, cells_upd hlen, cells_upd rfl]
    refine ⟨_, rfl, Step.upd _ _ _ _ _, ?_⟩
    rw [upd_obj_same]
    refine ⟨holds_upd hh hlen over_seg0, ?_⟩
    rw [cells_upd hlen, hlen]
    obtain ⟨k, hk⟩ := hg.cells
    rw [hk]; simp; have := hd.2; omega

theorem copy_self (s : St) (d : Nat) : copy d d s = .ok (0, s) := by
  unfold copy; rw [if_pos rfl]; rfl

theorem copy_any {sp : Nat} {s : St} {d x : Nat} {md mx : Mpi} {n : Nat} (hd : HoldsC md n (s.obj d))
    (hx : (s.obj x).Reads mx) (hdx : d = x → md = mx) : Leaf sp s d (copy d x) (HoldsC mx n) (HoldsC md n) := by
  by_cases h : d = x
  · have := hdx h; subst this; subst h
    exact ⟨0, s, copy_self s d, Step.refl _ _ _, Or.inl ⟨rfl, hd⟩⟩
  · exact copy_run hd hx h

/-- What a destination and an operand hold when they are the same object. -/
theorem same_num {o : Obj} {m m' : Mpi} (h : o.Reads m) (h' : o.Reads m') : m = m' := by
  obtain ⟨a, h1, h2⟩ := h
  obtain ⟨a', h1', h2'⟩ := h'
  rw [h1] at h1'
  simp only [Option.some.injEq, Hdr.mk.injEq] at h1'
  obtain ⟨e1, e2, -⟩ := h1'
  have : m.digs.map some = m'.digs.map some := by
    rw [List.prefix_iff_eq_take] at h2 h2'
    rw [h2, h2', List.length_map, List.length_map, e2]
  have : m.digs = m'.digs := List.map_injective_iff.2 (Option.some_injective _) this
  cases m; cases m'; simp_all

theorem abs_run {sp : Nat} {s : St} {d x : Nat} {md mx : Mpi} {n : Nat} (hd : HoldsC md n (s.obj d))
    (hx : (s.obj x).Reads mx) : Leaf sp s d (abs d x) (HoldsC ⟨false, mx.digs⟩ n) (HoldsC md n) := by
  have key : Leaf sp s d (if d ≠ x then copy d x else pure 0) (HoldsC mx n) (HoldsC md n) := by
    by_cases h : d ≠ x
    · rw [if_pos h]; exact copy_run hd hx h
    · rw [if_neg h]
      rw [not_not] at h; subst h
      have := same_num hd.1.reads hx; subst this
      exact ⟨0, s, rfl, Step.refl _ _ _, Or.inl ⟨rfl, hd⟩⟩
  obtain ⟨st, s1, h1, h2, h3⟩ := key
  unfold abs
  rcases h3 with ⟨rfl, h⟩ | ⟨rfl, hf, h⟩
  · refine ⟨0, _, ?_, h2.trans (Step.upd sp s1 d ⟨false, mx.digs.length, (s1.obj d).cells.length⟩ (s1.obj d).cells), Or.inl ⟨rfl, ?_⟩⟩
    · rw [chk_ok h1, bind_ok (setSign_ok h.1.1 _)]; rfl
    · rw [upd_obj_same]
      exact ⟨holds_upd (m' := ⟨false, mx.digs⟩) h.1 rfl h.1.2.1, by rw [cells_upd rfl]; exact h.2⟩
  · exact ⟨-1, s1, chk_fail h1 (by decide), h2, Or.inr ⟨rfl, hf, h⟩⟩

/-! ### Addition and subtraction -/

/-- `cry_mpi_add_abs` and `cry_mpi_sub_abs` return −1 when `cry_mpi_grow` fails. -/
theorem grow_status {sp : Nat} {s : St} {r n : Nat} {m : Mpi} (hm : (s.obj r).Holds m) :
    (do let st ← grow r n; pure (if st ≠ 0 then -1 else 0) : M Int) s = grow r n s := by
  obtain ⟨st, s', h, h2⟩ := grow_run sp hm n
  rw [bind_ok h, h]
  rcases h2 with ⟨rfl, -⟩ | ⟨rfl, -⟩ <;> rfl

theorem addAbsOrd_run {sp b : Nat} {s : St} {r x y : Nat} {mr mx my : Mpi} {n : Nat} (hr : HoldsC mr n (s.obj r))
    (hx : (s.obj x).Reads mx) (hy : (s.obj y).Reads my) (hl : my.digs.length ≤ mx.digs.length) :
    Leaf sp s r (addAbsOrd b r x y) (HoldsC ⟨false, Mpi.addLoop b mx.digs my.digs 0⟩ n) (HoldsC mr n) := by
  obtain ⟨ax, hx1, hx2⟩ := hx
  obtain ⟨ay, hy1, hy2⟩ := hy
  have e : addAbsOrd b r x y s = chk (if (s.obj r).cells.length < mx.digs.length + 1 then (do
        let st ← grow r (mx.digs.length + 1)
        pure (if st ≠ 0 then -1 else 0)) else pure 0) (do
      setUsed r mx.digs.length
      setSign r false
      addLoop b r x y (mx.digs.length - my.digs.length) my.digs.length 0 0
      pure 0) s := by
    unfold addAbsOrd
    rw [bind_ok (hdr_ok hx1), bind_ok (hdr_ok hy1), bind_ok (hdr_ok hr.1.1)]
  have := ensure_run (sp := sp) (s := s) (r := r) hr.1 (mx.digs.length + 1) (c := if (s.obj r).cells.length < mx.digs.length + 1 then (do
        let st ← grow r (mx.digs.length + 1)
        pure (if st ≠ 0 then -1 else 0)) else pure 0)
    (k := do
      setUsed r mx.digs.length
      setSign r false
      addLoop b r x y (mx.digs.length - my.digs.length) my.digs.length 0 0
      pure 0) (good := HoldsC ⟨false, Mpi.addLoop b mx.digs my.digs 0⟩ n) (bad := HoldsC mr n) ?_ (fun _ => hr) ?_
  · obtain ⟨st, s', h1, h2⟩ := this
    exact ⟨st, s', by rw [e, h1], h2⟩
  · split
    · exact grow_status (sp := sp) hr.1
    · rfl
  · intro s1 hg
    have sx : Seg s1 x 0 mx.digs := Reads.seg_keep (Obj.Reads.seg ⟨ax, hx1, hx2⟩) (hg.pref x)
    have sy : Seg s1 y 0 my.digs := Reads.seg_keep (Obj.Reads.seg ⟨ay, hy1, hy2⟩) (hg.pref y)
    have hh := hg.holds hr.1
    have hroom := hg.room
    have hll := (@Mpi.addLoop_length b mx.digs my.digs 0)
    have hlen : (over (s1.obj r).cells 0 (Mpi.addLoop b mx.digs my.digs 0)).length = (s1.obj r).cells.length :=
      over_length (by omega)
    rw [bind_ok (setUsed_ok hh.1 _), bind_ok (setSign_ok (by rw [upd_obj_same]; rfl) _)]
    simp only [upd_upd, upd_obj_same, cells_upd rfl]
    rw [bind_ok (addLoop_ok b r x y my.digs mx.digs 0 0 _ _ (by rw [upd_obj_same]; rfl) (sx.hset r _) (sy.hset r _) hl
      (by rw [upd_obj_same, cells_upd rfl]; omega))]
    simp only [upd_upd, upd_obj_same, cells_upd rfl]
    refine ⟨_, rfl, Step.upd _ _ _ _ _, ?_⟩
    rw [upd_obj_same]
    refine ⟨?_, ?_⟩
    · rw [Nat.add_sub_cancel' hll.1]
      exact holds_upd (m' := ⟨false, Mpi.addLoop b mx.digs my.digs 0⟩) hh hlen over_seg0
    · rw [cells_upd hlen, hlen]
      obtain ⟨k, hk⟩ := hg.cells
      rw [hk]; simp; have := hr.2; omega

theorem addAbs_run {sp b : Nat} {s : St} {r x y : Nat} {mr mx my : Mpi} {n : Nat} (hr : HoldsC mr n (s.obj r))
    (hx : (s.obj x).Reads mx) (hy : (s.obj y).Reads my) :
    Leaf sp s r (addAbs b r x y) (HoldsC (Mpi.addAbs b mx my) n) (HoldsC mr n) := by
  have e : addAbs b r x y s = (if mx.digs.length < my.digs.length then addAbsOrd b r y x else addAbsOrd b r x y) s := by
    obtain ⟨ax, hx1, hx2⟩ := hx
    obtain ⟨ay, hy1, hy2⟩ := hy
    unfold addAbs
    rw [bind_ok (hdr_ok hx1), bind_ok (hdr_ok hy1)]
  unfold Mpi.addAbs Leaf
  rw [e]
  by_cases h : mx.digs.length < my.digs.length
  · rw [if_pos h, if_pos h]; exact addAbsOrd_run hr hy hx (by omega)
  · rw [if_neg h, if_neg h]; exact addAbsOrd_run hr hx hy (by omega)

theorem cmpAbs_run {s : St} {x y : Nat} {mx my : Mpi} (hx : (s.obj x).Reads mx) (hy : (s.obj y).Reads my) :
    cmpAbs x y s = .ok (Mpi.cmpAbs mx my, s) := by
  have sx := Obj.Reads.seg hx
  have sy := Obj.Reads.seg hy
  obtain ⟨ax, hx1, hx2⟩ := hx
  obtain ⟨ay, hy1, hy2⟩ := hy
  unfold cmpAbs Mpi.cmpAbs
  rw [bind_ok (hdr_ok hx1), bind_ok (hdr_ok hy1)]
  dsimp only
  split_ifs
  · rfl
  · rfl
  · exact cmpLoop_ok x y s _ _ sx sy (by omega)

theorem cmp_run {s : St} {x y : Nat} {mx my : Mpi} (hx : (s.obj x).Reads mx) (hy : (s.obj y).Reads my) :
    cmp x y s = .ok (Mpi.cmp mx my, s) := by
  have h := cmpAbs_run hx hy
  obtain ⟨ax, hx1, hx2⟩ := hx
  obtain ⟨ay, hy1, hy2⟩ := hy
  unfold cmp Mpi.cmp
  rw [bind_ok (hdr_ok hx1), bind_ok (hdr_ok hy1)]
  dsimp only
  split_ifs
  · rfl
  · rfl
  · rw [bind_ok h]; rfl
  · rw [bind_ok h]; rfl

/-- What `cry_mpi_sub_abs` leaves in the digit array: the new digits before leading zeros are dropped. -/
def SubCells (c : List (Option Nat)) (L : List Nat) (o : Obj) : Prop :=
  ∃ k, o.cells = over (c ++ List.replicate k none) 0 L

theorem subAbs_room {sp b : Nat} {s : St} {r x y : Nat} {mr mx my : Mpi} {n : Nat} (hr : HoldsC mr n (s.obj r))
    (hx : (s.obj x).Reads mx) (hy : (s.obj y).Reads my) {L : List Nat} (hc : ¬ Mpi.cmpAbs mx my < 0)
    (hL : Mpi.subLoop b mx.digs my.digs 0 = some L) :
    Leaf sp s r (subAbs b r x y) (fun o => HoldsC ⟨false, Mpi.adjust L⟩ n o ∧ SubCells (s.obj r).cells L o)
      (fun o => HoldsC mr n o ∧ (s.obj r).cells.length < mx.digs.length) := by
  have hcmp := cmpAbs_run hx hy
  obtain ⟨ax, hx1, hx2⟩ := hx
  obtain ⟨ay, hy1, hy2⟩ := hy
  have hl : my.digs.length ≤ mx.digs.length := by
    unfold Mpi.cmpAbs at hc
    by_contra h
    rw [if_pos (by omega)] at hc
    exact hc (by decide)
  have e : subAbs b r x y s = chk (if (s.obj r).cells.length < mx.digs.length then (do
        let st ← grow r mx.digs.length
        pure (if st ≠ 0 then -1 else 0)) else pure 0) (do
      setUsed r mx.digs.length
      setSign r false
      let c ← subLoop b r x y (mx.digs.length - my.digs.length) my.digs.length 0 0
      if c ≠ 0 then pure (-1)
      else
        adjust r
        pure 0) s := by
    unfold subAbs
    rw [bind_ok hcmp, if_neg hc, bind_ok (hdr_ok hx1), bind_ok (hdr_ok hy1), bind_ok (hdr_ok hr.1.1)]
  have := ensure_run (sp := sp) (s := s) (r := r) hr.1 mx.digs.length (c := if (s.obj r).cells.length < mx.digs.length then (do
        let st ← grow r mx.digs.length
        pure (if st ≠ 0 then -1 else 0)) else pure 0)
    (k := do
      setUsed r mx.digs.length
      setSign r false
      let c ← subLoop b r x y (mx.digs.length - my.digs.length) my.digs.length 0 0
      if c ≠ 0 then pure (-1)
      else
        adjust r
        pure 0) (good := fun o => HoldsC ⟨false, Mpi.adjust L⟩ n o ∧ SubCells (s.obj r).cells L o) 
    (bad := fun o => HoldsC mr n o ∧ (s.obj r).cells.length < mx.digs.length) ?_ (fun h => ⟨hr, h⟩) ?_
  · obtain ⟨st, s', h1, h2⟩ := this
    exact ⟨st, s', by rw [e, h1], h2⟩
  · split
    · exact grow_status (sp := sp) hr.1
    · rfl
  · intro s1 hg
    have sx : Seg s1 x 0 mx.digs := Reads.seg_keep (Obj.Reads.seg ⟨ax, hx1, hx2⟩) (hg.pref x)
    have sy : Seg s1 y 0 my.digs := Reads.seg_keep (Obj.Reads.seg ⟨ay, hy1, hy2⟩) (hg.pref y)
    have hh := hg.holds hr.1
    have hroom := hg.room
    rw [bind_ok (setUsed_ok hh.1 _), bind_ok (setSign_ok (by rw [upd_obj_same]; rfl) _)]
    simp only [upd_upd, upd_obj_same, cells_upd rfl]
    obtain ⟨e1, e2⟩ := subLoop_ok b r x y my.digs mx.digs 0 0
      (s1.upd r ⟨false, mx.digs.length, (s1.obj r).cells.length⟩ (s1.obj r).cells) _ L
      (by rw [upd_obj_same]; rfl) (sx.hset r _) (sy.hset r _) hl (by rw [upd_obj_same, cells_upd rfl]; omega) hL
    have hlen : (over (s1.obj r).cells 0 L).length = (s1.obj r).cells.length := over_length (by omega)
    rw [bind_ok e1, if_neg (by decide)]
    simp only [upd_upd, upd_obj_same, cells_upd rfl]
    have sL : Seg (s1.upd r ⟨false, mx.digs.length, (s1.obj r).cells.length⟩ (over (s1.obj r).cells 0 L)) r 0 L := by
      unfold Seg
      rw [List.drop_zero, upd_obj_same, cells_upd hlen]
      exact over_seg0
    rw [bind_ok (adjust_ok (h := ⟨false, mx.digs.length, (s1.obj r).cells.length⟩) (by rw [upd_obj_same]; rfl) e2.symm sL)]
    simp only [upd_upd, upd_obj_same, cells_upd hlen]
    refine ⟨_, rfl, Step.upd _ _ _ _ _, ?_⟩
    rw [upd_obj_same]
    refine ⟨⟨?_, ?_⟩, ?_⟩
    · refine holds_upd (m' := ⟨false, Mpi.adjust L⟩) hh hlen (List.IsPrefix.trans ?_ over_seg0)
      exact (adjust_prefix L).map some
    · rw [cells_upd hlen, hlen]
      obtain ⟨k, hk⟩ := hg.cells
      rw [hk]; simp; have := hr.2; omega
    · obtain ⟨k, hk⟩ := hg.cells
      exact ⟨k, by rw [cells_upd hlen, hk]⟩

theorem subAbs_run {sp b : Nat} {s : St} {r x y : Nat} {mr mx my : Mpi} {n : Nat} (hr : HoldsC mr n (s.obj r))
    (hx : (s.obj x).Reads mx) (hy : (s.obj y).Reads my) {L : List Nat} (hc : ¬ Mpi.cmpAbs mx my < 0)
    (hL : Mpi.subLoop b mx.digs my.digs 0 = some L) :
    Leaf sp s r (subAbs b r x y) (fun o => HoldsC ⟨false, Mpi.adjust L⟩ n o ∧ SubCells (s.obj r).cells L o) (HoldsC mr n) :=
  (subAbs_room hr hx hy hc hL).mono (fun _ h => h) (fun _ h => h.1)

end Verif.Mem
