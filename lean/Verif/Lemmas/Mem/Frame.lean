import Verif.Lemmas.Mem.Mul
/-! Functions with local objects, seen from their callers. -/
namespace Verif.Mem
open Verif.Mpi (Mpi Norm WF val Rep)

variable {w : Nat}

/-- The allocator at the entry of a function. -/
def ctxOf (sp : Nat) (s : St) : Ctx := ⟨s.fails, s.tick, s.live - ∑ v ∈ Finset.range sp, (s.obj v).owns⟩
/-- Every object as it is now. -/
def Now (s : St) : Env := fun v o => o = s.obj v
/-- Every object as it is now, but `r` as in `P`. -/
def But (s : St) (r : Nat) (P : Obj → Prop) : Env := Function.update (Now s) r P

theorem at_now (sp : Nat) (s : St) : At (ctxOf sp s) (Now s) sp s :=
  ⟨fun _ _ => rfl, by show s.live = s.live - _ + _; omega, rfl, Nat.le_refl _⟩

theorem leaf_of_res {sp r : Nat} {s : St} {c : M Int} {good bad : Obj → Prop} (hr : r < sp)
    (h : WP c (Res (ctxOf sp s) sp (But s r good) (But s r bad)) s) : Leaf sp s r c good bad := by
  have key : ∀ (P : Obj → Prop) (s' : St), At (ctxOf sp s) (But s r P) sp s' → Step sp s s' r ∧ P (s'.obj r) := by
    intro P s' h
    have hf : ∀ v, v < sp → v ≠ r → s'.obj v = s.obj v := fun v hv hv' => by
      have := h.objs v hv
      unfold But at this
      rwa [Function.update_of_ne hv'] at this
    refine ⟨⟨hf, ?_, h.orc, h.tick⟩, by have := h.objs r hr; unfold But at this; rwa [Function.update_self] at this⟩
    have h1 := h.bal
    have h2 := sum_change (f := fun v => (s.obj v).owns) (g := fun v => (s'.obj v).owns) hr (fun v hv hv' => by rw [hf v hv hv'])
    rw [h2] at h1
    have : (ctxOf sp s).B = s.live - ∑ v ∈ Finset.range sp, (s.obj v).owns := rfl
    omega
  obtain ⟨st, s', e, h⟩ := h
  rcases h with ⟨a, h⟩ | ⟨a, f, h⟩
  · obtain ⟨h1, h2⟩ := key _ _ h
    exact ⟨st, s', e, h1, Or.inl ⟨a, h2⟩⟩
  · obtain ⟨h1, h2⟩ := key _ _ h
    exact ⟨st, s', e, h1, Or.inr ⟨a, f, h2⟩⟩

/-- Arguments as in `A`, `i` initialised locals, nothing to free in the others. -/
def Lv (w sp : Nat) (A : Env) (i : Nat) : Env := fun v => if v < sp then A v else if v < sp + i then AnyR w else (fun o => o.owns = 0)

theorem Lv.lo {sp i v : Nat} {A : Env} (h : v < sp) : Lv w sp A i v = A v := if_pos h
theorem Lv.mid {sp i v : Nat} {A : Env} (h : sp ≤ v) (h' : v < sp + i) : Lv w sp A i v = AnyR w := by
  unfold Lv; rw [if_neg (by omega), if_pos h']
theorem Lv.hi {sp i v : Nat} {A : Env} (h : sp + i ≤ v) : Lv w sp A i v = fun o => o.owns = 0 := by
  unfold Lv; rw [if_neg (by omega), if_neg (by omega)]

theorem Lv.start {sp k : Nat} {s : St} {r : Nat} {P : Obj → Prop} (hr : P (s.obj r)) :
    Le (sp + k) (Locals sp (Now s) (· = Obj.fresh)) (Lv w sp (But s r P) 0) := by
  intro v _ o ho
  by_cases h : v < sp
  · rw [Locals.lo h] at ho
    rw [Lv.lo h]
    unfold But
    by_cases h' : v = r
    · subst h'; rw [Function.update_self, ho]; exact hr
    · rw [Function.update_of_ne h']; exact ho
  · rw [Locals.hi (by omega)] at ho
    rw [Lv.hi (by omega), ho]; rfl

/-- A function with `k` locals. -/
theorem leaf_locals {sp k r : Nat} {s : St} {c : M Int} {good bad : Obj → Prop} (hr : r < sp)
    (h : ∀ s', At (ctxOf sp s) (Locals sp (Now s) (· = Obj.fresh)) (sp + k) s' →
      WP c (Res (ctxOf sp s) (sp + k) (Lv w sp (But s r good) 0) (Lv w sp (But s r bad) 0)) s') :
    Leaf sp s r (do decl sp k; c) good bad := by
  refine leaf_of_res hr (WP.bind ((decl_at (at_now sp s) k).mono fun _ s' h' => (h s' h').mono fun st s'' h'' => ?_))
  refine exit_res h'' (fun v hv o ho => by rwa [Lv.lo hv] at ho) (fun v hv o ho => by rwa [Lv.lo hv] at ho)
    (fun v hv hv' o ho => by rwa [Lv.hi (by omega)] at ho) (fun v hv hv' o ho => by rwa [Lv.hi (by omega)] at ho)

theorem Lv.le_succ {sp i S : Nat} {A E : Env} {P : Obj → Prop} (h : Le S E (Lv w sp A i)) (hP : ∀ o, P o → AnyR w o) :
    Le S (Function.update E (sp + i) P) (Lv w sp A (i + 1)) := by
  intro v hv o ho
  by_cases h' : v = sp + i
  · subst h'; rw [Function.update_self] at ho; rw [Lv.mid (by omega) (by omega)]; exact hP _ ho
  · rw [Function.update_of_ne h'] at ho
    have := h v hv o ho
    unfold Lv at *
    split_ifs at * <;> first | exact this | omega

theorem Lv.le_clear {sp i S : Nat} {A : Env} :
    Le S (Function.update (Lv w sp A (i + 1)) (sp + i) (· = Obj.cleared)) (Lv w sp A i) := by
  intro v hv o ho
  by_cases h' : v = sp + i
  · subst h'; rw [Function.update_self] at ho; rw [Lv.hi (by omega), ho]; rfl
  · rw [Function.update_of_ne h'] at ho
    unfold Lv at *
    split_ifs at * <;> first | exact ho | omega

/-- `cry_mpi_init_size`, a block, `cry_mpi_clear`. -/
theorem within_res {K : Ctx} {E G B : Env} {sp i S size : Nat} {s : St} {body : M Int} (hw : 0 < w) (h : At K E S s) (hi : sp + i < S)
    (hE : Le S E (Lv w sp B i))
    (hb : ∀ s', At K (Function.update E (sp + i) (V w 0 size)) S s' → Le S (Function.update E (sp + i) (V w 0 size)) (Lv w sp B (i + 1)) →
      WP body (Res K S (Lv w sp G (i + 1)) (Lv w sp B (i + 1))) s') :
    WP (within (sp + i) size body) (Res K S (Lv w sp G i) (Lv w sp B i)) s := by
  have ho : (s.obj (sp + i)).owns = 0 := by
    have := hE _ hi _ (h.objs _ hi)
    rwa [Lv.hi (by omega)] at this
  refine chk_res (leaf_at h hi (initSize_run (w := w) hw ho)) ?_ fun s' h' => ?_
  · exact Le.update hE fun o ho => by rw [Lv.hi (by omega)]; exact ho.owns
  · have hc : ∀ (A : Env) (o : Obj), Lv w sp A (i + 1) (sp + i) o → Null o ∨ ∃ m, o.Holds m := fun A o ho => by
      rw [Lv.mid (by omega) (by omega)] at ho; exact ho.clr
    exact (fin_clear (hb s' h' (Lv.le_succ hE fun o ho => ho.r.any)) hi (hc G) (hc B)).mono fun st s'' h'' =>
      h''.le Lv.le_clear Lv.le_clear

/-! ### Copying parts of operands -/

/-- An array of `k` digits not yet written. -/
def Raw (k : Nat) (o : Obj) : Prop := o.hdr = some ⟨false, k, o.cells.length⟩ ∧ k ≤ o.cells.length ∧ (o.data = .null ∨ ∃ c, c ≠ [] ∧ o.data = .mem true c)

theorem setUsed_at {K : Ctx} {E : Env} {S v k : Nat} {s : St} {c : M Int} {P : Int → St → Prop} (h : At K E S s) (hv : v < S)
    (hE : ∀ o, E v o → V w 0 k o) (hk : ∀ s', At K (Function.update E v (Raw k)) S s' → WP c P s') : WP (do setUsed v k; c) P s := by
  have hh := holds_zero_of_v (hE _ (h.objs v hv))
  refine WP.bind_run (setUsed_ok hh.1.1 k) (hk _ (step_at h hv (Step.upd _ _ _ _ _) ?_))
  rw [upd_obj_same]
  have hl : ((s.obj v).upd ⟨false, k, (s.obj v).cells.length⟩ (s.obj v).cells).cells = (s.obj v).cells := cells_upd rfl
  refine ⟨?_, ?_, ?_⟩
  · show some _ = _; rw [hl]
  · rw [hl]; exact hh.2
  · exact (holds_upd (m := ⟨false, []⟩) (m' := ⟨false, []⟩) hh.1 rfl hh.1.2.1).2.2

theorem memcpyLoop_ok {d x j : Nat} {h : Hdr} {xs : List Nat} (hdx : x ≠ d) :
    ∀ (n i : Nat) (s : St), Seg s x 0 xs → (s.obj d).hdr = some h → i + n ≤ (s.obj d).cells.length → j + i + n ≤ xs.length →
      memcpyLoop d x j n i s = .ok ((), s.upd d h (over (s.obj d).cells i ((xs.drop (j + i)).take n)))
  | 0, i, s, _, hh, _, _ => by
    rw [List.take_zero, over_nil, upd_self hh]; rfl
  | n + 1, i, s, hs, hh, hl, hj => by
    have hrd : (s.obj x).cells[j + i]? = some (some xs[j + i]) := by
      have := hs.get (k := j + i) (d := xs[j + i]) (List.getElem?_eq_getElem _)
      rwa [Nat.zero_add] at this
    rw [memcpyLoop, bind_ok (rd_ok hrd)]
    rw [bind_ok (wr_ok hh _ (by omega)), memcpyLoop_ok hdx n (i + 1) _ (seg_of_obj hs (upd_obj_ne _ _ _ hdx)) (by rw [upd_obj_same]; rfl)
      (by rw [upd_obj_same, cells_upd (by simp)]; simp; omega) (by omega)]
    rw [upd_upd, upd_obj_same, cells_upd (by simp), List.drop_eq_getElem_cons (show j + i < xs.length by omega), List.take_succ_cons,
      over_cons (by omega)]
    rfl

theorem memcpy_at {K : Ctx} {E : Env} {S d x j k : Nat} {s : St} {m : Mpi} {c : M Int} {P : Int → St → Prop} (h : At K E S s) (hd : d < S)
    (hx : x < S) (hdx : x ≠ d) (hE : ∀ o, E d o → Raw k o) (hr : ∀ o, E x o → o.Reads m) (hj : j + k ≤ m.digs.length)
    (hk : ∀ s', At K (Function.update E d (fun o => o.Holds ⟨false, (m.digs.drop j).take k⟩)) S s' → WP c P s') :
    WP (do memcpyLoop d x j k 0; c) P s := by
  obtain ⟨h1, h2, h3⟩ := hE _ (h.objs d hd)
  refine WP.bind_run (memcpyLoop_ok hdx k 0 s (hr _ (h.objs x hx)).seg h1 (by omega) (by omega)) (hk _ (step_at h hd (Step.upd _ _ _ _ _) ?_))
  have hl : (over (s.obj d).cells 0 ((m.digs.drop (j + 0)).take k)).length = (s.obj d).cells.length := over_length (by simp; omega)
  have hlen : ((m.digs.drop j).take k).length = k := by simp; omega
  have h0 : (s.obj d).data = .null → (s.obj d).cells = [] := fun h => by unfold Obj.cells; rw [h]; rfl
  rw [upd_obj_same]
  refine ⟨?_, ?_, ?_⟩
  · show some _ = _; rw [cells_upd hl, hl, hlen]
  · rw [cells_upd hl, Nat.add_zero]; exact over_seg0
  · rcases h3 with h3 | ⟨c, hc, h3⟩
    · left; unfold Obj.upd; rw [h3]; rfl
    · right
      refine ⟨over (s.obj d).cells 0 ((m.digs.drop (j + 0)).take k), ?_, ?_⟩
      · have : (s.obj d).cells = c := by unfold Obj.cells; rw [h3]; rfl
        intro he
        rw [he, this] at hl
        exact hc (List.length_eq_zero_iff.1 hl.symm)
      · unfold Obj.upd; rw [h3]; rfl

theorem adjust_at {K : Ctx} {E : Env} {S d : Nat} {s : St} {m : Mpi} {c : M Int} {P : Int → St → Prop} (h : At K E S s) (hd : d < S)
    (hE : ∀ o, E d o → o.Holds m) (hk : ∀ s', At K (Function.update E d (fun o => o.Holds ⟨m.neg, Mpi.adjust m.digs⟩)) S s' → WP c P s') :
    WP (do adjust d; c) P s := by
  obtain ⟨s', e, t, h', -⟩ := adjust_run (sp := S) (hE _ (h.objs d hd))
  exact WP.bind_run e (hk _ (step_at h hd t h'))

end Verif.Mem
