import Verif.Lemmas.Mem.Leaf2
import Verif.Lemmas.Mpi.NatRep
import Mathlib.Algebra.BigOperators.Intervals
import Mathlib.Algebra.BigOperators.Ring.Finset
import Mathlib.Logic.Equiv.Basic
/-!
Reasoning about functions with local objects: what is known about each address (`Env`), the balance of the
allocator (`At`), and rules for the calls of the functions without locals.
-/
namespace Verif.Mem
open Verif.Mpi (Mpi Norm WF val)

/-! ### Running -/

/-- `c` returns from `s`, and `Q` holds then. -/
def WP {α : Type} (c : M α) (Q : α → St → Prop) (s : St) : Prop := ∃ a s', c s = .ok (a, s') ∧ Q a s'

theorem WP.pure {α : Type} {Q : α → St → Prop} {a : α} {s : St} (h : Q a s) : WP (pure a) Q s := ⟨a, s, rfl, h⟩
theorem WP.bind {α β : Type} {c : M α} {f : α → M β} {Q : β → St → Prop} {s : St}
    (h : WP c (fun a s' => WP (f a) Q s') s) : WP (c >>= f) Q s := by
  obtain ⟨a, s1, h1, b, s2, h2, h3⟩ := h
  exact ⟨b, s2, by rw [bind_ok h1, h2], h3⟩
theorem WP.mono {α : Type} {c : M α} {Q Q' : α → St → Prop} {s : St} (h : WP c Q s) (hq : ∀ a s', Q a s' → Q' a s') :
    WP c Q' s := by
  obtain ⟨a, s', h1, h2⟩ := h
  exact ⟨a, s', h1, hq _ _ h2⟩
theorem WP.chk {c k : M Int} {Q : Int → St → Prop} {s : St}
    (h : WP c (fun st s' => (st = 0 ∧ WP k Q s') ∨ (st ≠ 0 ∧ Q st s')) s) : WP (chk c k) Q s := by
  obtain ⟨st, s1, h1, h2⟩ := h
  rcases h2 with ⟨rfl, a, s2, e1, e2⟩ | ⟨hs, h2⟩
  · exact ⟨a, s2, by rw [chk_ok h1, e1], e2⟩
  · exact ⟨st, s1, chk_fail h1 hs, h2⟩
theorem WP.run {α : Type} {c : M α} {Q : α → St → Prop} {s s' : St} {a : α} (h : c s = .ok (a, s')) (hq : Q a s') : WP c Q s :=
  ⟨a, s', h, hq⟩
theorem WP.bind_run {α β : Type} {c : M α} {f : α → M β} {Q : β → St → Prop} {s s' : St} {a : α} (h : c s = .ok (a, s'))
    (hq : WP (f a) Q s') : WP (c >>= f) Q s := WP.bind ⟨a, s', h, hq⟩

/-- `c`, then a clean-up, returning what `c` returned. -/
theorem WP.fin {c : M Int} {u : M Unit} {Q : Int → St → Prop} {s : St}
    (h : WP c (fun st s' => WP u (fun _ s'' => Q st s'') s') s) : WP (do let st ← c; u; Pure.pure st) Q s := by
  refine WP.bind (h.mono fun st s' h => WP.bind (h.mono fun _ s'' h => WP.pure h))

/-! ### Environments -/

/-- The allocator when an outer function was entered: oracle, requests made, blocks not owned below `sp`. -/
structure Ctx where
  F : Nat → Bool
  T : Nat
  B : Int

/-- What is known about the object at each address. -/
abbrev Env := Nat → Obj → Prop

structure At (K : Ctx) (E : Env) (sp : Nat) (s : St) : Prop where
  objs : ∀ v, v < sp → E v (s.obj v)
  bal : s.live = K.B + ∑ v ∈ Finset.range sp, (s.obj v).owns
  orc : s.fails = K.F
  tick : K.T ≤ s.tick

/-- An allocation failed. -/
def Bad (K : Ctx) (s : St) : Prop := ∃ k, K.T ≤ k ∧ k < s.tick ∧ K.F k = true

def Le (sp : Nat) (E B : Env) : Prop := ∀ v, v < sp → ∀ o, E v o → B v o

theorem Le.refl (sp : Nat) (E : Env) : Le sp E E := fun _ _ _ h => h
theorem Le.trans {sp : Nat} {E F G : Env} (h1 : Le sp E F) (h2 : Le sp F G) : Le sp E G :=
  fun v hv o h => h2 v hv o (h1 v hv o h)
theorem Le.update {sp : Nat} {E B : Env} {r : Nat} {P : Obj → Prop} (h : Le sp E B) (hr : ∀ o, P o → B r o) :
    Le sp (Function.update E r P) B := by
  intro v hv o ho
  by_cases hv' : v = r
  · subst hv'; rw [Function.update_self] at ho; exact hr _ ho
  · rw [Function.update_of_ne hv'] at ho; exact h v hv o ho
theorem Le.both {sp : Nat} {E B : Env} {r : Nat} {P Q : Obj → Prop} (h : Le sp E B) (hr : ∀ o, P o → Q o) :
    Le sp (Function.update E r P) (Function.update B r Q) := by
  intro v hv o ho
  by_cases hv' : v = r
  · subst hv'; rw [Function.update_self] at ho ⊢; exact hr _ ho
  · rw [Function.update_of_ne hv'] at ho ⊢; exact h v hv o ho

theorem At.le {K : Ctx} {E B : Env} {sp : Nat} {s : St} (h : At K E sp s) (hle : Le sp E B) : At K B sp s :=
  ⟨fun v hv => hle v hv _ (h.objs v hv), h.bal, h.orc, h.tick⟩

/-- The usual outcome of a function: 0 and everything as in `G`, or −1 after a failed allocation and everything as in `B`. -/
def Res (K : Ctx) (sp : Nat) (G B : Env) (st : Int) (s : St) : Prop :=
  (st = 0 ∧ At K G sp s) ∨ (st = -1 ∧ Bad K s ∧ At K B sp s)

theorem Res.le {K : Ctx} {sp : Nat} {G G' B B' : Env} {st : Int} {s : St} (h : Res K sp G B st s) (hg : Le sp G G') (hb : Le sp B B') :
    Res K sp G' B' st s := by
  rcases h with ⟨a, h⟩ | ⟨a, f, h⟩
  · exact Or.inl ⟨a, h.le hg⟩
  · exact Or.inr ⟨a, f, h.le hb⟩

theorem chk_res {K : Ctx} {sp : Nat} {G1 B1 G B : Env} {c k : M Int} {s : St} (h : WP c (Res K sp G1 B1) s) (hb : Le sp B1 B)
    (hk : ∀ s', At K G1 sp s' → WP k (Res K sp G B) s') : WP (chk c k) (Res K sp G B) s := by
  refine WP.chk (h.mono fun st s' h => ?_)
  rcases h with ⟨a, h⟩ | ⟨a, f, h⟩
  · exact Or.inl ⟨a, hk _ h⟩
  · exact Or.inr ⟨by omega, Or.inr ⟨a, f, h.le hb⟩⟩

theorem sum_change {f g : Nat → Int} {sp r : Nat} (hr : r < sp) (h : ∀ v, v < sp → v ≠ r → g v = f v) :
    ∑ v ∈ Finset.range sp, g v = ∑ v ∈ Finset.range sp, f v - f r + g r := by
  have hm : r ∈ Finset.range sp := Finset.mem_range.2 hr
  rw [← Finset.add_sum_erase _ f hm, ← Finset.add_sum_erase _ g hm]
  have : ∑ v ∈ (Finset.range sp).erase r, g v = ∑ v ∈ (Finset.range sp).erase r, f v := by
    refine Finset.sum_congr rfl fun v hv => ?_
    rw [Finset.mem_erase, Finset.mem_range] at hv
    exact h v hv.2 hv.1
  rw [this]; omega

theorem step_at {K : Ctx} {E : Env} {sp r : Nat} {s s' : St} {P : Obj → Prop} (h : At K E sp s) (hr : r < sp) (hs : Step sp s s' r)
    (hP : P (s'.obj r)) : At K (Function.update E r P) sp s' := by
  refine ⟨fun v hv => ?_, ?_, hs.fails.trans h.orc, h.tick.trans hs.tick⟩
  · by_cases hv' : v = r
    · subst hv'; rw [Function.update_self]; exact hP
    · rw [Function.update_of_ne hv', hs.frame v hv hv']; exact h.objs v hv
  · rw [sum_change (f := fun v => (s.obj v).owns) hr (fun v hv hv' => by rw [hs.frame v hv hv'])]
    have := hs.live
    have := h.bal
    omega

theorem leaf_at {K : Ctx} {E : Env} {sp r : Nat} {s : St} {c : M Int} {good bad : Obj → Prop} (h : At K E sp s) (hr : r < sp)
    (hl : Leaf sp s r c good bad) : WP c (Res K sp (Function.update E r good) (Function.update E r bad)) s := by
  obtain ⟨st, s', h1, h2, h3⟩ := hl
  refine ⟨st, s', h1, ?_⟩
  rcases h3 with ⟨a, h3⟩ | ⟨a, ⟨k, f1, f2, f3⟩, h3⟩
  · exact Or.inl ⟨a, step_at h hr h2 h3⟩
  · exact Or.inr ⟨a, ⟨k, h.tick.trans f1, f2, by rw [← h.orc]; exact f3⟩, step_at h hr h2 h3⟩

/-- A call in the middle of a function. -/
theorem chk_leaf {K : Ctx} {E G B : Env} {sp r : Nat} {s : St} {c k : M Int} {good bad : Obj → Prop} (h : At K E sp s)
    (hle : Le sp E B) (hr : r < sp) (hl : Leaf sp s r c good bad) (hb : ∀ o, bad o → B r o) (hg : ∀ o, good o → B r o)
    (hk : ∀ s', At K (Function.update E r good) sp s' → Le sp (Function.update E r good) B → WP k (Res K sp G B) s') :
    WP (chk c k) (Res K sp G B) s :=
  chk_res (leaf_at h hr hl) (hle.update hb) fun s' h' => hk s' h' (hle.update hg)

/-! ### Local objects -/

/-- Arguments as in `E`, all objects from `sp` on as in `P`. -/
def Locals (sp : Nat) (E : Env) (P : Obj → Prop) : Env := fun v => if v < sp then E v else P
theorem Locals.lo {sp v : Nat} {E : Env} {P : Obj → Prop} (h : v < sp) : Locals sp E P v = E v := if_pos h
theorem Locals.hi {sp v : Nat} {E : Env} {P : Obj → Prop} (h : sp ≤ v) : Locals sp E P v = P := if_neg (by omega)

theorem decl_at {K : Ctx} {E : Env} {sp : Nat} {s : St} (h : At K E sp s) (k : Nat) :
    WP (decl sp k) (fun _ s' => At K (Locals sp E (· = Obj.fresh)) (sp + k) s') s := by
  refine ⟨(), _, rfl, ⟨fun v hv => ?_, ?_, h.orc, h.tick⟩⟩
  · dsimp only
    by_cases hv' : v < sp
    · rw [Locals.lo hv', if_neg (by omega)]; exact h.objs v hv'
    · rw [Locals.hi (by omega), if_pos (by omega)]
  · dsimp only
    rw [Finset.sum_range_add, h.bal]
    have h1 : ∑ x ∈ Finset.range sp, (if sp ≤ x ∧ x < sp + k then Obj.fresh else s.obj x).owns =
        ∑ x ∈ Finset.range sp, (s.obj x).owns := by
      refine Finset.sum_congr rfl fun v hv => ?_
      rw [Finset.mem_range] at hv
      rw [if_neg (by omega)]
    have h2 : ∑ x ∈ Finset.range k, (if sp ≤ sp + x ∧ sp + x < sp + k then Obj.fresh else s.obj (sp + x)).owns = 0 := by
      refine Finset.sum_eq_zero fun v hv => ?_
      rw [Finset.mem_range] at hv
      rw [if_pos (by omega)]; rfl
    rw [h1, h2]; omega

theorem exit_at {K : Ctx} {E : Env} {sp k : Nat} {s : St} (h : At K E (sp + k) s)
    (hd : ∀ v, sp ≤ v → v < sp + k → ∀ o, E v o → o.owns = 0) : At K E sp s := by
  refine ⟨fun v hv => h.objs v (by omega), ?_, h.orc, h.tick⟩
  rw [h.bal, Finset.sum_range_add]
  have h2 : ∑ x ∈ Finset.range k, (s.obj (sp + x)).owns = 0 := by
    refine Finset.sum_eq_zero fun v hv => ?_
    rw [Finset.mem_range] at hv
    exact hd _ (by omega) (by omega) _ (h.objs _ (by omega))
  rw [h2]; omega

theorem exit_res {K : Ctx} {sp k : Nat} {G B G' B' : Env} {st : Int} {s : St} (h : Res K (sp + k) G' B' st s)
    (hg : Le sp G' G) (hb : Le sp B' B) (dg : ∀ v, sp ≤ v → v < sp + k → ∀ o, G' v o → o.owns = 0)
    (db : ∀ v, sp ≤ v → v < sp + k → ∀ o, B' v o → o.owns = 0) : Res K sp G B st s := by
  rcases h with ⟨a, h⟩ | ⟨a, f, h⟩
  · exact Or.inl ⟨a, (exit_at h dg).le hg⟩
  · exact Or.inr ⟨a, f, (exit_at h db).le hb⟩

/-- The object after `cry_mpi_clear`. -/
def Obj.cleared : Obj := ⟨some ⟨false, 0, 0⟩, .null⟩

/-- Nothing to free, and `cry_mpi_clear` may be called. -/
def Null (o : Obj) : Prop := o.data = .null

theorem Null.owns {o : Obj} (h : Null o) : o.owns = 0 := by unfold Obj.owns; rw [h]
theorem null_cleared : Null Obj.cleared := rfl

theorem clear_run {sp a : Nat} {s : St} (h : Null (s.obj a) ∨ ∃ m, (s.obj a).Holds m) :
    ∃ s', clear a s = .ok ((), s') ∧ Step sp s s' a ∧ s'.obj a = Obj.cleared := by
  have hn : Null (s.obj a) → ∃ s', clear a s = .ok ((), s') ∧ Step sp s s' a ∧ s'.obj a = Obj.cleared := by
    intro h
    have ho : (s.obj a).owns = 0 := h.owns
    unfold clear
    rw [bind_ok (show getObj a s = .ok (s.obj a, s) from rfl), h]
    refine ⟨_, rfl, ⟨fun v _ hv => set_obj_ne _ _ hv, ?_, rfl, Nat.le_refl _⟩, ?_⟩
    · rw [ho]; simp [St.set, Obj.owns]
    · simp [St.set]; rfl
  rcases h with h | ⟨m, h⟩
  · exact hn h
  · rcases h.2.2 with h0 | ⟨c, hc, h0⟩
    · exact hn h0
    · have hcells : (s.obj a).cells = c := by unfold Obj.cells; rw [h0]; rfl
      have ho : (s.obj a).owns = 1 := by unfold Obj.owns; rw [h0]
      unfold clear
      rw [bind_ok (show getObj a s = .ok (s.obj a, s) from rfl), h0]
      dsimp only
      rw [bind_ok (hdr_ok h.1)]
      dsimp only
      rw [if_pos (by rw [hcells]; simpa using hc), if_pos rfl]
      refine ⟨_, rfl, ⟨fun v _ hv => set_obj_ne _ _ hv, ?_, rfl, Nat.le_refl _⟩, ?_⟩
      · rw [ho]; simp [St.set, Obj.owns]
      · simp [St.set]; rfl

theorem clear_at {K : Ctx} {E : Env} {sp a : Nat} {s : St} (h : At K E sp s) (ha : a < sp)
    (hc : ∀ o, E a o → Null o ∨ ∃ m, o.Holds m) :
    WP (clear a) (fun _ s' => At K (Function.update E a (· = Obj.cleared)) sp s') s := by
  obtain ⟨s', h1, h2, h3⟩ := clear_run (sp := sp) (hc _ (h.objs a ha))
  exact ⟨(), s', h1, step_at h ha h2 h3⟩

theorem Bad.mono {K : Ctx} {s s' : St} (h : Bad K s) (ht : s.tick ≤ s'.tick) : Bad K s' := by
  obtain ⟨k, a, b, c⟩ := h; exact ⟨k, a, by omega, c⟩

/-- Clearing an object after the outcome of a block of code is known. -/
theorem fin_clear {K : Ctx} {G B : Env} {sp a : Nat} {s : St} {c : M Int} (h : WP c (Res K sp G B) s) (ha : a < sp)
    (hg : ∀ o, G a o → Null o ∨ ∃ m, o.Holds m) (hb : ∀ o, B a o → Null o ∨ ∃ m, o.Holds m) :
    WP (do let st ← c; clear a; pure st)
      (Res K sp (Function.update G a (· = Obj.cleared)) (Function.update B a (· = Obj.cleared))) s := by
  refine WP.fin (h.mono fun st s' h => ?_)
  rcases h with ⟨e, h⟩ | ⟨e, f, h⟩
  · exact (clear_at h ha hg).mono fun _ s'' h => Or.inl ⟨e, h⟩
  · obtain ⟨s'', h1, h2, h3⟩ := clear_run (sp := sp) (hb _ (h.objs a ha))
    exact ⟨(), s'', h1, Or.inr ⟨e, f.mono h2.tick, step_at h ha h2 h3⟩⟩

/-! ### Numbers -/

/-- The object holds the integer `z` and has room for `n` digits. -/
def V (w : Nat) (z : Int) (n : Nat) (o : Obj) : Prop := ∃ m, WF (2 ^ w) m ∧ m.toInt (2 ^ w) = z ∧ HoldsC m n o

/-- Some number. -/
def Any (w : Nat) (o : Obj) : Prop := ∃ z, V w z 0 o

variable {w : Nat} {z : Int} {n : Nat} {o : Obj}

theorem V.shows (h : V w z n o) : o.Shows w z := by
  obtain ⟨m, h1, h2, h3⟩ := h; exact ⟨m, h1, h2, h3.1.reads⟩
theorem V.is (h : V w z n o) : o.Is w z := by
  obtain ⟨m, h1, h2, h3⟩ := h; exact ⟨m, h1, h2, h3.1⟩
theorem V.weak {n' : Nat} (h : V w z n o) (hn : n' ≤ n) : V w z n' o := by
  obtain ⟨m, h1, h2, h3⟩ := h; exact ⟨m, h1, h2, h3.1, hn.trans h3.2⟩
theorem V.any (h : V w z n o) : Any w o := ⟨z, h.weak (Nat.zero_le _)⟩
theorem V.of_is (h : o.Is w z) : V w z 0 o := by
  obtain ⟨m, h1, h2, h3⟩ := h; exact ⟨m, h1, h2, h3, Nat.zero_le _⟩
theorem Any.clr (h : Any w o) : Null o ∨ ∃ m, o.Holds m := by
  obtain ⟨z, m, -, -, h, -⟩ := h; exact Or.inr ⟨m, h⟩
theorem V.clr (h : V w z n o) : Null o ∨ ∃ m, o.Holds m := h.any.clr

theorem initSize_run {sp a size : Nat} {s : St} (hw : 0 < w) (ho : (s.obj a).owns = 0) :
    Leaf sp s a (initSize a size) (V w 0 size) Null := by
  have hV : ∀ o : Obj, o.hdr = some ⟨false, 0, size⟩ → o.cells.length = size → (o.data = .null ∨ ∃ c, c ≠ [] ∧ o.data = .mem true c) →
      V w 0 size o := by
    intro o h1 h2 h3
    refine ⟨⟨false, []⟩, ⟨Mpi.norm_zero _ _, fun _ => rfl⟩, rfl, ⟨by rw [h1, h2]; rfl, List.nil_prefix, h3⟩, by omega⟩
  unfold initSize
  by_cases hs : size ≠ 0
  · unfold Leaf
    rw [if_pos hs]
    by_cases hf : s.fails s.tick = true
    · have hr : ∀ z : Int, request z s = .ok (false, { s with tick := s.tick + 1 }) := fun z => if_pos hf
      rw [bind_ok (hr 1)]
      refine ⟨-1, _, rfl, ⟨fun v _ hv => set_obj_ne _ _ hv, ?_, rfl, Nat.le_succ _⟩, Or.inr ⟨rfl, ⟨s.tick, Nat.le_refl _, Nat.lt_succ_self _, hf⟩, ?_⟩⟩
      · rw [ho]; simp [St.set, Obj.owns]
      · simp [St.set, Null]
    · have hr : ∀ z : Int, request z s = .ok (true, { s with tick := s.tick + 1, live := s.live + z }) := fun z => if_neg hf
      rw [bind_ok (hr 1)]
      refine ⟨0, _, rfl, ⟨fun v _ hv => set_obj_ne _ _ hv, ?_, rfl, Nat.le_succ _⟩, Or.inl ⟨rfl, ?_⟩⟩
      · rw [ho]; simp [St.set, Obj.owns]
      · rw [set_obj_same]
        exact hV _ rfl (by simp [Obj.cells, Data.cells]) (Or.inr ⟨_, by simpa using hs, rfl⟩)
  · unfold Leaf
    rw [if_neg hs]
    refine ⟨0, _, rfl, ⟨fun v _ hv => set_obj_ne _ _ hv, ?_, rfl, Nat.le_refl _⟩, Or.inl ⟨rfl, ?_⟩⟩
    · rw [ho]; simp [St.set, Obj.owns]
    · rw [set_obj_same]
      refine hV _ ?_ ?_ (Or.inl rfl)
      · rw [not_not.1 hs]
      · rw [not_not.1 hs]; rfl

theorem init_eq (a : Nat) : init a = initSize a quantum := by
  unfold init initSize quantum; rw [if_pos (by decide)]

theorem init_run {sp a : Nat} {s : St} (hw : 0 < w) (ho : (s.obj a).owns = 0) :
    Leaf sp s a (init a) (V w 0 8) Null := by
  rw [init_eq]; exact initSize_run hw ho

theorem two_lt {w : Nat} (hw : 0 < w) : 1 < 2 ^ w := Nat.one_lt_two_pow (by omega)

theorem add_leaf {sp r x y : Nat} {s : St} {zr zx zy : Int} (hw : 0 < w) (hr : V w zr n (s.obj r)) (hx : (s.obj x).Shows w zx)
    (hy : (s.obj y).Shows w zy) : Leaf sp s r (add (2 ^ w) r x y) (V w (zx + zy) n) (V w zr n) := by
  obtain ⟨mr, r1, r2, r3⟩ := hr
  obtain ⟨mx, x1, x2, x3⟩ := hx
  obtain ⟨my, y1, y2, y3⟩ := hy
  obtain ⟨m, e, hl⟩ := add_run (sp := sp) (two_lt hw) r3 x3 y3 x1.toNorm y1.toNorm
  obtain ⟨m', e', v, hn, hz⟩ := Mpi.add_norm (two_lt hw) x1.toNorm y1.toNorm
  rw [e] at e'; cases e'
  refine hl.mono (fun o h => ⟨m, ⟨hn, fun h0 => ?_⟩, by rw [v, x2, y2], h.1⟩) (fun o h => ⟨mr, r1, r2, h⟩)
  cases hz' : m.neg with
  | false => rfl
  | true => have := hz h0 hz'; rw [x1.zero_nonneg this.2.1] at this; simp at this

theorem sub_leaf {sp r x y : Nat} {s : St} {zr zx zy : Int} (hw : 0 < w) (hr : V w zr n (s.obj r)) (hx : (s.obj x).Shows w zx)
    (hy : (s.obj y).Shows w zy) : Leaf sp s r (sub (2 ^ w) r x y) (V w (zx - zy) n) (V w zr n) := by
  obtain ⟨mr, r1, r2, r3⟩ := hr
  obtain ⟨mx, x1, x2, x3⟩ := hx
  obtain ⟨my, y1, y2, y3⟩ := hy
  obtain ⟨m, e, hl⟩ := sub_run (sp := sp) (two_lt hw) r3 x3 y3 x1.toNorm y1.toNorm
  obtain ⟨m', e', v, hn, hz⟩ := Mpi.sub_norm (two_lt hw) x1.toNorm y1.toNorm
  rw [e] at e'; cases e'
  refine hl.mono (fun o h => ⟨m, ⟨hn, fun h0 => ?_⟩, by rw [v, x2, y2], h.1⟩) (fun o h => ⟨mr, r1, r2, h⟩)
  cases hz' : m.neg with
  | false => rfl
  | true => have := hz h0 hz'; rw [x1.zero_nonneg this.2.1] at this; simp at this

theorem toInt_shift {b : Nat} {x m : Mpi} {f : Nat} (h : val b m.digs = val b x.digs * f) (hn : m.neg = x.neg) :
    m.toInt b = x.toInt b * f := by
  unfold Mpi.Mpi.toInt
  rw [h, hn]
  split
  · push_cast; ring
  · push_cast; rfl

theorem shld_leaf {sp a : Nat} {s : St} (hw : 0 < w) (ha : V w z n (s.obj a)) (k : Nat) :
    Leaf sp s a (shld a k) (V w (z * 2 ^ (w * k)) n) (V w z n) := by
  obtain ⟨m, r1, r2, r3⟩ := ha
  obtain ⟨v, hn, hg, hz⟩ := Mpi.shld_spec hw r1.toNorm k
  refine (shld_run r3 k).mono (fun o h => ⟨_, ⟨hn, fun h0 => ?_⟩, ?_, h⟩) (fun o h => ⟨m, r1, r2, h⟩)
  · rw [hg]; exact r1.zero_nonneg (hz.1 h0)
  · rw [toInt_shift v hg, r2, pow_mul]; push_cast; rfl

theorem shl_leaf {sp c a : Nat} {s : St} {zc za : Int} (hw : 0 < w) (hc : V w zc n (s.obj c)) (ha : (s.obj a).Shows w za) (k : Nat)
    (hsp : a < sp) : Leaf sp s c (shl w c a k) (V w (za * 2 ^ k) n) (fun o => ∃ z, V w z n o) := by
  obtain ⟨mc, c1, c2, c3⟩ := hc
  obtain ⟨m, r1, r2, r3⟩ := ha
  obtain ⟨v, hn, hg⟩ := Mpi.shl_spec hw r1.toNorm k
  refine (shl_run c3 r3 hw k hsp).mono (fun o h => ⟨_, ⟨hn, fun h0 => ?_⟩, ?_, h⟩) (fun o h => ?_)
  · rw [hg]
    refine r1.zero_nonneg ?_
    rw [← Mpi.val_eq_zero_iff (Nat.two_pow_pos w) r1.toNorm.top]
    rw [h0, Mpi.val_nil] at v
    have := Nat.two_pow_pos k
    rcases Nat.mul_eq_zero.1 v.symm with h | h
    · exact h
    · omega
  · rw [toInt_shift v hg, r2]; push_cast; rfl
  · rcases h with h | h
    · exact ⟨zc, mc, c1, c2, h⟩
    · exact ⟨za, m, r1, r2, h⟩

/-- Shifting right a number that is not negative. -/
theorem shr_leaf {sp c a : Nat} {s : St} {zc za : Int} (hw : 0 < w) (hc : V w zc n (s.obj c)) (ha : (s.obj a).Shows w za) (k : Nat)
    (hsp : a < sp) (h0 : 0 ≤ za ∨ za % 2 ^ k = 0) : Leaf sp s c (shr w c a k) (V w (za / 2 ^ k) n) (V w zc n) := by
  obtain ⟨mc, c1, c2, c3⟩ := hc
  obtain ⟨m, r1, r2, r3⟩ := ha
  obtain ⟨v, hn, hg⟩ := Mpi.shr_spec hw r1.toNorm k
  have hpos : 0 < 2 ^ k := Nat.two_pow_pos k
  refine (shr_run c3 r3 k hsp).mono (fun o h => ?_) (fun o h => ⟨mc, c1, c2, h⟩)
  cases hng : m.neg with
  | false =>
    have hg' : (Mpi.shr w m k).neg = false := by
      unfold Mpi.shr Mpi.shrd
      split_ifs <;> simp [hng] <;> split <;> simp [hng]
    refine ⟨_, ⟨hn, fun _ => hg'⟩, ?_, h⟩
    rw [Mpi.toInt_false hg', v, ← r2, Mpi.toInt_false hng]; push_cast; rfl
  | true =>
    have hne : m.digs ≠ [] := fun h => by rw [r1.zero_nonneg h] at hng; cases hng
    have hp : 0 < val (2 ^ w) m.digs := Nat.pos_of_ne_zero fun h => hne ((Mpi.val_eq_zero_iff (Nat.two_pow_pos w) r1.toNorm.top).1 h)
    have hz : za = -(val (2 ^ w) m.digs : Int) := by rw [← r2]; unfold Mpi.Mpi.toInt; rw [if_pos hng]
    have hm : za % 2 ^ k = 0 := by
      rcases h0 with h | h
      · omega
      · exact h
    obtain ⟨q, hq⟩ : 2 ^ k ∣ val (2 ^ w) m.digs := by
      have : ((2 ^ k : Nat) : Int) ∣ (val (2 ^ w) m.digs : Int) := by
        rw [← Int.dvd_neg, ← hz]; push_cast; exact Int.dvd_of_emod_eq_zero hm
      exact_mod_cast this
    rw [hq, Nat.mul_div_cancel_left _ hpos] at v
    have hq0 : q ≠ 0 := by rintro rfl; omega
    have hd : (Mpi.shr w m k).digs ≠ [] := fun h => by rw [h, Mpi.val_nil] at v; exact hq0 v.symm
    have hg' : (Mpi.shr w m k).neg = true := by
      rcases hg with h | h
      · rw [h, hng]
      · exact absurd h hd
    refine ⟨_, ⟨hn, fun h => absurd h hd⟩, ?_, h⟩
    unfold Mpi.Mpi.toInt
    rw [if_pos hg', v, hz, hq]
    push_cast
    rw [← mul_neg, Int.mul_ediv_cancel_left _ (by positivity)]

theorem shrd_leaf {sp a : Nat} {s : St} (ha : V w z n (s.obj a)) (k : Nat) (h0 : 0 ≤ z) :
    Leaf sp s a (shrd a k) (V w (z / 2 ^ (w * k)) n) (V w z n) := by
  obtain ⟨m, r1, r2, r3⟩ := ha
  obtain ⟨v, hn, hg⟩ := Mpi.shrd_spec r1.toNorm k
  obtain ⟨s', e1, e2, e3⟩ := shrd_run (sp := sp) r3 k
  refine ⟨0, s', e1, e2, Or.inl ⟨rfl, ?_⟩⟩
  have hng : m.neg = false := by rw [← Bool.not_eq_true, Mpi.neg_iff_of_wf r1, r2]; omega
  have hg' : (Mpi.shrd m k).neg = false := by
    unfold Mpi.shrd; split_ifs <;> simp [hng]
  refine ⟨_, ⟨hn, fun _ => hg'⟩, ?_, e3⟩
  rw [Mpi.toInt_false hg', v, ← r2, Mpi.toInt_false hng, pow_mul]; push_cast; rfl

theorem copy_leaf {sp d x : Nat} {s : St} {zd zx : Int} (hd : V w zd n (s.obj d)) (hx : (s.obj x).Shows w zx) :
    Leaf sp s d (copy d x) (V w zx n) (V w zd n) := by
  obtain ⟨mr, r1, r2, r3⟩ := hd
  obtain ⟨mx, x1, x2, x3⟩ := hx
  refine (copy_any r3 x3 (fun h => ?_)).mono (fun o h => ⟨mx, x1, x2, h⟩) (fun o h => ⟨mr, r1, r2, h⟩)
  subst h; exact same_num r3.1.reads x3

theorem wf_abs {m : Mpi} (h : WF (2 ^ w) m) : WF (2 ^ w) ⟨false, m.digs⟩ ∧
    (⟨false, m.digs⟩ : Mpi).toInt (2 ^ w) = |m.toInt (2 ^ w)| := by
  refine ⟨⟨⟨h.digits, h.top⟩, fun _ => rfl⟩, ?_⟩
  unfold Mpi.Mpi.toInt
  rw [if_neg (by simp)]
  split
  · rw [abs_neg, Nat.abs_cast]
  · rw [Nat.abs_cast]

theorem abs_leaf {sp d x : Nat} {s : St} {zd zx : Int} (hd : V w zd n (s.obj d)) (hx : (s.obj x).Shows w zx) :
    Leaf sp s d (abs d x) (V w |zx| n) (V w zd n) := by
  obtain ⟨mr, r1, r2, r3⟩ := hd
  obtain ⟨mx, x1, x2, x3⟩ := hx
  exact (abs_run r3 x3).mono (fun o h => ⟨_, (wf_abs x1).1, by rw [(wf_abs x1).2, x2], h⟩) (fun o h => ⟨mr, r1, r2, h⟩)

theorem zeroV_leaf {sp r : Nat} {s : St} (hr : V w z n (s.obj r)) (bad : Obj → Prop) :
    Leaf sp s r (do zero r; pure 0) (V w 0 n) bad := by
  obtain ⟨m, r1, r2, r3⟩ := hr
  exact (zero_leaf r3 bad).mono (fun o h => ⟨_, ⟨Mpi.norm_zero _ _, fun _ => rfl⟩, rfl, h⟩) (fun _ h => h)

theorem subAbs_leaf {sp r x y : Nat} {s : St} {zr zx zy : Int} (hw : 0 < w) (hr : V w zr n (s.obj r)) (hx : (s.obj x).Shows w zx)
    (hy : (s.obj y).Shows w zy) (hle : |zy| ≤ |zx|) : Leaf sp s r (subAbs (2 ^ w) r x y) (V w (|zx| - |zy|) n) (V w zr n) := by
  obtain ⟨mr, r1, r2, r3⟩ := hr
  obtain ⟨mx, x1, x2, x3⟩ := hx
  obtain ⟨my, y1, y2, y3⟩ := hy
  have hxa : (val (2 ^ w) mx.digs : Int) = |zx| := by rw [← x2, ← (wf_abs x1).2]; rfl
  have hya : (val (2 ^ w) my.digs : Int) = |zy| := by rw [← y2, ← (wf_abs y1).2]; rfl
  have hv : val (2 ^ w) my.digs ≤ val (2 ^ w) mx.digs := by zify; rw [hxa, hya]; exact hle
  obtain ⟨m, e, hl⟩ := subAbs_val (sp := sp) (two_lt hw) r3 x3 y3 x1.toNorm y1.toNorm hv
  obtain ⟨m', e', v, hn, hz⟩ := Mpi.subAbs_spec (two_lt hw) x1.toNorm y1.toNorm hv
  rw [e] at e'; cases e'
  refine hl.mono (fun o h => ⟨m, ⟨hn, fun _ => hz⟩, ?_, h.1⟩) (fun o h => ⟨mr, r1, r2, h⟩)
  rw [Mpi.toInt_false hz, ← hxa, ← hya]; omega

theorem addAbs_leaf {sp r x y : Nat} {s : St} {zr zx zy : Int} (hw : 0 < w) (hr : V w zr n (s.obj r)) (hx : (s.obj x).Shows w zx)
    (hy : (s.obj y).Shows w zy) : Leaf sp s r (addAbs (2 ^ w) r x y) (V w (|zx| + |zy|) n) (V w zr n) := by
  obtain ⟨mr, r1, r2, r3⟩ := hr
  obtain ⟨mx, x1, x2, x3⟩ := hx
  obtain ⟨my, y1, y2, y3⟩ := hy
  have hxa : (val (2 ^ w) mx.digs : Int) = |zx| := by rw [← x2, ← (wf_abs x1).2]; rfl
  have hya : (val (2 ^ w) my.digs : Int) = |zy| := by rw [← y2, ← (wf_abs y1).2]; rfl
  obtain ⟨v, hn, hz⟩ := Mpi.addAbs_spec (two_lt hw) x1.toNorm y1.toNorm
  refine (addAbs_run r3 x3 y3).mono (fun o h => ⟨_, ⟨hn, fun _ => hz⟩, ?_, h⟩) (fun o h => ⟨mr, r1, r2, h⟩)
  rw [Mpi.toInt_false hz, v, ← hxa, ← hya]; push_cast; rfl

theorem cmp_eval {s : St} {x y : Nat} {zx zy : Int} (hx : (s.obj x).Shows w zx) (hy : (s.obj y).Shows w zy) :
    cmp x y s = .ok (if zx < zy then -1 else if zx = zy then 0 else 1, s) := by
  obtain ⟨mx, x1, x2, x3⟩ := hx
  obtain ⟨my, y1, y2, y3⟩ := hy
  rw [cmp_run x3 y3]
  obtain ⟨h1, h2, h3⟩ := Mpi.cmp_correct (Nat.two_pow_pos w) mx my x1 y1
  rw [x2, y2] at h1 h2 h3
  split_ifs with a b
  · rw [h1.2 a]
  · rw [h2.2 b]
  · rw [h3.2 (by omega)]

theorem cmpAbs_eval {s : St} {x y : Nat} {zx zy : Int} (hx : (s.obj x).Shows w zx) (hy : (s.obj y).Shows w zy) :
    cmpAbs x y s = .ok (if |zx| < |zy| then -1 else if |zx| = |zy| then 0 else 1, s) := by
  obtain ⟨mx, x1, x2, x3⟩ := hx
  obtain ⟨my, y1, y2, y3⟩ := hy
  rw [cmpAbs_run x3 y3]
  have hxa : (val (2 ^ w) mx.digs : Int) = |zx| := by rw [← x2, ← (wf_abs x1).2]; rfl
  have hya : (val (2 ^ w) my.digs : Int) = |zy| := by rw [← y2, ← (wf_abs y1).2]; rfl
  rw [← hxa, ← hya]
  rcases Mpi.cmpAbs_spec (Nat.two_pow_pos w) x1.toNorm y1.toNorm with ⟨h1, h2⟩ | ⟨h1, h2⟩ | ⟨h1, h2⟩
  · rw [h1, if_pos (by exact_mod_cast h2)]
  · rw [h1, if_neg (by omega), if_pos (by exact_mod_cast h2)]
  · rw [h1, if_neg (by omega), if_neg (by omega)]

theorem swap_run {a b : Nat} {s : St} : ∃ s', swap a b s = .ok ((), s') ∧ s'.live = s.live ∧ s'.fails = s.fails ∧ s'.tick = s.tick ∧
    s'.obj = s.obj ∘ Equiv.swap a b := by
  refine ⟨_, rfl, rfl, rfl, rfl, ?_⟩
  funext v
  simp only [St.set, Function.comp, Equiv.swap_apply_def]
  by_cases h1 : v = b
  · subst h1
    by_cases h2 : v = a
    · subst h2; simp
    · simp [h2]
  · by_cases h2 : v = a
    · subst h2; simp [h1]
    · simp [h1, h2]

theorem swap_at {K : Ctx} {E : Env} {sp a b : Nat} {s : St} (h : At K E sp s) (ha : a < sp) (hb : b < sp) :
    WP (swap a b) (fun _ s' => At K (Function.update (Function.update E a (E b)) b (E a)) sp s') s := by
  obtain ⟨s', h1, h2, h3, h4, h5⟩ := @swap_run a b s
  refine ⟨(), s', h1, ⟨fun v hv => ?_, ?_, by rw [h3, h.orc], by rw [h4]; exact h.tick⟩⟩
  · rw [h5]
    simp only [Function.comp, Equiv.swap_apply_def]
    by_cases hvb : v = b
    · subst hvb
      rw [Function.update_self]
      by_cases hva : v = a
      · subst hva; simp; exact h.objs v hv
      · rw [if_neg hva, if_pos rfl]; exact h.objs a ha
    · rw [Function.update_of_ne hvb]
      by_cases hva : v = a
      · subst hva; rw [Function.update_self, if_pos rfl]; exact h.objs b hb
      · rw [Function.update_of_ne hva, if_neg hva, if_neg hvb]; exact h.objs v hv
  · rw [h2, h.bal, h5]
    congr 1
    refine (Finset.sum_equiv (Equiv.swap a b) (fun v => ?_) (fun v _ => rfl)).symm
    simp only [Finset.mem_range, Equiv.swap_apply_def]
    split_ifs with e1 e2
    · subst e1; simp [ha, hb]
    · subst e2; simp [ha, hb]
    · rfl

end Verif.Mem
