import Verif.Lemmas.Mem.Sqr
import Verif.Model.Mem.Div
/-! Bookkeeping for a function with five local objects: what is known about each of them. -/
namespace Verif.Mem
open Verif.Mpi (Mpi Norm WF val Rep)

variable {w : Nat}

/-- `cry_mpi_clear` may be called. -/
def Cl (o : Obj) : Prop := Null o ∨ ∃ m, o.Holds m

/-- A property of objects that may be cleared. -/
structure CP where
  p : Obj → Prop
  cl : ∀ o, p o → Cl o

/-- Anything that may be cleared. -/
def CL : CP := ⟨Cl, fun _ h => h⟩
/-- The digits `qs`, sign positive; `n` digits of room. -/
def HD (qs : List Nat) (n : Nat) : CP := ⟨HoldsC ⟨false, qs⟩ n, fun _ h => Or.inr ⟨_, h.1⟩⟩
/-- Some digits, sign positive. -/
def HDany (n : Nat) : CP := ⟨fun o => ∃ qs, HoldsC ⟨false, qs⟩ n o, fun _ ⟨_, h⟩ => Or.inr ⟨_, h.1⟩⟩
/-- An integer. -/
def VC (w : Nat) (z : Int) (n : Nat) : CP := ⟨V w z n, fun _ h => h.clr⟩
/-- Some integer. -/
def VCany (w n : Nat) : CP := ⟨fun o => ∃ z, V w z n o, fun _ ⟨_, h⟩ => h.clr⟩
/-- Some integer that is not negative. -/
def VCpos (w n : Nat) : CP := ⟨fun o => ∃ z, 0 ≤ z ∧ V w z n o, fun _ ⟨_, _, h⟩ => h.clr⟩
/-- Some integer, zero may have a sign. -/
def RCany (w n : Nat) : CP := ⟨fun o => ∃ z, R w z n o, fun _ ⟨_, _, _, h⟩ => Or.inr ⟨_, h.1⟩⟩
/-- The integer `z`; digits up to index `N` beyond those in use are zero. -/
def XC (w N : Nat) (z : Int) : CP :=
  ⟨fun o => ∃ m, WF (2 ^ w) m ∧ m.toInt (2 ^ w) = z ∧ o.Holds m ∧ CleanTo N m o, fun _ ⟨m, _, _, h, _⟩ => Or.inr ⟨m, h⟩⟩

/-- Five locals from `b` on, other objects as in `E`. -/
def D5 (E : Env) (b : Nat) (P0 P1 P2 P3 P4 : CP) : Env := fun v =>
  if v = b then P0.p else if v = b + 1 then P1.p else if v = b + 2 then P2.p else if v = b + 3 then P3.p
  else if v = b + 4 then P4.p else E v

section
variable {E : Env} {b : Nat} {P0 P1 P2 P3 P4 : CP}

theorem D5.e0 : D5 E b P0 P1 P2 P3 P4 b = P0.p := if_pos rfl
theorem D5.e1 : D5 E b P0 P1 P2 P3 P4 (b + 1) = P1.p := by unfold D5; simp
theorem D5.e2 : D5 E b P0 P1 P2 P3 P4 (b + 2) = P2.p := by unfold D5; simp
theorem D5.e3 : D5 E b P0 P1 P2 P3 P4 (b + 3) = P3.p := by unfold D5; simp
theorem D5.e4 : D5 E b P0 P1 P2 P3 P4 (b + 4) = P4.p := by unfold D5; simp
theorem D5.lo {v : Nat} (h : v < b) : D5 E b P0 P1 P2 P3 P4 v = E v := by
  unfold D5
  rw [if_neg (by omega), if_neg (by omega), if_neg (by omega), if_neg (by omega), if_neg (by omega)]

theorem D5.u0 {P : CP} : Function.update (D5 E b P0 P1 P2 P3 P4) b P.p = D5 E b P P1 P2 P3 P4 := by
  funext v; rw [Function.update_apply]; unfold D5; split_ifs <;> first | rfl | omega
theorem D5.u1 {P : CP} : Function.update (D5 E b P0 P1 P2 P3 P4) (b + 1) P.p = D5 E b P0 P P2 P3 P4 := by
  funext v; rw [Function.update_apply]; unfold D5; split_ifs <;> first | rfl | omega
theorem D5.u2 {P : CP} : Function.update (D5 E b P0 P1 P2 P3 P4) (b + 2) P.p = D5 E b P0 P1 P P3 P4 := by
  funext v; rw [Function.update_apply]; unfold D5; split_ifs <;> first | rfl | omega
theorem D5.u3 {P : CP} : Function.update (D5 E b P0 P1 P2 P3 P4) (b + 3) P.p = D5 E b P0 P1 P2 P P4 := by
  funext v; rw [Function.update_apply]; unfold D5; split_ifs <;> first | rfl | omega
theorem D5.u4 {P : CP} : Function.update (D5 E b P0 P1 P2 P3 P4) (b + 4) P.p = D5 E b P0 P1 P2 P3 P := by
  funext v; rw [Function.update_apply]; unfold D5; split_ifs <;> first | rfl | omega

theorem D5.le {S : Nat} {R0 R1 R2 R3 R4 : CP} (h0 : ∀ o, P0.p o → R0.p o) (h1 : ∀ o, P1.p o → R1.p o) (h2 : ∀ o, P2.p o → R2.p o)
    (h3 : ∀ o, P3.p o → R3.p o) (h4 : ∀ o, P4.p o → R4.p o) : Le S (D5 E b P0 P1 P2 P3 P4) (D5 E b R0 R1 R2 R3 R4) := by
  intro v _ o ho
  unfold D5 at *
  split_ifs at * with e0 e1 e2 e3 e4
  · exact h0 o ho
  · exact h1 o ho
  · exact h2 o ho
  · exact h3 o ho
  · exact h4 o ho
  · exact ho

/-- The state after a failure inside. -/
def Bd (E : Env) (b : Nat) : Env := D5 E b CL CL CL CL CL

theorem D5.bd {S : Nat} : Le S (D5 E b P0 P1 P2 P3 P4) (Bd E b) := D5.le P0.cl P1.cl P2.cl P3.cl P4.cl
end

section
variable {K : Ctx} {E G : Env} {b S : Nat} {s s' : St} {P0 P1 P2 P3 P4 P P' : CP} {c k : M Int}

theorem At.p0 (h : At K (D5 E b P0 P1 P2 P3 P4) S s) (hS : b + 5 ≤ S) : P0.p (s.obj b) := by
  have := h.objs b (by omega); rwa [D5.e0] at this
theorem At.p1 (h : At K (D5 E b P0 P1 P2 P3 P4) S s) (hS : b + 5 ≤ S) : P1.p (s.obj (b + 1)) := by
  have := h.objs (b + 1) (by omega); rwa [D5.e1] at this
theorem At.p2 (h : At K (D5 E b P0 P1 P2 P3 P4) S s) (hS : b + 5 ≤ S) : P2.p (s.obj (b + 2)) := by
  have := h.objs (b + 2) (by omega); rwa [D5.e2] at this
theorem At.p3 (h : At K (D5 E b P0 P1 P2 P3 P4) S s) (hS : b + 5 ≤ S) : P3.p (s.obj (b + 3)) := by
  have := h.objs (b + 3) (by omega); rwa [D5.e3] at this
theorem At.p4 (h : At K (D5 E b P0 P1 P2 P3 P4) S s) (hS : b + 5 ≤ S) : P4.p (s.obj (b + 4)) := by
  have := h.objs (b + 4) (by omega); rwa [D5.e4] at this

theorem At.s0 (h : At K (D5 E b P0 P1 P2 P3 P4) S s) (hS : b + 5 ≤ S) (t : Step S s s' b) (hp : P.p (s'.obj b)) :
    At K (D5 E b P P1 P2 P3 P4) S s' := by
  have := step_at (P := P.p) h (show b < S by omega) t hp; rwa [D5.u0] at this
theorem At.s1 (h : At K (D5 E b P0 P1 P2 P3 P4) S s) (hS : b + 5 ≤ S) (t : Step S s s' (b + 1)) (hp : P.p (s'.obj (b + 1))) :
    At K (D5 E b P0 P P2 P3 P4) S s' := by
  have := step_at (P := P.p) h (show b + 1 < S by omega) t hp; rwa [D5.u1] at this
theorem At.s2 (h : At K (D5 E b P0 P1 P2 P3 P4) S s) (hS : b + 5 ≤ S) (t : Step S s s' (b + 2)) (hp : P.p (s'.obj (b + 2))) :
    At K (D5 E b P0 P1 P P3 P4) S s' := by
  have := step_at (P := P.p) h (show b + 2 < S by omega) t hp; rwa [D5.u2] at this
theorem At.s3 (h : At K (D5 E b P0 P1 P2 P3 P4) S s) (hS : b + 5 ≤ S) (t : Step S s s' (b + 3)) (hp : P.p (s'.obj (b + 3))) :
    At K (D5 E b P0 P1 P2 P P4) S s' := by
  have := step_at (P := P.p) h (show b + 3 < S by omega) t hp; rwa [D5.u3] at this
theorem At.s4 (h : At K (D5 E b P0 P1 P2 P3 P4) S s) (hS : b + 5 ≤ S) (t : Step S s s' (b + 4)) (hp : P.p (s'.obj (b + 4))) :
    At K (D5 E b P0 P1 P2 P3 P) S s' := by
  have := step_at (P := P.p) h (show b + 4 < S by omega) t hp; rwa [D5.u4] at this

theorem c1 (h : At K (D5 E b P0 P1 P2 P3 P4) S s) (hS : b + 5 ≤ S) (P P' : CP) (hl : Leaf S s (b + 1) c P.p P'.p)
    (hk : ∀ s', At K (D5 E b P0 P P2 P3 P4) S s' → WP k (Res K S G (Bd E b)) s') : WP (chk c k) (Res K S G (Bd E b)) s := by
  refine chk_res (leaf_at h (by omega) hl) (by rw [D5.u1]; exact D5.bd) fun s' h' => hk s' (by rwa [D5.u1] at h')
theorem c3 (h : At K (D5 E b P0 P1 P2 P3 P4) S s) (hS : b + 5 ≤ S) (P P' : CP) (hl : Leaf S s (b + 3) c P.p P'.p)
    (hk : ∀ s', At K (D5 E b P0 P1 P2 P P4) S s' → WP k (Res K S G (Bd E b)) s') : WP (chk c k) (Res K S G (Bd E b)) s := by
  refine chk_res (leaf_at h (by omega) hl) (by rw [D5.u3]; exact D5.bd) fun s' h' => hk s' (by rwa [D5.u3] at h')
theorem c4 (h : At K (D5 E b P0 P1 P2 P3 P4) S s) (hS : b + 5 ≤ S) (P P' : CP) (hl : Leaf S s (b + 4) c P.p P'.p)
    (hk : ∀ s', At K (D5 E b P0 P1 P2 P3 P) S s' → WP k (Res K S G (Bd E b)) s') : WP (chk c k) (Res K S G (Bd E b)) s := by
  refine chk_res (leaf_at h (by omega) hl) (by rw [D5.u4]; exact D5.bd) fun s' h' => hk s' (by rwa [D5.u4] at h')

theorem done5 (h : At K (D5 E b P0 P1 P2 P3 P4) S s) : WP (pure 0) (Res K S (D5 E b P0 P1 P2 P3 P4) (Bd E b)) s :=
  WP.pure (Or.inl ⟨rfl, h⟩)

/-- Continue after a block. -/
theorem chk5 (h : WP c (Res K S (D5 E b P0 P1 P2 P3 P4) (Bd E b)) s)
    (hk : ∀ s', At K (D5 E b P0 P1 P2 P3 P4) S s' → WP k (Res K S G (Bd E b)) s') : WP (chk c k) (Res K S G (Bd E b)) s :=
  chk_res h (Le.refl _ _) hk
end

/-! ### Reading and writing digits -/

theorem wr_run {S v n k d : Nat} {s : St} {g : Bool} {qs : List Nat} (h : HoldsC ⟨g, qs⟩ n (s.obj v)) (hk : k < qs.length) :
    ∃ s', wr v k d s = .ok ((), s') ∧ Step S s s' v ∧ HoldsC ⟨g, qs.set k d⟩ n (s'.obj v) := by
  have hl : ((s.obj v).cells.set k (some d)).length = (s.obj v).cells.length := by simp
  refine ⟨_, wr_ok (i := k) h.1.1 d (by have := h.1.len; dsimp only at this; omega), Step.upd _ _ _ _ _, ?_⟩
  rw [upd_obj_same]
  refine ⟨holds_len_upd (m' := ⟨g, qs.set k d⟩) h.1 hl ?_ (by simp), by rw [cells_upd hl, hl]; exact h.2⟩
  obtain ⟨t, ht⟩ := h.1.2.1
  refine ⟨t, ?_⟩
  dsimp only at ht ⊢
  rw [← ht, List.map_set, List.set_append_left _ _ (by simpa using hk)]

theorem rd_run {v k : Nat} {s : St} {m : Mpi} (h : (s.obj v).Reads m) (hk : k < m.digs.length) :
    rd v k s = .ok (Mpi.dig m.digs k, s) := rd_ok (seg_dig h.seg hk)

theorem countBits_run {v : Nat} {s : St} {m : Mpi} (h : (s.obj v).Reads m) : countBits w v s = .ok (Mpi.countBits w m, s) := by
  obtain ⟨a, h1, -⟩ := id h
  unfold countBits Mpi.countBits
  rw [bind_ok (hdr_ok h1)]
  dsimp only
  by_cases h0 : m.digs.length = 0
  · rw [if_neg (by simpa using h0)]
    have : m.digs = [] := List.length_eq_zero_iff.1 h0
    rw [this]; rfl
  · rw [if_pos h0, bind_ok (rd_run h (by omega))]
    have h0' : m.digs ≠ [] := fun e => h0 (by rw [e]; rfl)
    have e : m.digs.getLast? = some (Mpi.dig m.digs (m.digs.length - 1)) := by
      rw [List.getLast?_eq_getElem?]
      unfold Mpi.dig
      rw [List.getD_eq_getElem?_getD, List.getElem?_eq_getElem (by omega)]; rfl
    rw [e]; rfl

/-! ### Subtracting from the running remainder -/

section
variable {S N x t : Nat} {s : St} {X T : Int}

theorem subX (hw : 0 < w) (hx : (XC w N X).p (s.obj x)) (ht : (s.obj t).Shows w T) (hX : 0 < X) (hT : 0 ≤ T) :
    Leaf S s x (sub (2 ^ w) x x t) (XC w N (X - T)).p CL.p := by
  obtain ⟨m, m1, m2, m3, m4⟩ := hx
  obtain ⟨mt, t1, t2, t3⟩ := ht
  obtain ⟨mr, e, hl⟩ := sub_run (sp := S) (two_lt hw) (n := 0) ⟨m3, Nat.zero_le _⟩ m3.reads t3 m1.toNorm t1.toNorm
  obtain ⟨m', e', v, hn, hz⟩ := Mpi.sub_norm (two_lt hw) m1.toNorm t1.toNorm
  rw [e] at e'; cases e'
  have hg : m.neg = false := by rw [← Bool.not_eq_true, Mpi.neg_iff_of_wf m1, m2]; omega
  have hg' : mt.neg = false := by rw [← Bool.not_eq_true, Mpi.neg_iff_of_wf t1, t2]; omega
  have hne : m.digs ≠ [] := fun h => by rw [← m2, (Mpi.toInt_eq_zero_iff (Nat.two_pow_pos w) m1.toNorm).2 h] at hX; omega
  refine hl.mono (fun o h => ⟨mr, ⟨hn, fun h0 => ?_⟩, by rw [v, m2, t2], h.1.1, h.2 (by rw [hg, hg']) N fun j hj hjN => ?_⟩)
    (fun o h => Or.inr ⟨m, h.1⟩)
  · cases hz' : mr.neg with
    | false => rfl
    | true => have := hz h0 hz'; rw [m1.zero_nonneg this.2.1] at this; simp at this
  · rcases m4 with m4 | m4
    · exact absurd m4 hne
    · exact m4 j (by omega) hjN

theorem addX (hw : 0 < w) (hx : (XC w N X).p (s.obj x)) (ht : (s.obj t).Shows w T) (hX : X < 0) (hT : 0 ≤ T) :
    Leaf S s x (add (2 ^ w) x x t) (XC w N (X + T)).p CL.p := by
  obtain ⟨m, m1, m2, m3, m4⟩ := hx
  obtain ⟨mt, t1, t2, t3⟩ := ht
  obtain ⟨mr, e, hl⟩ := add_run (sp := S) (two_lt hw) (n := 0) ⟨m3, Nat.zero_le _⟩ m3.reads t3 m1.toNorm t1.toNorm
  obtain ⟨m', e', v, hn, hz⟩ := Mpi.add_norm (two_lt hw) m1.toNorm t1.toNorm
  rw [e] at e'; cases e'
  have hg : m.neg = true := by rw [Mpi.neg_iff_of_wf m1, m2]; omega
  have hg' : mt.neg = false := by rw [← Bool.not_eq_true, Mpi.neg_iff_of_wf t1, t2]; omega
  have hne : m.digs ≠ [] := fun h => by rw [← m2, (Mpi.toInt_eq_zero_iff (Nat.two_pow_pos w) m1.toNorm).2 h] at hX; omega
  refine hl.mono (fun o h => ⟨mr, ⟨hn, fun h0 => ?_⟩, by rw [v, m2, t2], h.1.1, h.2 (by rw [hg, hg']; decide) N fun j hj hjN => ?_⟩)
    (fun o h => Or.inr ⟨m, h.1⟩)
  · cases hz' : mr.neg with
    | false => rfl
    | true => have := hz h0 hz'; rw [m1.zero_nonneg this.2.1] at this; simp at this
  · rcases m4 with m4 | m4
    · exact absurd m4 hne
    · exact m4 j (by omega) hjN

theorem XC.shows {o : Obj} (h : (XC w N X).p o) : o.Shows w X := by
  obtain ⟨m, m1, m2, m3, m4⟩ := h; exact ⟨m, m1, m2, m3.reads⟩

/-- The digits of a remainder that is not zero, up to index `N`. -/
theorem XC.digit {X : Nat} {o : Obj} (h : (XC w N X).p o) (hX : 0 < X) {j : Nat} (hj : j ≤ N) :
    o.cells[j]? = some (some (X / (2 ^ w) ^ j % 2 ^ w)) := by
  obtain ⟨m, m1, m2, m3, m4⟩ := h
  have hv : val (2 ^ w) m.digs = X := by
    rw [← Mpi.natAbs_toInt, m2]; rfl
  have hne : m.digs ≠ [] := fun h => by rw [h, Mpi.val_nil] at hv; omega
  rw [← hv, ← Mpi.dig_eq (Nat.two_pow_pos w) m1.digits]
  by_cases hl : j < m.digs.length
  · obtain ⟨t, ht⟩ := m3.2.1
    rw [← ht, List.getElem?_append_left (by simpa using hl), List.getElem?_map]
    unfold Mpi.dig
    rw [List.getD_eq_getElem?_getD, List.getElem?_eq_getElem hl]; rfl
  · rcases m4 with m4 | m4
    · exact absurd m4 hne
    · rw [m4 j (by omega) hj]
      unfold Mpi.dig
      rw [List.getD_eq_getElem?_getD, List.getElem?_eq_none (by omega)]; rfl
end

end Verif.Mem
