import Verif.Lemmas.Mem.Rules
/-! Comba multiplication and squaring in memory. -/
namespace Verif.Mem
open Verif.Mpi (Mpi Norm WF val Rep)

theorem Mpi.combaCol_succ (w : Nat) (xs ys : List Nat) (tx ty n : Nat) (c : Nat × Nat × Nat) :
    Mpi.combaCol w xs ys tx ty (n + 1) c =
      Mpi.combaCol w xs ys (tx + 1) (ty - 1) n (Mpi.muladd w c (Mpi.dig xs tx) (Mpi.dig ys ty)) := by
  unfold Mpi.combaCol
  rw [List.range_succ_eq_map, List.foldl_cons, List.foldl_map]
  simp only [Nat.add_zero, Nat.sub_zero]
  congr 1
  funext c iz
  rw [show tx + (iz + 1) = tx + 1 + iz by omega, show ty - (iz + 1) = ty - 1 - iz by omega]

theorem seg_dig {s : St} {v : Nat} {xs : List Nat} (h : Seg s v 0 xs) {i : Nat} (hi : i < xs.length) :
    (s.obj v).cells[i]? = some (some (Mpi.dig xs i)) := by
  have := h.get (k := i) (d := Mpi.dig xs i) (by unfold Mpi.dig; rw [List.getD_eq_getElem?_getD, List.getElem?_eq_getElem hi]; rfl)
  rwa [Nat.zero_add] at this

theorem combaCol_ok {w x y : Nat} {s : St} {xs ys : List Nat} (hx : Seg s x 0 xs) (hy : Seg s y 0 ys) :
    ∀ n tx ty c, tx + n ≤ xs.length → n ≤ ty + 1 → ty < ys.length →
      combaCol w x y n tx ty c s = .ok (Mpi.combaCol w xs ys tx ty n c, s)
  | 0, _, _, _, _, _, _ => rfl
  | n + 1, tx, ty, c, h1, h2, h3 => by
    rw [combaCol, bind_ok (rd_ok (seg_dig hx (by omega))), bind_ok (rd_ok (seg_dig hy h3)),
      combaCol_ok hx hy n _ _ _ (by omega) (by omega) (by omega), ← Mpi.combaCol_succ]

theorem seg_of_obj {s s' : St} {v : Nat} {xs : List Nat} (h : Seg s v 0 xs) (e : s'.obj v = s.obj v) : Seg s' v 0 xs := by
  unfold Seg at *; rw [e]; exact h

theorem combaLoop_ok {w dst x y : Nat} {h : Hdr} {xs ys : List Nat} (hxd : x ≠ dst) (hyd : y ≠ dst) (hx0 : 0 < xs.length)
    (hy0 : 0 < ys.length) :
    ∀ n ix c1 c2 (s : St), Seg s x 0 xs → Seg s y 0 ys → (s.obj dst).hdr = some h → ix + n = xs.length + ys.length →
      ix + n ≤ (s.obj dst).cells.length →
      ∃ L : List Nat, L.length = n ∧
        (∀ acc, ((List.range' ix n).foldl (Mpi.combaStep w xs ys) ((c1, c2), acc)).2 = acc ++ L) ∧
        combaLoop w dst x y xs.length ys.length n ix c1 c2 s = .ok ((), s.upd dst h (over (s.obj dst).cells ix L))
  | 0, ix, c1, c2, s, _, _, hh, _, _ => ⟨[], rfl, fun acc => by simp, by rw [over_nil, upd_self hh]; rfl⟩
  | n + 1, ix, c1, c2, s, sx, sy, hh, hn, hl => by
    obtain ⟨L, l1, l2, l3⟩ := combaLoop_ok (w := w) hxd hyd hx0 hy0 n (ix + 1)
      (Mpi.combaCol w xs ys (ix - min ix (ys.length - 1)) (min ix (ys.length - 1))
        (min (xs.length - (ix - min ix (ys.length - 1))) (min ix (ys.length - 1) + 1)) (c1, c2, 0)).2.1
      (Mpi.combaCol w xs ys (ix - min ix (ys.length - 1)) (min ix (ys.length - 1))
        (min (xs.length - (ix - min ix (ys.length - 1))) (min ix (ys.length - 1) + 1)) (c1, c2, 0)).2.2
      (s.upd dst h ((s.obj dst).cells.set ix (some (Mpi.combaCol w xs ys (ix - min ix (ys.length - 1)) (min ix (ys.length - 1))
        (min (xs.length - (ix - min ix (ys.length - 1))) (min ix (ys.length - 1) + 1)) (c1, c2, 0)).1)))
      (seg_of_obj sx (upd_obj_ne _ _ _ hxd)) (seg_of_obj sy (upd_obj_ne _ _ _ hyd)) (by rw [upd_obj_same]; rfl) (by omega)
      (by rw [upd_obj_same, cells_upd (by simp)]; simp; omega)
    refine ⟨(Mpi.combaCol w xs ys (ix - min ix (ys.length - 1)) (min ix (ys.length - 1))
        (min (xs.length - (ix - min ix (ys.length - 1))) (min ix (ys.length - 1) + 1)) (c1, c2, 0)).1 :: L,
      by simp [l1], fun acc => ?_, ?_⟩
    rotate_left
    · rw [combaLoop]
      rw [bind_ok (combaCol_ok sx sy _ _ _ _ (by omega) (by omega) (by omega)), bind_ok (wr_ok hh _ (by omega)), l3]
      rw [upd_upd, upd_obj_same, cells_upd (by simp), over_cons (by omega)]
    · rw [List.range'_succ, List.foldl_cons]
      have := l2 (acc ++ [(Mpi.combaCol w xs ys (ix - min ix (ys.length - 1)) (min ix (ys.length - 1))
        (min (xs.length - (ix - min ix (ys.length - 1))) (min ix (ys.length - 1) + 1)) (c1, c2, 0)).1])
      rw [List.append_assoc] at this
      exact this

theorem holds_zero_of_v {w : Nat} {k : Nat} {o : Obj} (h : V w 0 k o) : HoldsC ⟨false, []⟩ k o := by
  obtain ⟨m, h1, h2, h3⟩ := h
  have hd : m.digs = [] := (Mpi.toInt_eq_zero_iff (Nat.two_pow_pos w) h1.toNorm).1 h2
  have hn := h1.zero_nonneg hd
  have : m = ⟨false, []⟩ := by cases m; simp_all
  rw [← this]; exact h3

theorem setUsedZ_ok {s : St} {v : Nat} {h : Hdr} (hh : (s.obj v).hdr = some h) {k : Nat} (hk : k ≤ (s.obj v).cells.length) :
    setUsedZ v k s = .ok ((), s.upd v { h with used := k } (over (s.obj v).cells 0 (List.replicate k 0))) := by
  unfold setUsedZ
  rw [bind_ok (setUsed_ok hh k), zeroLoop_ok v { h with used := k } k 0 _ (by rw [upd_obj_same]; rfl)
    (by rw [upd_obj_same, cells_upd rfl]; omega)]
  rw [upd_upd, upd_obj_same, cells_upd rfl]

/-- The common frame of the Comba routines and others that compute into a temporary if the destination is
an operand. -/
theorem comba_frame {sp r pa n : Nat} {s : St} {mr : Mpi} {al : Prop} [Decidable al] {fill : Nat → M Unit} {D : List Nat}
    (hr : HoldsC mr n (s.obj r)) (hrs : r < sp) (ho : (s.obj sp).owns = 0) (hn : n ≤ pa ∨ ¬ al) (hD : D.length = pa) (hp : pa ≠ 0)
    (hfill : ∀ s1 h, (∀ v, v < sp → v ≠ (if al then sp else r) → s1.obj v = s.obj v) →
      (s1.obj (if al then sp else r)).hdr = some h → pa ≤ (s1.obj (if al then sp else r)).cells.length →
      fill (if al then sp else r) s1 = .ok ((), s1.upd (if al then sp else r) h (over (s1.obj (if al then sp else r)).cells 0 D))) :
    Leaf sp s r (chk (if al then initSize sp pa else grow r pa) do
      setUsedZ (if al then sp else r) pa
      fill (if al then sp else r)
      if r ≠ (if al then sp else r) then
        swap r (if al then sp else r)
        clear (if al then sp else r)
      adjust r
      pure 0) (HoldsC ⟨if al then false else mr.neg, Mpi.adjust D⟩ n) (HoldsC mr n) := by
  unfold Leaf
  by_cases ha : al
  · simp only [if_pos ha] at *
    have hn0 : n ≤ pa := by tauto
    obtain ⟨st, s1, e1, t1, h1⟩ := initSize_run (w := 8) (sp := sp + 1) (size := pa) (by decide) ho
    rcases h1 with ⟨rfl, h1⟩ | ⟨rfl, hf, h1⟩
    · have h1 := holds_zero_of_v h1
      rw [chk_ok e1, bind_ok (setUsedZ_ok h1.1.1 h1.2)]
      have hc1 : (over (s1.obj sp).cells 0 (List.replicate pa 0)).length = (s1.obj sp).cells.length :=
        over_length (by simp; exact h1.2)
      rw [bind_ok (hfill _ _ (fun v hv hv' => by rw [upd_obj_ne _ _ _ hv']; exact t1.frame v (by omega) hv')
        (by rw [upd_obj_same]; rfl) (by rw [upd_obj_same, cells_upd hc1, hc1]; exact h1.2))]
      rw [upd_upd, upd_obj_same, cells_upd hc1, if_pos (by omega : r ≠ sp)]
      have hc2 : (over (over (s1.obj sp).cells 0 (List.replicate pa 0)) 0 D).length = (s1.obj sp).cells.length := by
        rw [over_length (by rw [hc1, hD, Nat.zero_add]; exact h1.2), hc1]
      generalize hs2 : s1.upd sp _ _ = s2
      have hH2 : (s2.obj sp).Holds ⟨false, D⟩ := by
        rw [← hs2, upd_obj_same]
        exact holds_len_upd h1.1 hc2 over_seg0 (by simp [hD])
      have f2 : ∀ v, v < sp → s2.obj v = s.obj v := fun v hv => by
        rw [← hs2, upd_obj_ne _ _ _ (by omega)]; exact t1.frame v (by omega) (by omega)
      have l2 : s2.live = s.live + (s2.obj sp).owns := by
        rw [← hs2, upd_obj_same, owns_put, show ∀ h c, (s1.upd sp h c).live = s1.live from fun _ _ => rfl]
        have := t1.live
        omega
      have k2 : s2.fails = s.fails ∧ s.tick ≤ s2.tick := by rw [← hs2]; exact ⟨t1.fails, t1.tick⟩
      obtain ⟨s3, e3, l3, f3, k3, o3⟩ := swap_run (a := r) (b := sp) (s := s2)
      have or3 : s3.obj r = s2.obj sp := by rw [o3]; simp
      have os3 : s3.obj sp = s2.obj r := by rw [o3]; simp
      obtain ⟨s4, e4, t4, h4⟩ := clear_run (sp := sp + 1) (a := sp) (s := s3)
        (Or.inr ⟨mr, by rw [os3, f2 r hrs]; exact hr.1⟩)
      have or4 : s4.obj r = s2.obj sp := by rw [t4.frame r (by omega) (by omega), or3]
      obtain ⟨s5, e5, t5, h5, c5⟩ := adjust_run (sp := sp + 1) (s := s4) (r := r) (by rw [or4]; exact hH2)
      refine ⟨0, s5, ?_, ⟨fun v hv hv' => ?_, ?_, ?_, ?_⟩, Or.inl ⟨rfl, h5, ?_⟩⟩
      · rw [bind_ok e3, bind_ok e4, bind_ok e5]; rfl
      · rw [t5.frame v (by omega) hv', t4.frame v (by omega) (by omega), o3]
        simp only [Function.comp, Equiv.swap_apply_of_ne_of_ne hv' (by omega : v ≠ sp)]
        exact f2 v hv
      · have a1 := t4.live
        have a2 := t5.live
        rw [os3, f2 r hrs, h4] at a1
        have : Obj.cleared.owns = 0 := rfl
        rw [or4] at a2
        omega
      · rw [t5.fails, t4.fails, f3, k2.1]
      · have := t5.tick; have := t4.tick; have := k2.2; omega
      · rw [c5, or4, ← hs2, upd_obj_same, cells_upd hc2, hc2]; exact hn0.trans h1.2
    · refine ⟨-1, s1, chk_fail e1 (by decide), ⟨fun v hv hv' => t1.frame v (by omega) (by omega), ?_, t1.fails, t1.tick⟩, Or.inr ⟨rfl, hf, ?_⟩⟩
      · rw [t1.frame r (by omega) (by omega)]
        have := t1.live
        have := h1.owns
        omega
      · rw [t1.frame r (by omega) (by omega)]; exact hr
  · simp only [if_neg ha] at *
    obtain ⟨st, s1, e1, h1⟩ := grow_run sp hr.1 pa
    rcases h1 with ⟨rfl, g⟩ | ⟨rfl, hf, ho', hl', hfl', ht'⟩
    · have h1 := g.holds hr.1
      rw [chk_ok e1, bind_ok (setUsedZ_ok h1.1 g.room)]
      have hc1 : (over (s1.obj r).cells 0 (List.replicate pa 0)).length = (s1.obj r).cells.length :=
        over_length (by simp; exact g.room)
      rw [bind_ok (hfill _ _ (fun v hv hv' => by rw [upd_obj_ne _ _ _ hv']; exact g.others v hv')
        (by rw [upd_obj_same]; rfl) (by rw [upd_obj_same, cells_upd hc1, hc1]; exact g.room))]
      rw [upd_upd, upd_obj_same, cells_upd hc1, if_neg (by simp)]
      have hc2 : (over (over (s1.obj r).cells 0 (List.replicate pa 0)) 0 D).length = (s1.obj r).cells.length := by
        rw [over_length (by rw [hc1, hD, Nat.zero_add]; exact g.room), hc1]
      generalize hs2 : s1.upd r _ _ = s2
      have hH2 : (s2.obj r).Holds ⟨mr.neg, D⟩ := by
        rw [← hs2, upd_obj_same]
        exact holds_len_upd h1 hc2 over_seg0 (by simp [hD])
      have t2 : Step sp s s2 r := by rw [← hs2]; exact g.step.trans (Step.upd _ _ _ _ _)
      obtain ⟨s5, e5, t5, h5, c5⟩ := adjust_run (sp := sp) hH2
      refine ⟨0, s5, by rw [bind_ok e5]; rfl, t2.trans t5, Or.inl ⟨rfl, h5, ?_⟩⟩
      rw [c5, ← hs2, upd_obj_same, cells_upd hc2, hc2]
      obtain ⟨k, hk⟩ := g.cells
      rw [hk, List.length_append]
      have := hr.2
      omega
    · exact ⟨-1, s1, chk_fail e1 (by decide), ⟨fun v _ _ => by rw [ho'], by rw [ho', hl'], hfl', ht'⟩, Or.inr ⟨rfl, hf, by rw [ho']; exact hr⟩⟩

/-- A local variable comes into being. -/
theorem decl_leaf {sp k r : Nat} {s : St} {c : M Int} {good bad : Obj → Prop} (hr : r < sp)
    (h : Leaf sp { s with obj := fun p => if sp ≤ p ∧ p < sp + k then Obj.fresh else s.obj p } r c good bad) :
    Leaf sp s r (do decl sp k; c) good bad := by
  obtain ⟨st, s', h1, h2, h3⟩ := h
  refine ⟨st, s', ?_, ⟨fun v hv hv' => ?_, ?_, h2.fails, h2.tick⟩, ?_⟩
  · rw [bind_ok (show decl sp k s = .ok ((), _) from rfl)]; exact h1
  · rw [h2.frame v hv hv']; dsimp only; rw [if_neg (by omega)]
  · have := h2.live
    dsimp only at this
    rwa [if_neg (by omega)] at this
  · exact h3

theorem mulComba_run {w sp r x y n : Nat} {s : St} {mr mx my : Mpi} (hr : HoldsC mr n (s.obj r)) (hx : (s.obj x).Reads mx)
    (hy : (s.obj y).Reads my) (hrs : r < sp) (hxs : x < sp) (hys : y < sp)
    (hn : n ≤ mx.digs.length + my.digs.length ∨ ¬ (r = x ∨ r = y)) :
    Leaf sp s r (mulComba w sp r x y)
      (HoldsC (Mpi.mulComba w (if r = x ∨ r = y then false else mr.neg) mx my) n) (HoldsC mr n) := by
  unfold mulComba
  apply decl_leaf hrs
  generalize hs0 : ({ s with obj := fun p => if sp ≤ p ∧ p < sp + 1 then Obj.fresh else s.obj p } : St) = s0
  have ho : ∀ v, v < sp → s0.obj v = s.obj v := fun v hv => by rw [← hs0]; dsimp only; rw [if_neg (by omega)]
  have hf : (s0.obj sp).owns = 0 := by rw [← hs0]; dsimp only; rw [if_pos (by omega)]; rfl
  rw [← ho r hrs] at hr
  rw [← ho x hxs] at hx
  rw [← ho y hys] at hy
  obtain ⟨ax, x1, x2⟩ := id hx
  obtain ⟨ay, y1, y2⟩ := id hy
  apply Leaf.congr (c' := if mx.digs.length = 0 ∨ my.digs.length = 0 then (do zero r; pure 0) else
    chk (if r = x ∨ r = y then initSize sp (mx.digs.length + my.digs.length) else grow r (mx.digs.length + my.digs.length)) do
      setUsedZ (if r = x ∨ r = y then sp else r) (mx.digs.length + my.digs.length)
      combaLoop w (if r = x ∨ r = y then sp else r) x y mx.digs.length my.digs.length (mx.digs.length + my.digs.length) 0 0 0
      if r ≠ (if r = x ∨ r = y then sp else r) then
        swap r (if r = x ∨ r = y then sp else r)
        clear (if r = x ∨ r = y then sp else r)
      adjust r
      pure 0)
  rotate_left
  · rw [bind_ok (hdr_ok x1), bind_ok (hdr_ok y1)]
  unfold Mpi.mulComba
  by_cases h0 : mx.digs.length = 0 ∨ my.digs.length = 0
  · have h0' : mx.digs = [] ∨ my.digs = [] := by rw [← List.length_eq_zero_iff, ← List.length_eq_zero_iff]; exact h0
    rw [if_pos h0, if_pos h0']
    exact zero_leaf hr _
  · have h0' : ¬ (mx.digs = [] ∨ my.digs = []) := by rw [← List.length_eq_zero_iff, ← List.length_eq_zero_iff]; exact h0
    rw [if_neg h0, if_neg h0']
    have hlen : (Mpi.combaDigs w mx.digs my.digs).length = mx.digs.length + my.digs.length := by
      unfold Mpi.combaDigs
      have : ∀ (l : List Nat) (st : (Nat × Nat) × List Nat), (l.foldl (Mpi.combaStep w mx.digs my.digs) st).2.length = st.2.length + l.length := by
        intro l
        induction l with
        | nil => intro st; rfl
        | cons a l ih => intro st; rw [List.foldl_cons, ih]; simp [Mpi.combaStep]; omega
      rw [this]; simp
    refine comba_frame (fill := fun d => combaLoop w d x y mx.digs.length my.digs.length (mx.digs.length + my.digs.length) 0 0 0)
      hr hrs hf hn hlen (by omega) ?_
    intro s1 h f1 h1 hcap
    have hxd : x ≠ (if r = x ∨ r = y then sp else r) := by split_ifs <;> omega
    have hyd : y ≠ (if r = x ∨ r = y then sp else r) := by split_ifs <;> omega
    obtain ⟨L, l1, l2, l3⟩ := combaLoop_ok (w := w) hxd hyd (xs := mx.digs) (ys := my.digs) (by omega) (by omega)
      (mx.digs.length + my.digs.length) 0 0 0 s1 (seg_of_obj hx.seg (f1 x hxs hxd)) (seg_of_obj hy.seg (f1 y hys hyd)) h1
      (by omega) (by omega)
    rw [l3]
    have := l2 []
    rw [← List.range_eq_range', List.nil_append] at this
    unfold Mpi.combaDigs
    rw [this]

end Verif.Mem
