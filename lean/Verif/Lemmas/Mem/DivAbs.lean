import Verif.Lemmas.Mem.Div
/-! `cry_mpi_div_abs` with its allocations. -/
namespace Verif.Mem
open Verif.Mpi (Mpi Norm WF val Rep)

variable {w : Nat}

/-- Arguments as in `A`, `i` initialised locals, nothing to free in the others. -/
def Lc (sp : Nat) (A : Env) (i : Nat) : Env := fun v => if v < sp then A v else if v < sp + i then Cl else (fun o => o.owns = 0)

theorem Lc.lo {sp i v : Nat} {A : Env} (h : v < sp) : Lc sp A i v = A v := if_pos h
theorem Lc.mid {sp i v : Nat} {A : Env} (h : sp ≤ v) (h' : v < sp + i) : Lc sp A i v = Cl := by
  unfold Lc; rw [if_neg (by omega), if_pos h']
theorem Lc.hi {sp i v : Nat} {A : Env} (h : sp + i ≤ v) : Lc sp A i v = fun o => o.owns = 0 := by
  unfold Lc; rw [if_neg (by omega), if_neg (by omega)]

theorem Lc.le_succ {sp i S : Nat} {A E : Env} {P : Obj → Prop} (h : Le S E (Lc sp A i)) (hP : ∀ o, P o → Cl o) :
    Le S (Function.update E (sp + i) P) (Lc sp A (i + 1)) := by
  intro v hv o ho
  by_cases h' : v = sp + i
  · subst h'; rw [Function.update_self] at ho; rw [Lc.mid (by omega) (by omega)]; exact hP _ ho
  · rw [Function.update_of_ne h'] at ho
    have := h v hv o ho
    unfold Lc at *
    split_ifs at * <;> first | exact this | omega

theorem Lc.le_clear {sp i S : Nat} {A : Env} :
    Le S (Function.update (Lc sp A (i + 1)) (sp + i) (· = Obj.cleared)) (Lc sp A i) := by
  intro v hv o ho
  by_cases h' : v = sp + i
  · subst h'; rw [Function.update_self] at ho; rw [Lc.hi (by omega), ho]; rfl
  · rw [Function.update_of_ne h'] at ho
    unfold Lc at *
    split_ifs at * <;> first | exact ho | omega

/-- A block between the initialisation of a local and `cry_mpi_clear`. -/
theorem block_res {K : Ctx} {E G B : Env} {sp i S : Nat} {s : St} {ini body : M Int} {P : Obj → Prop} (h : At K E S s) (hi : sp + i < S)
    (hE : Le S E (Lc sp B i)) (hini : (s.obj (sp + i)).owns = 0 → Leaf S s (sp + i) ini P Null) (hP : ∀ o, P o → Cl o)
    (hb : ∀ s', At K (Function.update E (sp + i) P) S s' → Le S (Function.update E (sp + i) P) (Lc sp B (i + 1)) →
      WP body (Res K S (Lc sp G (i + 1)) (Lc sp B (i + 1))) s') :
    WP (chk ini (do let st ← body; clear (sp + i); pure st)) (Res K S (Lc sp G i) (Lc sp B i)) s := by
  have ho : (s.obj (sp + i)).owns = 0 := by
    have := hE _ hi _ (h.objs _ hi)
    rwa [Lc.hi (by omega)] at this
  refine chk_res (leaf_at h hi (hini ho)) ?_ fun s' h' => ?_
  · exact Le.update hE fun o ho => by rw [Lc.hi (by omega)]; exact ho.owns
  · have hc : ∀ (A : Env) (o : Obj), Lc sp A (i + 1) (sp + i) o → Null o ∨ ∃ m, o.Holds m := fun A o ho => by
      rw [Lc.mid (by omega) (by omega)] at ho; exact ho
    exact (fin_clear (hb s' h' (Lc.le_succ hE hP)) hi (hc G) (hc B)).mono fun st s'' h'' => h''.le Lc.le_clear Lc.le_clear

theorem initCopy_leaf {S d a : Nat} {s : St} {z : Int} (hw : 0 < w) (hd : a ≠ d) (hdS : a < S) (ho : (s.obj d).owns = 0)
    (ha : (s.obj a).Shows w z) : Leaf S s d (initCopy d a) (V w z 0) Null := by
  obtain ⟨st, s1, e1, t1, h1⟩ := init_run (sp := S) (w := w) hw ho
  unfold initCopy
  rcases h1 with ⟨rfl, h1⟩ | ⟨rfl, hf, h1⟩
  · have ha1 : (s1.obj a).Shows w z := by rw [t1.frame a hdS hd]; exact ha
    obtain ⟨st, s2, e2, t2, h2⟩ := copy_leaf (sp := S) h1 ha1
    rcases h2 with ⟨rfl, h2⟩ | ⟨rfl, hf, h2⟩
    · exact ⟨0, s2, by rw [chk_ok e1, bind_ok e2, if_neg (by decide)]; rfl, t1.trans t2, Or.inl ⟨rfl, h2.weak (Nat.zero_le _)⟩⟩
    · obtain ⟨s3, e3, t3, h3⟩ := clear_run (sp := S) h2.clr
      refine ⟨-1, s3, by rw [chk_ok e1, bind_ok e2, if_pos (by decide), bind_ok e3]; rfl, (t1.trans t2).trans t3, Or.inr ⟨rfl, ?_, by rw [h3]; exact null_cleared⟩⟩
      obtain ⟨k, k1, k2, k3⟩ := hf
      exact ⟨k, t1.tick.trans k1, lt_of_lt_of_le k2 t3.tick, by rw [← t1.fails]; exact k3⟩
  · exact ⟨-1, s1, chk_fail e1 (by decide), t1, Or.inr ⟨rfl, hf, h1⟩⟩

/-- A quotient with room for one more digit. -/
def QO (w n : Nat) (z : Int) (o : Obj) : Prop :=
  ∃ m, WF (2 ^ w) m ∧ m.toInt (2 ^ w) = z ∧ HoldsC m n o ∧ (z ≠ 0 → m.digs.length + 1 ≤ o.cells.length)

theorem updO_le {S : Nat} {E : Env} {r : Option Nat} {P P' : Obj → Prop} (h : ∀ o, P o → P' o) : Le S (updO E r P) (updO E r P') := by
  cases r with
  | none => exact Le.refl _ _
  | some v => exact Le.both (Le.refl _ _) h

theorem updO_mono {S : Nat} {E E' : Env} {r : Option Nat} {P : Obj → Prop} (h : Le S E E') : Le S (updO E r P) (updO E' r P) := by
  cases r with
  | none => exact h
  | some v => exact Le.both h fun _ h => h

theorem updO_in {S : Nat} {s : St} {E : Env} {r : Option Nat} {P : Obj → Prop} (h : Le S (Now s) E) (hr : ∀ v, r = some v → P (s.obj v)) :
    Le S (Now s) (updO E r P) := by
  cases r with
  | none => exact h
  | some v =>
    intro u hu o ho
    show Function.update E v P u o
    by_cases huv : u = v
    · subst huv; rw [Function.update_self]
      rw [show o = s.obj u from ho]; exact hr u rfl
    · rw [Function.update_of_ne huv]; exact h u hu o ho

theorem five_env {E : Env} {b : Nat} {P0 P1 P2 P3 P4 : CP} :
    Le (b + 5) (Function.update (Function.update (Function.update (Function.update (Function.update E b P0.p) (b + 1) P1.p) (b + 2) P2.p) (b + 3) P3.p) (b + 4) P4.p)
      (D5 E b P0 P1 P2 P3 P4) := by
  intro v hv o ho
  simp only [Function.update_apply] at ho
  unfold D5
  split_ifs at * <;> first | exact ho | omega

theorem setUsedZ_run {S v k : Nat} {s : St} (h : V w 0 k (s.obj v)) :
    ∃ s', setUsedZ v k s = .ok ((), s') ∧ Step S s s' v ∧ HoldsC ⟨false, List.replicate k 0⟩ k (s'.obj v) := by
  have hh := holds_zero_of_v h
  have hl : (over (s.obj v).cells 0 (List.replicate k 0)).length = (s.obj v).cells.length := over_length (by have := hh.2; simp; omega)
  refine ⟨_, setUsedZ_ok hh.1.1 hh.2, Step.upd _ _ _ _ _, ?_⟩
  rw [upd_obj_same]
  exact ⟨holds_len_upd (m' := ⟨false, List.replicate k 0⟩) hh.1 hl over_seg0 (by simp), by rw [cells_upd hl, hl]; exact hh.2⟩

theorem out_env {S sp : Nat} {s : St} {rq rr : Option Nat} {P P' Q Q' : Obj → Prop} (hP : ∀ o, P o → P' o) (hQ : ∀ o, Q o → Q' o)
    (hq : ∀ v, rq = some v → v < sp) (hr : ∀ v, rr = some v → v < sp) (hne : ∀ v, rq = some v → rr ≠ some v) :
    Le S (updO (updO (Locals sp (Now s) (· = Obj.fresh)) rr P) rq Q) (Lc sp (updO (updO (Now s) rq Q') rr P') 0) := by
  have base : ∀ v o, Locals sp (Now s) (· = Obj.fresh) v o → Lc sp (Now s) 0 v o := by
    intro v o ho
    by_cases h : v < sp
    · rw [Locals.lo h] at ho; rw [Lc.lo h]; exact ho
    · rw [Locals.hi (by omega)] at ho; rw [Lc.hi (by omega), ho]; rfl
  have lc : ∀ {A : Env} {v : Nat} {o : Obj}, Lc sp (Now s) 0 v o → (v < sp → A v o) → Lc sp A 0 v o := by
    intro A v o ho hA
    by_cases h : v < sp
    · rw [Lc.lo h]; exact hA h
    · rw [Lc.hi (by omega)] at ho ⊢; exact ho
  have lo : ∀ {v : Nat} {o : Obj}, v < sp → Locals sp (Now s) (· = Obj.fresh) v o → Now s v o := fun h ho => by rwa [Locals.lo h] at ho
  intro v _ o ho
  cases rq with
  | none =>
    cases rr with
    | none => exact base v o ho
    | some r =>
      have hr := hr r rfl
      simp only [updO, Function.update_apply] at ho
      by_cases h1 : v = r
      · rw [if_pos h1] at ho
        rw [h1, Lc.lo hr]; simp only [updO, Function.update_self]; exact hP _ ho
      · rw [if_neg h1] at ho
        exact lc (base v o ho) fun h => by simp only [updO, Function.update_apply]; rw [if_neg h1]; exact lo h ho
  | some q =>
    have hq := hq q rfl
    simp only [updO, Function.update_apply] at ho
    by_cases h2 : v = q
    · rw [if_pos h2] at ho
      rw [h2, Lc.lo hq]
      cases rr with
      | none => simp only [updO, Function.update_self]; exact hQ _ ho
      | some r =>
        have : q ≠ r := fun e => hne q rfl (by rw [e])
        simp only [updO, Function.update_apply]; rw [if_neg this]; simp only [if_true]; exact hQ _ ho
    · rw [if_neg h2] at ho
      cases rr with
      | none => exact lc (base v o ho) fun h => by simp only [updO, Function.update_apply]; rw [if_neg h2]; exact lo h ho
      | some r =>
        have hr := hr r rfl
        simp only [updO, Function.update_apply] at ho
        by_cases h1 : v = r
        · rw [if_pos h1] at ho
          rw [h1, Lc.lo hr]; simp only [updO, Function.update_self]; exact hP _ ho
        · rw [if_neg h1] at ho
          exact lc (base v o ho) fun h => by simp only [updO, Function.update_apply]; rw [if_neg h1, if_neg h2]; exact lo h ho

theorem d5_lc {E A : Env} {b S : Nat} {P0 P1 P2 P3 P4 : CP} (h : ∀ v, v < b → ∀ o, E v o → A v o) (hS : S = b + 5) :
    Le S (D5 E b P0 P1 P2 P3 P4) (Lc b A 5) := by
  subst hS
  refine (D5.bd).trans ?_
  intro v hv o ho
  by_cases hb : v < b
  · unfold Bd at ho; rw [D5.lo hb] at ho; rw [Lc.lo hb]; exact h v hb o ho
  · rw [Lc.mid (by omega) (by omega)]
    unfold Bd D5 at ho
    split_ifs at ho <;> first | exact ho | omega

theorem zero_run {S v n : Nat} {s : St} {z : Int} (h : V w z n (s.obj v)) :
    ∃ s', zero v s = .ok ((), s') ∧ Step S s s' v ∧ V w 0 n (s'.obj v) := by
  obtain ⟨m, -, -, h3⟩ := h
  refine ⟨_, zero_ok h3.1.1, Step.upd _ _ _ _ _, ⟨false, []⟩, ⟨Mpi.norm_zero _ _, fun _ => rfl⟩, rfl, ?_⟩
  rw [upd_obj_same]
  exact ⟨holds_upd (m' := ⟨false, []⟩) h3.1 rfl List.nil_prefix, by rw [cells_upd rfl]; exact h3.2⟩

section
variable {sp a b n : Nat} {s : St} {za zb : Int} {rq rr : Option Nat}

/-- The outcome of `cry_mpi_div_abs` for a divisor that is not zero. -/
theorem divAbs_res (hw : Mpi.DigitWidth w) (ha : (s.obj a).Shows w za) (hb : (s.obj b).Shows w zb) (has : a < sp) (hbs : b < sp) (hb0 : zb ≠ 0)
    (hn : n ≤ 2) (hq : ∀ v, rq = some v → v < sp ∧ ∃ z, V w z n (s.obj v)) (hr : ∀ v, rr = some v → v < sp ∧ Any w (s.obj v))
    (hne : ∀ v, rq = some v → rr ≠ some v) :
    WP (divAbs w sp rq rr a b)
      (Res (ctxOf sp s) sp (updO (updO (Now s) rq (QO w n (|za| / |zb|))) rr (V w (if |za| < |zb| then za else |za| % |zb|) 0))
        (updO (updO (Now s) rq (Any w)) rr (Any w))) s := by
  have hw8 := hw.pos
  have hw0 : 0 < w := by omega
  set GE := updO (updO (Now s) rq (QO w n (|za| / |zb|))) rr (V w (if |za| < |zb| then za else |za| % |zb|) 0) with hGE
  set BE := updO (updO (Now s) rq (Any w)) rr (Any w) with hBE
  unfold divAbs
  refine WP.bind ((decl_at (at_now sp s) 5).mono fun _ s1 h => ?_)
  have hobj : ∀ v, v < sp → s1.obj v = s.obj v := fun v hv => by
    have := h.objs v (by omega); rw [Locals.lo hv] at this; exact this
  have ha1 : (s1.obj a).Shows w za := by rw [hobj a has]; exact ha
  have hb1 : (s1.obj b).Shows w zb := by rw [hobj b hbs]; exact hb
  obtain ⟨ma, a1, a2, a3⟩ := id ha1
  obtain ⟨mb, b1, b2, b3⟩ := id hb1
  have hbd : mb.digs.length ≠ 0 := fun h0 => hb0 (by
    rw [← b2, Mpi.toInt_eq_zero_iff (Nat.two_pow_pos w) b1.toNorm]; exact List.eq_nil_of_length_eq_zero h0)
  obtain ⟨aa, a4, a5⟩ := id a3
  obtain ⟨ab, b4, b5⟩ := id b3
  have hB0' : Le sp (Now s) BE := by
    rw [hBE]
    exact updO_in (updO_in (Le.refl _ _) fun v hv => by obtain ⟨z, hz⟩ := (hq v hv).2; exact hz.any) fun v hv => (hr v hv).2
  have hstart : Le (sp + 5) (Locals sp (Now s) (· = Obj.fresh)) (Lc sp BE 0) := by
    intro v _ o ho
    by_cases h : v < sp
    · rw [Locals.lo h] at ho
      rw [Lc.lo h]; exact hB0' v h o ho
    · rw [Locals.hi (by omega)] at ho
      rw [Lc.hi (by omega), ho]; rfl
  have key : WP (do
      if (← hdr b).used = 0 then pure (-1)
      else if (← cmpAbs a b) < 0 then
        let res ← (match rr with
          | some v => copy v a
          | none => pure 0)
        match rq with
        | some v => zero v
        | none => pure ()
        pure res
      else
        let ha ← hdr a
        within sp (ha.used + 2) do
          setUsedZ sp (ha.used + 2)
          within (sp + 1) 2 <| within (sp + 2) 3 <| withinCopy (sp + 3) a <| withinCopy (sp + 4) b
            (divWork w (sp + 5) sp (sp + 1) (sp + 2) (sp + 3) (sp + 4) rq rr))
      (Res (ctxOf sp s) (sp + 5) (Lc sp GE 0) (Lc sp BE 0)) s1 := by
    refine WP.bind_run (hdr_ok b4) ?_
    dsimp only
    rw [if_neg hbd]
    refine WP.bind_run (cmpAbs_eval ha1 hb1) ?_
    by_cases hlt : |za| < |zb|
    · rw [if_pos hlt, if_pos (by decide)]
      have hz0 : |za| / |zb| = 0 := Int.ediv_eq_zero_of_lt (abs_nonneg _) hlt
      -- the copy of the dividend
      have hcopy : WP (match rr with
          | some v => copy v a
          | none => pure 0) (fun st s' => (st = 0 ∧ At (ctxOf sp s) (updO (Locals sp (Now s) (· = Obj.fresh)) rr (V w za 0)) (sp + 5) s') ∨
            (st = -1 ∧ Bad (ctxOf sp s) s' ∧ At (ctxOf sp s) (updO (Locals sp (Now s) (· = Obj.fresh)) rr (Any w)) (sp + 5) s')) s1 := by
        cases hrr : rr with
        | none => exact WP.pure (Or.inl ⟨rfl, h⟩)
        | some v =>
          obtain ⟨r1, z, r2⟩ := hr v hrr
          have := leaf_at h (show v < sp + 5 by omega) (copy_leaf (zd := z) (n := 0) (by rw [hobj v r1]; exact r2) ha1)
          refine this.mono fun st s' h' => ?_
          rcases h' with ⟨e, h'⟩ | ⟨e, f, h'⟩
          · exact Or.inl ⟨e, h'⟩
          · exact Or.inr ⟨e, f, h'.le (updO_le (r := some v) fun o ho => ho.any)⟩
      refine WP.bind (hcopy.mono fun st s2 h2 => ?_)
      have fin : ∀ {P : Obj → Prop}, At (ctxOf sp s) (updO (Locals sp (Now s) (· = Obj.fresh)) rr P) (sp + 5) s2 →
          WP (do
            match rq with
            | some v => zero v
            | none => pure ()
            pure st) (fun st' s' => st' = st ∧ s2.tick ≤ s'.tick ∧
              At (ctxOf sp s) (updO (updO (Locals sp (Now s) (· = Obj.fresh)) rr P) rq (V w 0 n)) (sp + 5) s') s2 := by
        intro P h2
        cases hrq : rq with
        | none => exact WP.pure ⟨rfl, Nat.le_refl _, h2⟩
        | some u =>
          obtain ⟨q1, z, q2⟩ := hq u hrq
          have hu : s2.obj u = s.obj u := by
            have := h2.objs u (by omega)
            cases hrr : rr with
            | none => rw [hrr] at this; simp only [updO] at this; rw [Locals.lo q1] at this; exact this
            | some v =>
              have hne' : u ≠ v := fun e => hne u hrq (by rw [hrr, e])
              rw [hrr] at this
              simp only [updO, Function.update_apply] at this
              rw [if_neg hne', Locals.lo q1] at this; exact this
          obtain ⟨s3, e3, t3, h3⟩ := zero_run (S := sp + 5) (s := s2) (by rw [hu]; exact q2)
          exact WP.bind_run e3 (WP.pure ⟨rfl, t3.tick, step_at h2 (by omega) t3 h3⟩)
      rcases h2 with ⟨e, h2⟩ | ⟨e, f, h2⟩
      · refine (fin h2).mono fun st' s' h' => Or.inl ⟨h'.1.trans e, h'.2.2.le ?_⟩
        rw [hGE, if_pos hlt, hz0]
        exact out_env (fun _ h => h) (fun o ⟨m, m1, m2, m3⟩ => ⟨m, m1, m2, m3, fun h => absurd rfl h⟩) (fun v hv => (hq v hv).1)
          (fun v hv => (hr v hv).1) hne
      · refine (fin h2).mono fun st' s' h' => Or.inr ⟨h'.1.trans e, f.mono h'.2.1, h'.2.2.le ?_⟩
        rw [hBE]
        exact out_env (fun _ h => h) (fun o h => h.any) (fun v hv => (hq v hv).1) (fun v hv => (hr v hv).1) hne
    · rw [if_neg hlt, if_neg (by split_ifs <;> decide)]
      refine WP.bind_run (hdr_ok a4) ?_
      dsimp only
      set len := ma.digs.length with hlen
      set L := Locals sp (Now s) (· = Obj.fresh) with hL
      have e0 : Le (sp + 5) (Function.update L (sp + 0) (HD (List.replicate (len + 2) 0) (len + 2)).p) (Lc sp BE 1) := Lc.le_succ hstart (HD _ _).cl
      refine block_res (i := 0) h (by omega) hstart (fun ho => initSize_run (w := w) hw0 ho) (fun o ho => ho.clr) fun s2 h _ => ?_
      have hv0 : V w 0 (len + 2) (s2.obj sp) := by
        have := h.objs sp (by omega); rw [Nat.add_zero, Function.update_self] at this; exact this
      obtain ⟨s3, e3, t3, h3⟩ := setUsedZ_run (S := sp + 5) hv0
      refine WP.bind_run e3 ?_
      have h := step_at (P := (HD (List.replicate (len + 2) 0) (len + 2)).p) h (show sp < sp + 5 by omega) t3 h3
      rw [Nat.add_zero, Function.update_idem] at h
      rw [Nat.add_zero] at e0
      have e1 : Le (sp + 5) (Function.update (Function.update L sp (HD (List.replicate (len + 2) 0) (len + 2)).p) (sp + 1) (VC w 0 2).p)
        (Lc sp BE 2) := Lc.le_succ e0 (VC w 0 2).cl
      refine block_res (i := 1) h (by omega) e0 (fun ho => initSize_run (w := w) hw0 ho) (fun o ho => ho.clr) fun s4 h _ => ?_
      refine block_res (i := 2) h (by omega) e1 (fun ho => initSize_run (w := w) hw0 ho) (fun o ho => ho.clr) fun s5 h e2 => ?_
      have hsh : ∀ {E : Env} {s' : St} {v : Nat} {z : Int} , v < sp → (s.obj v).Shows w z → (∀ o, E v o → o = s.obj v) → At (ctxOf sp s) E (sp + 5) s' →
          (s'.obj v).Shows w z := fun hv hs hE h => by rw [hE _ (h.objs _ (by omega))]; exact hs
      have hL1 : ∀ v, v < sp → ∀ o, L v o → o = s.obj v := fun v hv o ho => by rw [hL, Locals.lo hv] at ho; exact ho
      refine block_res (i := 3) h (by omega) e2 (fun ho => initCopy_leaf hw0 (by omega) (by omega) ho (hsh has ha (fun o ho => ?_) h))
        (fun o ho => ho.clr) fun s6 h e3 => ?_
      · rw [Function.update_of_ne (by omega), Function.update_of_ne (by omega), Function.update_of_ne (by omega)] at ho
        exact hL1 a has o ho
      refine block_res (i := 4) h (by omega) e3 (fun ho => initCopy_leaf hw0 (by omega) (by omega) ho (hsh hbs hb (fun o ho => ?_) h))
        (fun o ho => ho.clr) fun s7 h e4 => ?_
      · rw [Function.update_of_ne (by omega), Function.update_of_ne (by omega), Function.update_of_ne (by omega),
          Function.update_of_ne (by omega)] at ho
        exact hL1 b hbs o ho
      have h := h.le (five_env (P0 := HD _ _) (P1 := VC w 0 2) (P2 := VC w 0 3) (P3 := VC w za 0) (P4 := VC w zb 0))
      have hva : val (2 ^ w) ma.digs = za.natAbs := by rw [← Mpi.natAbs_toInt, a2]
      have hlenA : za.natAbs < (2 ^ w) ^ len := by rw [← hva]; exact Mpi.val_lt a1.digits
      have hB0 : 0 < zb.natAbs := Int.natAbs_pos.2 hb0
      have hBA : zb.natAbs ≤ za.natAbs := by rw [Int.abs_eq_natAbs, Int.abs_eq_natAbs] at hlt; omega
      have hcl : ∀ {v : Nat}, Cl (s.obj v) → v < sp → ∀ o, L v o → Cl o := fun hc hv o ho => by rw [hL1 _ hv o ho]; exact hc
      have := divWork_res hw (Nat.le_refl (sp + 5)) (rq := rq) (rr := rr) (A := za.natAbs) (B := zb.natAbs) (Int.abs_eq_natAbs za) (Int.abs_eq_natAbs zb)
        hB0 hBA hlenA (fun v hv => ⟨(hq v hv).1, hcl (by obtain ⟨z, hz⟩ := (hq v hv).2; exact hz.clr) (hq v hv).1⟩)
        (fun v hv => ⟨(hr v hv).1, hcl (hr v hv).2.clr (hr v hv).1⟩) h
      refine this.mono fun st s8 h8 => h8.le (d5_lc (fun v hv => ?_) rfl) (d5_lc (fun v hv o ho => ?_) rfl)
      · rw [hGE, if_neg hlt]
        have hLN : Le sp L (Now s) := fun v hv o ho => hL1 v hv o ho
        have hdv : |za| / |zb| = ((za.natAbs / zb.natAbs : Nat) : Int) := by rw [Int.abs_eq_natAbs, Int.abs_eq_natAbs]; rfl
        have hmd : |za| % |zb| = ((za.natAbs % zb.natAbs : Nat) : Int) := by rw [Int.abs_eq_natAbs, Int.abs_eq_natAbs]; rfl
        rw [hdv, hmd]
        have t1 := updO_mono (r := rr) (P := V w ((za.natAbs % zb.natAbs : Nat) : Int) 0)
          ((updO_mono (r := rq) (P := V w ((za.natAbs / zb.natAbs : Nat) : Int) (len + 2)) hLN).trans
            (updO_le (P' := QO w n ((za.natAbs / zb.natAbs : Nat) : Int)) fun o ho => ?_))
        · exact t1 v hv
        · obtain ⟨m, m1, m2, m3⟩ := ho
          refine ⟨m, m1, m2, ⟨m3.1, by have := m3.2; omega⟩, fun _ => ?_⟩
          have hmv : val (2 ^ w) m.digs = za.natAbs / zb.natAbs := by rw [← Mpi.natAbs_toInt, m2]; rfl
          have := Mpi.length_le_of_lt (two_lt hw0) m1.toNorm (lt_of_le_of_lt (by rw [hmv]; exact Nat.div_le_self _ _) hlenA)
          have := m3.2
          omega
      · have := hL1 v hv o ho
        exact hB0' v hv o this
  exact key.mono fun st s2 h2 => exit_res h2 (fun v hv o ho => by rwa [Lc.lo hv] at ho) (fun v hv o ho => by rwa [Lc.lo hv] at ho)
    (fun v hv hv' o ho => by rwa [Lc.hi (by omega)] at ho) (fun v hv hv' o ho => by rwa [Lc.hi (by omega)] at ho)
end

/-! ### The signed division -/

/-- Every outcome reports success. -/
def EndsZero (c : M Int) : Prop := ∀ s st s', c s = .ok (st, s') → st = 0

theorem EndsZero.pure : EndsZero (pure 0) := fun _ _ _ h => by cases h; rfl
theorem bind_inv {α β : Type} {c : M α} {f : α → M β} {s : St} {r : β × St} (e : (c >>= f) s = .ok r) :
    ∃ a s1, c s = .ok (a, s1) ∧ f a s1 = .ok r := by
  change (match c s with | .ok (a, s1) => f a s1 | .ub => .ub | .hang => .hang) = _ at e
  split at e
  · rename_i e1; exact ⟨_, _, e1, e⟩
  · cases e
  · cases e

theorem EndsZero.bind {α : Type} {c : M α} {f : α → M Int} (h : ∀ a, EndsZero (f a)) : EndsZero (c >>= f) := by
  intro s st s' e
  change (match c s with | .ok (a, s1) => f a s1 | .ub => .ub | .hang => .hang) = _ at e
  split at e
  · exact h _ _ _ _ e
  · cases e
  · cases e

theorem addAbs_room {B r x y : Nat} {s s' : St} {mr mx my : Mpi} {st : Int} (hr : (s.obj r).Holds mr) (hx : (s.obj x).Reads mx) (hy : (s.obj y).Reads my)
    (h1 : mx.digs.length + 1 ≤ (s.obj r).cells.length) (h2 : my.digs.length + 1 ≤ (s.obj r).cells.length)
    (e : addAbs B r x y s = .ok (st, s')) : st = 0 := by
  obtain ⟨ax, hx1, -⟩ := hx
  obtain ⟨ay, hy1, -⟩ := hy
  have ord : ∀ {u v : Nat} {mu mv : Mpi} {au av : Nat}, (s.obj u).hdr = some ⟨mu.neg, mu.digs.length, au⟩ → (s.obj v).hdr = some ⟨mv.neg, mv.digs.length, av⟩ →
      mu.digs.length + 1 ≤ (s.obj r).cells.length → addAbsOrd B r u v s = .ok (st, s') → st = 0 := by
    intro u v mu mv au av hu hv hl e
    unfold addAbsOrd at e
    rw [bind_ok (hdr_ok hu), bind_ok (hdr_ok hv), bind_ok (hdr_ok hr.1)] at e
    dsimp only at e
    rw [if_neg (by omega), chk_ok (show (pure 0 : M Int) s = .ok (0, s) from rfl)] at e
    exact (EndsZero.bind fun _ => EndsZero.bind fun _ => EndsZero.bind fun _ => EndsZero.pure) _ _ _ e
  unfold addAbs at e
  rw [bind_ok (hdr_ok hx1), bind_ok (hdr_ok hy1)] at e
  split_ifs at e
  · exact ord hy1 hx1 h2 e
  · exact ord hx1 hy1 h1 e

theorem sub_room {B r x y : Nat} {s s' : St} {mr mx my : Mpi} {st : Int} (hr : (s.obj r).Holds mr) (hx : (s.obj x).Reads mx) (hy : (s.obj y).Reads my)
    (hs : mx.neg ≠ my.neg) (h1 : mx.digs.length + 1 ≤ (s.obj r).cells.length) (h2 : my.digs.length + 1 ≤ (s.obj r).cells.length)
    (e : sub B r x y s = .ok (st, s')) : st = 0 := by
  obtain ⟨st1, s1, e1, -, -⟩ := addAbs_run (sp := 0) (b := B) (n := 0) ⟨hr, Nat.zero_le _⟩ hx hy
  have h0 := addAbs_room hr hx hy h1 h2 e1
  obtain ⟨ax, hx1, -⟩ := hx
  obtain ⟨ay, hy1, -⟩ := hy
  unfold sub at e
  rw [bind_ok (hdr_ok hx1), bind_ok (hdr_ok hy1), if_pos hs] at e
  unfold signed at e
  rw [bind_ok e1, h0, if_pos rfl] at e
  exact (EndsZero.bind fun _ => EndsZero.pure) _ _ _ e

theorem sub_one {sp q : Nat} {s : St} {Q : Nat} {m : Mpi} (hw : 0 < w) (h1 : Norm (2 ^ w) m) (hv : val (2 ^ w) m.digs = Q) (h2 : HoldsC m 2 (s.obj q))
    (hroom : Q ≠ 0 → m.digs.length + 1 ≤ (s.obj q).cells.length) (hqs : q < sp) :
    ∃ s' s1, setObj sp ⟨some ⟨false, 1, 1⟩, .mem false [some 1]⟩ s = .ok ((), s1) ∧
      (do setSign q true; sub (2 ^ w) q q sp : M Int) s1 = .ok (0, s') ∧ Step sp s s' q ∧ V w (-(Q : Int) - 1) 0 (s'.obj q) := by
  obtain ⟨s1, e1⟩ : ∃ s1, s1 = s.set sp ⟨some ⟨false, 1, 1⟩, .mem false [some 1]⟩ := ⟨_, rfl⟩
  have hlo : ∀ v, v ≠ sp → s1.obj v = s.obj v := fun v hv => by rw [e1]; exact set_obj_ne _ _ hv
  have hsp : s1.obj sp = ⟨some ⟨false, 1, 1⟩, .mem false [some 1]⟩ := by rw [e1]; exact set_obj_same _ _ _
  have h2' : HoldsC m 2 (s1.obj q) := by rw [hlo q (by omega)]; exact h2
  obtain ⟨s2, e2, t2, h3⟩ := sign_run (S := sp + 1) (g := true) h2'
  have hone : (s2.obj sp).Reads ⟨false, [1]⟩ := by
    rw [t2.frame sp (by omega) (by omega), hsp]
    exact ⟨1, rfl, List.prefix_rfl⟩
  have hn : Norm (2 ^ w) ⟨true, m.digs⟩ := ⟨h1.digits, h1.top⟩
  have hn1 : Norm (2 ^ w) ⟨false, [1]⟩ := ⟨by simp; have := two_lt hw; omega, by unfold Mpi.TopNZ; simp⟩
  obtain ⟨m', e, hl⟩ := sub_run (sp := sp + 1) (two_lt hw) (n := 0) ⟨h3.1, Nat.zero_le _⟩ h3.1.reads hone hn hn1
  obtain ⟨m'', e', v, hn', -⟩ := Mpi.sub_norm (two_lt hw) hn hn1
  rw [e] at e'; cases e'
  obtain ⟨st, s3, e3, t3, hout⟩ := hl
  have hlen : ∀ o, (s2.obj q).cells.length = o → 2 ≤ o := fun o ho => by have := h3.2; omega
  have hc2 : (s2.obj q).cells.length = (s.obj q).cells.length := by
    have e : s2 = s1.upd q ⟨true, m.digs.length, (s1.obj q).cells.length⟩ (s1.obj q).cells := by
      have := setSign_ok h2'.1.1 true
      rw [e2] at this; cases this; rfl
    rw [e, upd_obj_same, cells_upd rfl, hlo q (by omega)]
  have hst : st = 0 := by
    refine sub_room h3.1 h3.1.reads hone (by simp) ?_ (by have := h3.2; simpa using this) e3
    by_cases hQ : Q = 0
    · rw [hQ, Mpi.val_eq_zero_iff (Nat.two_pow_pos w) h1.top] at hv
      dsimp only; rw [hv]
      have := h3.2
      simp; omega
    · rw [hc2]; exact hroom hQ
  subst hst
  refine ⟨s3, s1, by rw [e1]; rfl, by rw [bind_ok e2]; exact e3, ?_, ?_⟩
  · refine ⟨fun u hu hu' => ?_, ?_, ?_, ?_⟩
    · rw [t3.frame u (by omega) hu', t2.frame u (by omega) hu', hlo u (by omega)]
    · have b2 := t2.live
      have b3 := t3.live
      have l1 : s1.live = s.live := by rw [e1]; rfl
      rw [hlo q (by omega), l1] at b2
      omega
    · rw [t3.fails, t2.fails, e1]; rfl
    · have := t2.tick; have := t3.tick
      have : s1.tick = s.tick := by rw [e1]; rfl
      omega
  · rcases hout with ⟨-, h⟩ | ⟨h, -⟩
    · have hvi : m'.toInt (2 ^ w) = -(Q : Int) - 1 := by
        rw [v]
        have : (⟨true, m.digs⟩ : Mpi).toInt (2 ^ w) = -(Q : Int) := by unfold Mpi.Mpi.toInt; rw [if_pos rfl, hv]
        rw [this]
        have : (⟨false, [1]⟩ : Mpi).toInt (2 ^ w) = 1 := by rw [Mpi.toInt_false rfl]; simp [Mpi.val_cons, Mpi.val_nil]
        rw [this]
      refine ⟨m', ⟨hn', fun h0 => ?_⟩, hvi, h.1⟩
      rw [(Mpi.toInt_eq_zero_iff (Nat.two_pow_pos w) hn').2 h0] at hvi
      omega
    · omega

/-- The quotient is rounded away from zero and the remainder replaced by its complement. -/
def Adj (za zb : Int) : Prop := ¬ (za < 0 ↔ zb < 0) ∧ |za| % |zb| ≠ 0

instance (za zb : Int) : Decidable (Adj za zb) := by unfold Adj; infer_instance

section
variable {sp a b n vr : Nat} {s : St} {za zb : Int} {rq : Option Nat}

theorem div_res (hw : Mpi.DigitWidth w) (ha : (s.obj a).Shows w za) (hb : (s.obj b).Shows w zb) (has : a < sp) (hbs : b < sp) (hb0 : zb ≠ 0)
    (hn : n ≤ 2) (hq : ∀ v, rq = some v → v < sp ∧ ∃ z, V w z n (s.obj v)) (hrs : vr < sp) (hr : Any w (s.obj vr))
    (hne : rq ≠ some vr) (hadj : Adj za zb → n = 2 ∧ b ≠ vr ∧ rq ≠ some b) :
    WP (div w sp rq (some vr) a b)
      (Res (ctxOf sp s) sp (updO (updO (Now s) rq (V w (if Adj za zb then -(|za| / |zb|) - 1 else |za| / |zb|) 0)) (some vr)
          (V w (if Adj za zb then |zb| - |za| % |zb| else if |za| < |zb| then za else |za| % |zb|) 0))
        (updO (updO (Now s) rq (Any w)) (some vr) (Any w))) s := by
  have hw8 := hw.pos
  have hw0 : 0 < w := by omega
  obtain ⟨ma, a1, a2, aa, a4, a5⟩ := id ha
  obtain ⟨mb, b1, b2, ab, b4, b5⟩ := id hb
  have hga : (ma.neg = true ↔ za < 0) := by rw [Mpi.neg_iff_of_wf a1, a2]
  have hgb : (mb.neg = true ↔ zb < 0) := by rw [Mpi.neg_iff_of_wf b1, b2]
  have hx : (xor ma.neg mb.neg = true) ↔ ¬ (za < 0 ↔ zb < 0) := by
    rw [← hga, ← hgb]; cases ma.neg <;> cases mb.neg <;> simp
  have hbpos : 0 < |zb| := abs_pos.2 hb0
  have hmlt : |za| % |zb| < |zb| := Int.emod_lt_of_pos _ hbpos
  have hm0 : 0 ≤ |za| % |zb| := Int.emod_nonneg _ (by omega)
  have hlt : |za| < |zb| → |za| % |zb| = |za| := fun h => Int.emod_eq_of_lt (abs_nonneg _) h
  set zr := if |za| < |zb| then za else |za| % |zb| with hzr
  have hzra : |zr| = |za| % |zb| := by
    rw [hzr]; split_ifs with h
    · exact (hlt h).symm
    · exact abs_of_nonneg hm0
  unfold div
  refine WP.bind_run (hdr_ok a4) ?_
  refine WP.bind_run (hdr_ok b4) ?_
  dsimp only
  refine chk_res (divAbs_res hw ha hb has hbs hb0 hn hq (rr := some vr) (fun v hv => by cases hv; exact ⟨hrs, hr⟩)
    (fun v hv => by rw [← hv]; exact fun e => hne e.symm)) (Le.refl _ _) fun s1 h => ?_
  have hQV : ∀ (zq : Int) (o : Obj), QO w n zq o → V w zq 0 o := fun zq o ⟨m, m1, m2, m3, _⟩ => ⟨m, m1, m2, m3.1, Nat.zero_le _⟩
  have plain : ¬ Adj za zb → WP (pure 0) (Res (ctxOf sp s) sp (updO (updO (Now s) rq (V w (if Adj za zb then -(|za| / |zb|) - 1 else |za| / |zb|) 0)) (some vr)
          (V w (if Adj za zb then |zb| - |za| % |zb| else zr) 0)) (updO (updO (Now s) rq (Any w)) (some vr) (Any w))) s1 := fun hA => by
    rw [if_neg hA, if_neg hA]
    exact WP.pure (Or.inl ⟨rfl, h.le (updO_mono (updO_le fun o ho => hQV _ o ho))⟩)
  by_cases hxx : xor ma.neg mb.neg = true
  · rw [if_pos hxx]
    have hs1r : V w zr 0 (s1.obj vr) := by
      have := h.objs vr hrs; simp only [updO, Function.update_self] at this; exact this
    obtain ⟨mr, r1, r2, r3⟩ := id hs1r
    refine WP.bind_run (hdr_ok r3.1.1) ?_
    dsimp only
    by_cases hz : mr.digs.length ≠ 0
    · rw [if_pos hz]
      have hzr0 : |za| % |zb| ≠ 0 := fun h0 => hz (by
        rw [h0, abs_eq_zero] at hzra
        rw [hzra] at r2
        rw [(Mpi.toInt_eq_zero_iff (Nat.two_pow_pos w) r1.toNorm).1 r2]; rfl)
      have hA : Adj za zb := ⟨hx.1 hxx, hzr0⟩
      obtain ⟨rfl, hbr, hbq⟩ := hadj hA
      rw [if_pos hA, if_pos hA]
      have rest : ∀ s2, At (ctxOf sp s) (updO (updO (Now s) rq (V w (-(|za| / |zb|) - 1) 0)) (some vr) (V w zr 0)) sp s2 →
          WP (subAbs (2 ^ w) vr b vr) (Res (ctxOf sp s) sp (updO (updO (Now s) rq (V w (-(|za| / |zb|) - 1) 0)) (some vr)
            (V w (|zb| - |za| % |zb|) 0)) (updO (updO (Now s) rq (Any w)) (some vr) (Any w))) s2 := by
        intro s2 h2
        have hr2 : V w zr 0 (s2.obj vr) := by
          have := h2.objs vr hrs; simp only [updO, Function.update_self] at this; exact this
        have hb2 : (s2.obj b).Shows w zb := by
          have := h2.objs b hbs
          simp only [updO] at this
          rw [Function.update_of_ne hbr] at this
          have e : s2.obj b = s.obj b := by
            cases hrq : rq with
            | none => rw [hrq] at this; exact this
            | some u =>
              rw [hrq] at this
              simp only [updO] at this
              rwa [Function.update_of_ne (fun e => hbq (by rw [hrq, e]))] at this
          rw [e]; exact hb
        have := leaf_at h2 hrs (subAbs_leaf hw0 hr2 hb2 (V.shows hr2) (by rw [hzra]; omega))
        rw [hzra] at this
        refine this.mono fun st s3 h3 => h3.le ?_ ?_
        · simp only [updO, Function.update_idem]; exact Le.refl _ _
        · simp only [updO, Function.update_idem]
          exact (updO_le (r := some vr) fun o ho => V.any ho).trans (updO_mono (updO_le fun o ho => V.any ho))
      cases hrq : rq with
      | none =>
        rw [hrq] at h rest
        exact rest s1 h
      | some u =>
        have huv : u ≠ vr := fun e => hne (by rw [hrq, e])
        obtain ⟨hus, -⟩ := hq u hrq
        rw [hrq] at h rest
        have hu := h.objs u hus
        simp only [updO] at hu
        rw [Function.update_of_ne huv, Function.update_self] at hu
        obtain ⟨mq, q1, q2, q3, q4⟩ := hu
        have hqv : val (2 ^ w) mq.digs = (|za| / |zb|).toNat := by
          rw [← Mpi.natAbs_toInt, q2]
          have := Int.ediv_nonneg (abs_nonneg za) (abs_nonneg zb)
          omega
        have hq0 := Int.ediv_nonneg (abs_nonneg za) (abs_nonneg zb)
        have hqc : (((|za| / |zb|).toNat : Nat) : Int) = |za| / |zb| := Int.toNat_of_nonneg hq0
        obtain ⟨s3, s2, e2, e3, t3, h3⟩ := sub_one hw0 q1.toNorm hqv q3 (fun h0 => q4 (by omega)) hus
        rw [hqc] at h3
        have h' := step_at h hus t3 h3
        simp only [updO] at h'
        rw [Function.update_comm huv.symm, Function.update_idem] at h'
        rw [show (Function.update (Function.update (Now s) u (V w (-(|za| / |zb|) - 1) 0)) vr (V w zr 0)) =
          updO (updO (Now s) (some u) (V w (-(|za| / |zb|) - 1) 0)) (some vr) (V w zr 0) from rfl] at h'
        refine WP.bind_run e2 ?_
        have := rest s3 h'
        obtain ⟨st, s4, e4, h4⟩ := this
        refine ⟨st, s4, ?_, h4⟩
        obtain ⟨s2', e5, e6⟩ : ∃ s2', setSign u true s2 = .ok ((), s2') ∧ sub (2 ^ w) u u sp s2' = .ok (0, s3) := by
          obtain ⟨_, s2', e5, e6⟩ := bind_inv e3
          exact ⟨s2', e5, e6⟩
        rw [bind_ok e5, bind_ok e6]
        exact e4
    · rw [if_neg hz]
      refine plain fun hA => hA.2 ?_
      have : mr.digs = [] := List.eq_nil_of_length_eq_zero (not_not.1 hz)
      rw [← hzra, ← r2, (Mpi.toInt_eq_zero_iff (Nat.two_pow_pos w) r1.toNorm).2 this]; rfl
  · rw [if_neg hxx]
    exact plain fun hA => hxx (hx.2 hA.1)
end

/-- From the state of all objects to the objects written. -/
theorem outcomes_of_res {sp : Nat} {s : St} {c : M Int} {rq rr : Option Nat} {P P' Q Q' : Obj → Prop} (hq : ∀ v, rq = some v → v < sp)
    (hr : ∀ v, rr = some v → v < sp) (hne : ∀ v, rq = some v → rr ≠ some v)
    (h : WP c (Res (ctxOf sp s) sp (updO (updO (Now s) rq P) rr Q) (updO (updO (Now s) rq P') rr Q')) s) :
    Outcomes sp s (rq.toList ++ rr.toList) c (fun v o => (rq = some v → P o) ∧ (rr = some v → Q o))
      (fun v o => (rq = some v → P' o) ∧ (rr = some v → Q' o)) := by
  have hmem : ∀ v, v ∈ rq.toList ++ rr.toList ↔ rq = some v ∨ rr = some v := fun v => by simp [Option.mem_toList]
  have hnd : (rq.toList ++ rr.toList).Nodup := by
    cases rq with
    | none => cases rr <;> simp
    | some q =>
      cases rr with
      | none => simp
      | some r => simp; exact fun e => hne q rfl (by rw [e])
  have key : ∀ (R T : Obj → Prop) (s' : St), At (ctxOf sp s) (updO (updO (Now s) rq R) rr T) sp s' →
      (∀ v, v < sp → v ∉ rq.toList ++ rr.toList → s'.obj v = s.obj v) ∧
      (s'.live - ((rq.toList ++ rr.toList).map fun v => (s'.obj v).owns).sum = s.live - ((rq.toList ++ rr.toList).map fun v => (s.obj v).owns).sum) ∧
      s'.fails = s.fails ∧ ∀ v ∈ rq.toList ++ rr.toList, (rq = some v → R (s'.obj v)) ∧ (rr = some v → T (s'.obj v)) := by
    intro R T s' h
    have hf : ∀ v, v < sp → v ∉ rq.toList ++ rr.toList → s'.obj v = s.obj v := by
      intro v hv hv'
      rw [hmem, not_or] at hv'
      have := h.objs v hv
      cases rq with
      | none =>
        cases rr with
        | none => exact this
        | some r => simp only [updO] at this; rwa [Function.update_of_ne (fun e => hv'.2 (by rw [e]))] at this
      | some q =>
        cases rr with
        | none => simp only [updO] at this; rwa [Function.update_of_ne (fun e => hv'.1 (by rw [e]))] at this
        | some r =>
          simp only [updO] at this
          rwa [Function.update_of_ne (fun e => hv'.2 (by rw [e])), Function.update_of_ne (fun e => hv'.1 (by rw [e]))] at this
    refine ⟨hf, ?_, h.orc, fun v hv => ⟨fun e => ?_, fun e => ?_⟩⟩
    · have h1 := h.bal
      have hB : (ctxOf sp s).B = s.live - ∑ v ∈ Finset.range sp, (s.obj v).owns := rfl
      have h2 : ∑ v ∈ Finset.range sp, ((s'.obj v).owns - (s.obj v).owns) =
          ((rq.toList ++ rr.toList).map fun v => ((s'.obj v).owns - (s.obj v).owns)).sum := by
        rw [← List.sum_toFinset _ hnd]
        symm
        refine Finset.sum_subset (fun v hv => ?_) (fun v hv hv' => ?_)
        · rw [List.mem_toFinset, hmem] at hv
          rw [Finset.mem_range]
          rcases hv with hv | hv
          · exact hq v hv
          · exact hr v hv
        · rw [List.mem_toFinset] at hv'
          rw [hf v (Finset.mem_range.1 hv) hv', sub_self]
      rw [Finset.sum_sub_distrib] at h2
      have h3 : ∀ (l : List Nat) (f g : Nat → Int), (l.map fun v => f v - g v).sum = (l.map f).sum - (l.map g).sum := by
        intro l f g
        induction l with
        | nil => rfl
        | cons a l ih => simp only [List.map_cons, List.sum_cons, ih]; omega
      rw [h3] at h2
      omega
    · have := h.objs v (hq v e)
      subst e
      cases rr with
      | none => simp only [updO, Function.update_self] at this; exact this
      | some r =>
        simp only [updO] at this
        rwa [Function.update_of_ne (fun e => hne v rfl (by rw [e])), Function.update_self] at this
    · have := h.objs v (hr v e)
      subst e
      simp only [updO, Function.update_self] at this; exact this
  obtain ⟨st, s', e, h⟩ := h
  rcases h with ⟨e0, h⟩ | ⟨e0, f, h⟩
  · obtain ⟨k1, k2, k3, k4⟩ := key _ _ _ h
    exact ⟨st, s', e, k1, k2, Or.inl ⟨e0, k4⟩⟩
  · obtain ⟨k1, k2, k3, k4⟩ := key _ _ _ h
    exact ⟨st, s', e, k1, k2, Or.inr ⟨e0, f, k4⟩⟩

theorem neg_ediv_adj {za zb : Int} (hb : 0 < zb) (h : ¬ zb ∣ za) : -(-za / zb) - 1 = za / zb := by
  have h1 := Int.emod_add_mul_ediv za zb
  have h2 : 0 < za % zb := (Int.emod_pos_of_not_dvd h).resolve_left (by omega)
  have h3 := Int.emod_lt_of_pos za hb
  have h4 : -za / zb = -(za / zb) - 1 := by
    rw [Int.ediv_eq_iff_of_pos hb]
    constructor <;> nlinarith
  omega

theorem mod_adj {zb : Int} (za : Int) (hb : 0 < zb) :
    (if Adj za zb then |zb| - |za| % |zb| else if |za| < |zb| then za else |za| % |zb|) = za % zb := by
  rw [abs_of_pos hb]
  have hadj : Adj za zb ↔ za < 0 ∧ |za| % zb ≠ 0 := by
    unfold Adj
    rw [abs_of_pos hb]
    have : ¬ zb < 0 := by omega
    simp only [this, iff_false, not_not]
  rcases Int.lt_or_le za 0 with h | h
  · have e : |za| = -za := abs_of_neg h
    rw [e] at hadj ⊢
    by_cases hd : -za % zb = 0
    · have hd' : zb ∣ za := by rw [← Int.dvd_neg]; exact Int.dvd_of_emod_eq_zero hd
      rw [if_neg (by rw [hadj]; tauto), if_neg, hd, Int.emod_eq_zero_of_dvd hd']
      intro hlt
      obtain ⟨k, rfl⟩ := hd'
      have : k < 0 := by nlinarith
      nlinarith
    · rw [if_pos (hadj.2 ⟨h, hd⟩)]
      have h1 := Int.emod_add_mul_ediv (-za) zb
      have h2 := Int.emod_lt_of_pos (-za) hb
      have h3 := Int.emod_nonneg (-za) (by omega : zb ≠ 0)
      have : za = (zb - -za % zb) + zb * (-(-za / zb) - 1) := by linarith [mul_sub zb (-(-za / zb)) 1, mul_neg zb (-za / zb)]
      generalize -za % zb = y at *
      generalize -(-za / zb) - 1 = k at *
      rw [this, Int.add_mul_emod_self_left, Int.emod_eq_of_lt (by omega) (by omega)]
  · rw [if_neg (by rw [hadj]; omega), abs_of_nonneg h]
    split_ifs with hlt
    · rw [Int.emod_eq_of_lt h hlt]
    · rfl

theorem mod_leaf (hw : Mpi.DigitWidth w) {sp r a m : Nat} {s : St} {za zm : Int} (ha : (s.obj a).Shows w za) (hm : (s.obj m).Shows w zm)
    (has : a < sp) (hms : m < sp) (hm0 : 0 < zm) (hrs : r < sp) (hr : Any w (s.obj r)) (h : 0 ≤ za ∨ m ≠ r) :
    Leaf sp s r (mod w sp r a m) (V w (za % zm) 0) (Any w) := by
  refine (leaf_of_res hrs (div_res (rq := none) (n := 2) hw ha hm has hms (by omega) (le_refl _) (fun v e => by cases e) hrs
    hr (by simp) fun hA => ⟨rfl, ?_, by simp⟩)).mono (fun o h => ?_) (fun o h => h)
  · rcases h with h | h
    · exact absurd hA.1 (by rw [not_not]; omega)
    · exact h
  · rw [mod_adj za hm0] at h; exact h

end Verif.Mem
