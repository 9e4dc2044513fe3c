import Verif.Lemmas.Mem.Nums
/-! Toom-3 multiplication in memory, and the choice between the three methods. -/
namespace Verif.Mem
open Verif.Mpi (Mpi Norm WF val Rep)

variable {w : Nat}

/-- Evaluate the list of values of the locals. -/
macro "nums_at" h:ident : tactic =>
  `(tactic| simp only [List.set_cons_succ, List.set_cons_zero, List.getD_cons_succ, List.getD_cons_zero] at $h:ident)

/-- A call that writes to the destination of the function. -/
theorem st_dest {K : Ctx} {A G : Env} {sp N r : Nat} {s0 s : St} {k c : M Int} {L : List Int} {P Q : Obj → Prop} {bad : Obj → Prop}
    (h : At K (NumsR w sp A L) (sp + N) s) (hr : r < sp) (hA : Le sp A (But s0 r Q)) (hl : Leaf (sp + N) s r c P bad)
    (hbad : ∀ o, bad o → Q o) (hP : ∀ o, P o → Q o)
    (hk : ∀ s', At K (NumsR w sp (Function.update A r P) L) (sp + N) s' → Le sp (Function.update A r P) (But s0 r Q) →
      WP k (Res K (sp + N) G (Lv w sp (But s0 r Q) N)) s') :
    WP (chk c k) (Res K (sp + N) G (Lv w sp (But s0 r Q) N)) s := by
  have hb : ∀ P' : Obj → Prop, (∀ o, P' o → Q o) → Le sp (Function.update A r P') (But s0 r Q) := fun P' hP' =>
    hA.update fun o ho => by unfold But; rw [Function.update_self]; exact hP' o ho
  refine chk_res (leaf_at h (by omega) hl) ?_ fun s' h' => hk s' (h'.le (Nums.set_arg hr)) (hb P hP)
  exact Le.update (Nums.lv hA r_any) fun o ho => Lv.at_r hr (hbad o ho)

theorem toom_prod (hw : 2 ≤ w) {f : Nat} {mul : Nat → Nat → Nat → Nat → M Int} (hm : MulOn w f mul) {sp r a b n : Nat} {s : St} {mr ma mb : Mpi}
    {zr za zb : Int} (hr : Rep w mr zr) (hr' : HoldsC mr n (s.obj r)) (ha : Rep w ma za) (ha' : (s.obj a).Reads ma)
    (hb : Rep w mb zb) (hb' : (s.obj b).Reads mb) (hrs : r < sp) (has : a < sp) (hbs : b < sp)
    (hl : 6 < min ma.digs.length mb.digs.length) (hf : min ma.digs.length mb.digs.length ≤ f + 1) :
    Leaf sp s r (mulToom3 w (mulWith mul) sp r a b) (R w (za * zb) n) (fun o => ∃ z, R w z n o) := by
  have hw0 : 0 < w := by omega
  have hb1 := Mpi.one_lt_two_pow hw0
  unfold mulToom3
  refine leaf_locals (w := w) hrs fun s1 h => ?_
  have ea : s1.obj a = s.obj a := by have := h.objs a (by omega); rwa [Locals.lo has] at this
  have eb : s1.obj b = s.obj b := by have := h.objs b (by omega); rwa [Locals.lo hbs] at this
  obtain ⟨aa, ha1, -⟩ := id ha'
  obtain ⟨ab, hb1', -⟩ := id hb'
  refine WP.bind_run (hdr_ok (by rw [ea, ha1])) (WP.bind_run (hdr_ok (by rw [eb, hb1'])) ?_)
  dsimp only
  rw [if_neg (by omega)]
  have hA : Le sp (Now s) (But s r (fun o => ∃ z, R w z n o)) := by
    intro v hv o ho
    unfold But
    by_cases hvr : v = r
    · subst hvr; rw [Function.update_self, ho]; exact ⟨zr, mr, hr, hr'⟩
    · rw [Function.update_of_ne hvr]; exact ho
  have hlist : ∀ v, v ∈ [sp, sp + 1, sp + 2, sp + 3, sp + 4, sp + 5, sp + 6, sp + 7, sp + 8, sp + 9, sp + 10, sp + 11, sp + 12] ↔
      sp ≤ v ∧ v < sp + 13 := by
    intro v
    simp only [List.mem_cons, List.not_mem_nil, or_false]
    omega
  refine initList_res (Q := fun z => R w z 0) hw0 h hlist hlist (by simp) hA (fun o ho => ho.r.weak (by omega)) fun s2 h => ?_
  generalize hB : min ma.digs.length mb.digs.length / 3 = B
  obtain ⟨a0, a1, a2, ra0, ra1, ra2, hu, ba0, ba1, ba2⟩ := Mpi.toom_split ha B
  obtain ⟨b0, b1, b2, rb0, rb1, rb2, hv, bb0, bb1, bb2⟩ := Mpi.toom_split hb B
  have ea0 : Int.tmod za (((2 ^ w) ^ B : Nat) : Int) = a0 := (Mpi.modDigits_rep ha B).2.symm.trans ra0.2
  have ea1 : Int.tmod (Int.tdiv za (((2 ^ w) ^ B : Nat) : Int)) (((2 ^ w) ^ B : Nat) : Int) = a1 :=
    (Mpi.modDigits_rep (Mpi.shrd_rep ha B) B).2.symm.trans ra1.2
  have ea2 : Int.tdiv za (((2 ^ w) ^ (B * 2) : Nat) : Int) = a2 := (Mpi.shrd_rep ha (B * 2)).2.symm.trans ra2.2
  have eb0 : Int.tmod zb (((2 ^ w) ^ B : Nat) : Int) = b0 := (Mpi.modDigits_rep hb B).2.symm.trans rb0.2
  have eb1 : Int.tmod (Int.tdiv zb (((2 ^ w) ^ B : Nat) : Int)) (((2 ^ w) ^ B : Nat) : Int) = b1 :=
    (Mpi.modDigits_rep (Mpi.shrd_rep hb B) B).2.symm.trans rb1.2
  have eb2 : Int.tdiv zb (((2 ^ w) ^ (B * 2) : Nat) : Int) = b2 := (Mpi.shrd_rep hb (B * 2)).2.symm.trans rb2.2
  have hza : ∀ o, Now s a o → RS w za o := fun o ho => by rw [ho]; exact ⟨ma, ha, ha'⟩
  have hzb : ∀ o, Now s b o → RS w zb o := fun o ho => by rw [ho]; exact ⟨mb, hb, hb'⟩
  have key : ∀ (N : Nat) (c0 c1 c2 : Int), 6 < N → N ≤ f + 1 → B = N / 3 → c0.natAbs < (2 ^ w) ^ B →
      c1.natAbs < (2 ^ w) ^ B → c2.natAbs < (2 ^ w) ^ (N - 2 * B) → c0.natAbs + 2 * c1.natAbs + 4 * c2.natAbs < (2 ^ w) ^ f := by
    intro N c0 c1 c2 k0 k1 k2 h0 h1 h2
    have h3 : (2 ^ w) ^ B ≤ (2 ^ w) ^ (N - 2 * B) := Nat.pow_le_pow_right (by omega) (by omega)
    have h4 : 2 ^ 3 ≤ (2 ^ w) ^ 2 := by
      rw [← pow_mul]; exact Nat.pow_le_pow_right (by omega) (by omega)
    have h5 : (2 ^ w) ^ (N - 2 * B) * 2 ^ 3 ≤ (2 ^ w) ^ (N - 2 * B) * (2 ^ w) ^ 2 := Nat.mul_le_mul_left _ h4
    rw [← pow_add] at h5
    have h6 : (2 ^ w) ^ (N - 2 * B + 2) ≤ (2 ^ w) ^ f := Nat.pow_le_pow_right (by omega) (by omega)
    omega
  have kk : (a0.natAbs + 2 * a1.natAbs + 4 * a2.natAbs < (2 ^ w) ^ f) ∨ (b0.natAbs + 2 * b1.natAbs + 4 * b2.natAbs < (2 ^ w) ^ f) := by
    by_cases hc : ma.digs.length ≤ mb.digs.length
    · left; exact key ma.digs.length _ _ _ (by omega) (by omega) (by omega) ba0 ba1 ba2
    · right; exact key mb.digs.length _ _ _ (by omega) (by omega) (by omega) bb0 bb1 bb2
  clear key
  simp only [List.replicate_succ, List.replicate_zero] at h
  refine nr_mod_arg (i := 5) h rfl hA (by omega) has hza fun s3 h => ?_
  rw [ea0] at h
  refine nr_copy_arg (i := 6) h rfl hA (by omega) has hza fun s4 h => ?_
  refine nr_shrd (i := 6) h rfl hA (by omega) fun s5 h => ?_
  refine nr_mod (i := 6) (j := 6) h rfl hA (by omega) (by omega) fun s6 h => ?_
  nums_at h
  rw [ea1] at h
  refine nr_copy_arg (i := 7) h rfl hA (by omega) has hza fun s7 h => ?_
  refine nr_shrd (i := 7) h rfl hA (by omega) fun s8 h => ?_
  nums_at h
  rw [ea2] at h
  refine nr_mod_arg (i := 8) h rfl hA (by omega) hbs hzb fun s3 h => ?_
  rw [eb0] at h
  refine nr_copy_arg (i := 9) h rfl hA (by omega) hbs hzb fun s4 h => ?_
  refine nr_shrd (i := 9) h rfl hA (by omega) fun s5 h => ?_
  refine nr_mod (i := 9) (j := 9) h rfl hA (by omega) (by omega) fun s6 h => ?_
  nums_at h
  rw [eb1] at h
  refine nr_copy_arg (i := 10) h rfl hA (by omega) hbs hzb fun s7 h => ?_
  refine nr_shrd (i := 10) h rfl hA (by omega) fun s8 h => ?_
  nums_at h
  rw [eb2] at h
  rw [hu, hv]
  clear ra0 ra1 ra2 rb0 rb1 rb2 ea0 ea1 ea2 eb0 eb1 eb2 ba0 ba1 ba2 bb0 bb1 bb2 hu hv
  refine nr_add (i := 11) (j := 5) (l := 7) hw0 h rfl hA (by omega) (by omega) (by omega) fun _ h => ?_
  refine nr_add (i := 12) (j := 8) (l := 10) hw0 h rfl hA (by omega) (by omega) (by omega) fun _ h => ?_
  refine nr_add (i := 1) (j := 11) (l := 6) hw0 h rfl hA (by omega) (by omega) (by omega) fun _ h => ?_
  refine nr_add (i := 2) (j := 12) (l := 9) hw0 h rfl hA (by omega) (by omega) (by omega) fun _ h => ?_
  nums_at h
  refine nr_mul (i := 1) (j := 1) (l := 2) hm h rfl hA (by omega) (by omega) (by omega) ?_ fun _ h => ?_
  · simp only [List.getD_cons_succ, List.getD_cons_zero]; omega
  refine nr_sub (i := 11) (j := 11) (l := 6) hw0 h rfl hA (by omega) (by omega) (by omega) fun _ h => ?_
  refine nr_sub (i := 12) (j := 12) (l := 9) hw0 h rfl hA (by omega) (by omega) (by omega) fun _ h => ?_
  nums_at h
  refine nr_mul (i := 2) (j := 11) (l := 12) hm h rfl hA (by omega) (by omega) (by omega) ?_ fun _ h => ?_
  · simp only [List.getD_cons_succ, List.getD_cons_zero]; omega
  refine nr_add (i := 11) (j := 11) (l := 7) hw0 h rfl hA (by omega) (by omega) (by omega) fun _ h => ?_
  refine nr_shl (i := 11) (j := 11) hw0 h rfl hA (by omega) (by omega) fun _ h => ?_
  refine nr_sub (i := 11) (j := 11) (l := 5) hw0 h rfl hA (by omega) (by omega) (by omega) fun _ h => ?_
  refine nr_add (i := 12) (j := 12) (l := 10) hw0 h rfl hA (by omega) (by omega) (by omega) fun _ h => ?_
  refine nr_shl (i := 12) (j := 12) hw0 h rfl hA (by omega) (by omega) fun _ h => ?_
  refine nr_sub (i := 12) (j := 12) (l := 8) hw0 h rfl hA (by omega) (by omega) (by omega) fun _ h => ?_
  nums_at h
  refine nr_mul (i := 3) (j := 11) (l := 12) hm h rfl hA (by omega) (by omega) (by omega) ?_ fun _ h => ?_
  · simp only [List.getD_cons_succ, List.getD_cons_zero]; omega
  refine nr_mul (i := 0) (j := 5) (l := 8) hm h rfl hA (by omega) (by omega) (by omega) ?_ fun _ h => ?_
  · simp only [List.set_cons_succ, List.set_cons_zero, List.getD_cons_succ, List.getD_cons_zero]; omega
  refine nr_mul (i := 4) (j := 7) (l := 10) hm h rfl hA (by omega) (by omega) (by omega) ?_ fun _ h => ?_
  · simp only [List.set_cons_succ, List.set_cons_zero, List.getD_cons_succ, List.getD_cons_zero]; omega
  refine nr_sub (i := 3) (j := 3) (l := 1) hw0 h rfl hA (by omega) (by omega) (by omega) fun _ h => ?_
  refine nr_div3 (i := 3) hw h rfl hA (by omega) fun _ h => ?_
  nums_at h
  have d3 : Int.tdiv (((a0 + a2 - a1 + a2) * 2 ^ 1 - a0) * ((b0 + b2 - b1 + b2) * 2 ^ 1 - b0) -
      (a0 + a2 + a1) * (b0 + b2 + b1)) 3 =
      -(a0 * b1 + a1 * b0) + (a0 * b2 + a1 * b1 + a2 * b0) - 3 * (a1 * b2 + a2 * b1) +
        5 * (a2 * b2) := by
    apply Int.tdiv_eq_of_eq_mul_right (by omega); ring
  have d2 : Int.tdiv ((a0 + a2 + a1) * (b0 + b2 + b1) - (a0 + a2 - a1) * (b0 + b2 - b1))
      ((2 ^ 1 : Nat) : Int) = (a0 * b1 + a1 * b0) + (a1 * b2 + a2 * b1) := by
    apply Int.tdiv_eq_of_eq_mul_right (by norm_num); push_cast; ring
  have d2' : Int.tdiv ((a0 + a2 - a1) * (b0 + b2 - b1) - a0 * b0 -
      (-(a0 * b1 + a1 * b0) + (a0 * b2 + a1 * b1 + a2 * b0) - 3 * (a1 * b2 + a2 * b1) +
        5 * (a2 * b2))) ((2 ^ 1 : Nat) : Int) = (a1 * b2 + a2 * b1) - 2 * (a2 * b2) := by
    apply Int.tdiv_eq_of_eq_mul_right (by norm_num); push_cast; ring
  rw [d3] at h
  refine nr_sub (i := 1) (j := 1) (l := 2) hw0 h rfl hA (by omega) (by omega) (by omega) fun _ h => ?_
  refine nr_shr (i := 1) (j := 1) hw0 h rfl hA (by omega) (by omega) fun _ h => ?_
  nums_at h
  rw [d2] at h
  refine nr_sub (i := 2) (j := 2) (l := 0) hw0 h rfl hA (by omega) (by omega) (by omega) fun _ h => ?_
  refine nr_sub (i := 3) (j := 2) (l := 3) hw0 h rfl hA (by omega) (by omega) (by omega) fun _ h => ?_
  refine nr_shr (i := 3) (j := 3) hw0 h rfl hA (by omega) (by omega) fun _ h => ?_
  nums_at h
  rw [d2'] at h
  refine nr_shl (i := 11) (j := 4) hw0 h rfl hA (by omega) (by omega) fun _ h => ?_
  refine nr_add (i := 3) (j := 3) (l := 11) hw0 h rfl hA (by omega) (by omega) (by omega) fun _ h => ?_
  refine nr_add (i := 2) (j := 2) (l := 1) hw0 h rfl hA (by omega) (by omega) (by omega) fun _ h => ?_
  refine nr_sub (i := 2) (j := 2) (l := 4) hw0 h rfl hA (by omega) (by omega) (by omega) fun _ h => ?_
  refine nr_sub (i := 1) (j := 1) (l := 3) hw0 h rfl hA (by omega) (by omega) (by omega) fun _ h => ?_
  refine nr_shld (i := 1) hw0 h rfl hA (by omega) fun _ h => ?_
  refine nr_shld (i := 2) hw0 h rfl hA (by omega) fun _ h => ?_
  refine nr_shld (i := 3) hw0 h rfl hA (by omega) fun _ h => ?_
  refine nr_shld (i := 4) hw0 h rfl hA (by omega) fun s9 h => ?_
  nums_at h
  have er : R w zr n (s9.obj r) := by
    have := Nums.arg h hrs
    rw [this]; exact ⟨mr, hr, hr'⟩
  have e0 := Nums.val h (j := 0) (by omega)
  have e1 := Nums.val h (j := 1) (by omega)
  simp only [List.getD_cons_succ, List.getD_cons_zero] at e0 e1
  refine st_dest h hrs hA (addR hw0 er e0.rs e1.rs) (fun o ho => ⟨_, ho⟩) (fun o ho => ⟨_, ho⟩) fun _ h hA => ?_
  refine nr_add (i := 11) (j := 2) (l := 3) hw0 h rfl hA (by omega) (by omega) (by omega) fun _ h => ?_
  refine nr_add (i := 11) (j := 4) (l := 11) hw0 h rfl hA (by omega) (by omega) (by omega) fun _ h => ?_
  nums_at h
  have er := Nums.arg h hrs
  rw [Function.update_self] at er
  have e1 := Nums.val h (j := 11) (by omega)
  simp only [List.getD_cons_succ, List.getD_cons_zero] at e1
  refine st_dest h hrs hA (addR hw0 er e1.rs er.rs) (fun o ho => ⟨_, ho⟩) (fun o ho => ⟨_, ho⟩) fun _ h hA => ?_
  refine WP.pure (Or.inl ⟨rfl, h.le ?_⟩)
  refine Nums.lv ?_ r_any
  intro v hv o ho
  unfold But
  by_cases hvr : v = r
  · subst hvr
    rw [Function.update_self] at ho ⊢
    have e1 : (2 ^ w) ^ (1 * B) = (2 ^ w) ^ B := by rw [one_mul]
    have e2 : (2 ^ w) ^ (2 * B) = (2 ^ w) ^ B * (2 ^ w) ^ B := by rw [two_mul, pow_add]
    have e3 : (2 ^ w) ^ (3 * B) = (2 ^ w) ^ B * (2 ^ w) ^ B * (2 ^ w) ^ B := by
      rw [← pow_add, ← pow_add]; congr 1; omega
    have e4 : (2 ^ w) ^ (4 * B) = (2 ^ w) ^ B * (2 ^ w) ^ B * (2 ^ w) ^ B * (2 ^ w) ^ B := by
      rw [← pow_add, ← pow_add, ← pow_add]; congr 1; omega
    rw [e1, e2, e3, e4] at ho
    generalize (2 ^ w) ^ B = p at *
    refine (congrArg (fun z => R w z n o) ?_).mp ho
    push_cast
    ring
  · rw [Function.update_of_ne hvr, Function.update_of_ne hvr] at ho
    rw [Function.update_of_ne hvr]; exact ho

theorem prod_of_r {old : Bool} {zx zy : Int} {n : Nat} {o : Obj} {z : Int} (h : R w z n o) (hz : z.natAbs = zx.natAbs * zy.natAbs)
    (hp : 0 ≤ zx → 0 ≤ zy → 0 ≤ z) (h0 : z ≠ 0) : Prod w old zx zy n o := by
  obtain ⟨m, h1, h2⟩ := h
  refine ⟨m, h1.1, by rw [h1.val_eq, hz], fun _ hx hy => h1.nonneg (by have := hp hx hy; omega), fun h => ?_, h2⟩
  exact absurd (h1.2.symm.trans ((Mpi.toInt_eq_zero_iff (Nat.two_pow_pos w) h1.1).2 h)) h0

theorem len_of_lt {m : Mpi} {z : Int} (hw : 0 < w) (h : Rep w m z) {f : Nat} (hz : z.natAbs < (2 ^ w) ^ f) : m.digs.length ≤ f :=
  Mpi.rep_length hw h hz

theorem mulAbs_on (hw : 8 ≤ w) : ∀ f, MulOn w f (mulAbs w (f + 1)) := by
  intro f
  induction f with
  | zero =>
    intro sp s r x y mr zr zx zy n hr hr' ⟨mx, x1, x2⟩ ⟨my, y1, y2⟩ hrs hxs hys hn hl
    have hlen : min mx.digs.length my.digs.length = 0 := by
      rcases hl with h | h
      · have := len_of_lt (by omega) x1 h; omega
      · have := len_of_lt (by omega) y1 h; omega
    refine Leaf.congr (comba_prod (by omega) hr hr' x1 x2 y1 y2 hrs hxs hys hn (by rw [hlen]; exact Nat.two_pow_pos w)) ?_
    obtain ⟨ax, hx, -⟩ := x2
    obtain ⟨ay, hy, -⟩ := y2
    rw [mulAbs, bind_ok (hdr_ok hx), bind_ok (hdr_ok hy)]
    dsimp only
    rw [if_neg (by omega), if_neg (by omega)]
  | succ f ih =>
    intro sp s r x y mr zr zx zy n hr hr' ⟨mx, x1, x2⟩ ⟨my, y1, y2⟩ hrs hxs hys hn hl
    have hlen : min mx.digs.length my.digs.length ≤ f + 1 := by
      rcases hl with h | h
      · have := len_of_lt (by omega) x1 h; omega
      · have := len_of_lt (by omega) y1 h; omega
    have hrun : mulAbs w (f + 1 + 1) sp r x y s = (if min mx.digs.length my.digs.length > 300 then mulToom3 w (mulWith (mulAbs w (f + 1))) sp r x y
        else if min mx.digs.length my.digs.length > 64 then mulKaratsuba w (mulAbs w (f + 1)) sp r x y else mulComba w sp r x y) s := by
      obtain ⟨ax, hx, -⟩ := x2
      obtain ⟨ay, hy, -⟩ := y2
      rw [mulAbs, bind_ok (hdr_ok hx), bind_ok (hdr_ok hy)]
    have hx0 : 64 < min mx.digs.length my.digs.length → zx ≠ 0 := fun h => rep_pos x1 fun h' => by rw [h'] at h; simp at h
    have hy0 : 64 < min mx.digs.length my.digs.length → zy ≠ 0 := fun h => rep_pos y1 fun h' => by rw [h'] at h; simp at h
    refine Leaf.congr ?_ hrun
    by_cases h1 : min mx.digs.length my.digs.length > 300
    · rw [if_pos h1]
      refine (toom_prod (by omega) ih hr hr' x1 x2 y1 y2 hrs hxs hys (by omega) hlen).mono (fun o ho => ?_) (fun o ho => ho)
      exact prod_of_r ho (Int.natAbs_mul _ _) (fun hx hy => mul_nonneg hx hy) (mul_ne_zero (hx0 (by omega)) (hy0 (by omega)))
    · rw [if_neg h1]
      by_cases h2 : min mx.digs.length my.digs.length > 64
      · rw [if_pos h2]
        refine (kara_prod (by omega) ih hr hr' x1.1 x2 y1.1 y2 hrs hxs hys (by omega) hlen).mono (fun o ho => ?_) (fun o ho => ⟨_, ho⟩)
        rw [x1.val_eq, y1.val_eq] at ho
        refine prod_of_r ho (by rw [Int.natAbs_natCast]) (fun _ _ => Int.natCast_nonneg _) ?_
        have := Int.natAbs_pos.2 (hx0 h2)
        have := Int.natAbs_pos.2 (hy0 h2)
        have := Nat.mul_pos (Int.natAbs_pos.2 (hx0 h2)) (Int.natAbs_pos.2 (hy0 h2))
        omega
      · rw [if_neg h2]
        refine comba_prod (by omega) hr hr' x1 x2 y1 y2 hrs hxs hys hn ?_
        have : 64 < 2 ^ w := by
          calc 64 < 2 ^ 8 := by norm_num
            _ ≤ 2 ^ w := Nat.pow_le_pow_right (by omega) hw
        omega

/-- `cry_mpi_mul`. -/
theorem mul_leaf (hw : 8 ≤ w) {sp r x y n : Nat} {s : St} {zr zx zy : Int} (hr : R w zr n (s.obj r)) (hx : RS w zx (s.obj x))
    (hy : RS w zy (s.obj y)) (hrs : r < sp) (hxs : x < sp) (hys : y < sp) (hn : n = 0 ∨ ¬ (r = x ∨ r = y)) :
    Leaf sp s r (mul w sp r x y) (V w (zx * zy) n) (fun o => ∃ z, R w z n o) := by
  obtain ⟨mx, x1, ax, hx', x2⟩ := id hx
  obtain ⟨my, y1, ay, hy', y2⟩ := id hy
  refine Leaf.congr (mulWith_leaf (mulAbs_on hw (min mx.digs.length my.digs.length)) hr hx hy hrs hxs hys hn ?_) ?_
  · have lx := Mpi.val_lt x1.1.digits
    have ly := Mpi.val_lt y1.1.digits
    rw [x1.val_eq] at lx
    rw [y1.val_eq] at ly
    by_cases h : mx.digs.length ≤ my.digs.length
    · left; rw [Nat.min_eq_left h]; exact lx
    · right; rw [Nat.min_eq_right (by omega)]; exact ly
  · rw [mul, bind_ok (hdr_ok hx'), bind_ok (hdr_ok hy')]

end Verif.Mem
