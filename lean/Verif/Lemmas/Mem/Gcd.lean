import Verif.Lemmas.Mem.ModExp
import Verif.Lemmas.Mpi.Gcd
/-! `cry_mpi_gcd` and `cry_mpi_lcm` with their allocations. -/
namespace Verif.Mem
open Verif.Mpi (Mpi Norm WF val Rep DigitWidth Digits TopNZ)

variable {w : Nat}

/-! ### Lowest set bit -/

theorem lsbSkip_run {x : Nat} {s : St} {m : Mpi} (h : (s.obj x).Reads m) : ∀ (n i : Nat), i + n = m.digs.length →
    val (2 ^ w) (m.digs.drop i) ≠ 0 →
    ∃ j, lsbSkip x n i s = .ok (j, s) ∧ j < m.digs.length ∧
      j * w + Mpi.lsbDig (Mpi.dig m.digs j) w 0 = i * w + Mpi.lsb w 0 (m.digs.drop i)
  | 0, i, hi, h0 => absurd (by rw [List.drop_eq_nil_of_le (by omega)]; rfl) h0
  | n + 1, i, hi, h0 => by
    have hd : m.digs.drop i = Mpi.dig m.digs i :: m.digs.drop (i + 1) := by
      rw [List.drop_eq_getElem_cons (by omega)]
      congr 1
      unfold Mpi.dig
      rw [List.getD_eq_getElem?_getD, List.getElem?_eq_getElem (by omega)]
      rfl
    rw [lsbSkip, bind_ok (rd_run h (by omega))]
    rw [hd] at h0 ⊢
    by_cases hz : Mpi.dig m.digs i = 0
    · rw [if_pos hz]
      rw [hz, Mpi.val_cons, Nat.zero_add] at h0
      obtain ⟨j, j1, j2, j3⟩ := lsbSkip_run h n (i + 1) (by omega) (fun e => h0 (by rw [e, Nat.mul_zero]))
      refine ⟨j, j1, j2, ?_⟩
      rw [j3, Mpi.lsb, if_pos hz, Nat.succ_mul]
      omega
    · rw [if_neg hz]
      refine ⟨i, rfl, by omega, ?_⟩
      rw [Mpi.lsb, if_neg hz]

theorem lsb_run {x : Nat} {s : St} {m : Mpi} (h : (s.obj x).Reads m) (h0 : val (2 ^ w) m.digs ≠ 0) :
    lsb w x s = .ok (Mpi.lsb w 0 m.digs, s) := by
  obtain ⟨a, h1, h2⟩ := id h
  obtain ⟨j, j1, j2, j3⟩ := lsbSkip_run (w := w) h m.digs.length 0 (by omega) (by simpa using h0)
  unfold lsb
  rw [bind_ok (hdr_ok h1), bind_ok j1, bind_ok (rd_run h j2)]
  rw [Nat.zero_mul, Nat.zero_add, List.drop_zero] at j3
  rw [j3]; rfl

/-! ### In place, no allocation is needed -/

theorem subAbs_inplace {S b x y n : Nat} {s : St} {mx my t : Mpi} (hx : HoldsC mx n (s.obj x)) (hy : (s.obj y).Reads my)
    (h : Mpi.subAbs b mx my = some t) : ∃ s', subAbs b x x y s = .ok (0, s') ∧ Step S s s' x ∧ HoldsC t n (s'.obj x) := by
  unfold Mpi.subAbs at h
  by_cases hc : Mpi.cmpAbs mx my < 0
  · rw [if_pos hc] at h; cases h
  · rw [if_neg hc] at h
    cases hL : Mpi.subLoop b mx.digs my.digs 0 with
    | none => rw [hL] at h; cases h
    | some L =>
      rw [hL] at h
      cases h
      obtain ⟨st, s', e1, e2, e3⟩ := subAbs_room (sp := S) hx hx.1.reads hy hc hL
      rcases e3 with ⟨rfl, e3, -⟩ | ⟨-, -, -, e3⟩
      · exact ⟨s', e1, e2, e3⟩
      · exact absurd hx.1.len (by omega)

theorem brk_ok {c : M Int} {k : M Unit} {s s' : St} (h : c s = .ok (0, s')) : brk c k s = k s' := by
  unfold brk; rw [bind_ok h]; rfl

/-! ### Two objects change -/

structure Step2 (S : Nat) (s s' : St) (x y : Nat) : Prop where
  frame : ∀ v, v < S → v ≠ x → v ≠ y → s'.obj v = s.obj v
  live : s'.live + (s.obj x).owns + (s.obj y).owns = s.live + (s'.obj x).owns + (s'.obj y).owns
  fails : s'.fails = s.fails
  tick : s.tick ≤ s'.tick

theorem Step2.refl (S : Nat) (s : St) (x y : Nat) : Step2 S s s x y := ⟨fun _ _ _ _ => rfl, rfl, rfl, Nat.le_refl _⟩
theorem Step2.trans {S : Nat} {s s1 s2 : St} {x y : Nat} (h1 : Step2 S s s1 x y) (h2 : Step2 S s1 s2 x y) : Step2 S s s2 x y :=
  ⟨fun v hv hx hy => (h2.frame v hv hx hy).trans (h1.frame v hv hx hy), by have := h1.live; have := h2.live; omega,
    h2.fails.trans h1.fails, h1.tick.trans h2.tick⟩
theorem Step.left {S : Nat} {s s' : St} {x y : Nat} (h : Step S s s' x) (hxy : x ≠ y) (hy : y < S) : Step2 S s s' x y :=
  ⟨fun v hv hx _ => h.frame v hv hx, by have := h.live; have := h.frame y hy (Ne.symm hxy); rw [this]; omega, h.fails, h.tick⟩
theorem Step.right {S : Nat} {s s' : St} {x y : Nat} (h : Step S s s' y) (hxy : x ≠ y) (hx : x < S) : Step2 S s s' x y :=
  ⟨fun v hv _ hy => h.frame v hv hy, by have := h.live; have := h.frame x hx hxy; rw [this]; omega, h.fails, h.tick⟩

theorem step2_at {K : Ctx} {E : Env} {S x y : Nat} {s s' : St} {P Q : Obj → Prop} (h : At K E S s) (hx : x < S) (hy : y < S) (hxy : x ≠ y)
    (hs : Step2 S s s' x y) (hP : P (s'.obj x)) (hQ : Q (s'.obj y)) :
    At K (Function.update (Function.update E x P) y Q) S s' := by
  obtain ⟨s1, e1⟩ : ∃ s1 : St, s1 = { s' with obj := Function.update s'.obj y (s.obj y), live := s'.live - (s'.obj y).owns + (s.obj y).owns } :=
    ⟨_, rfl⟩
  have o1 : s1.obj = Function.update s'.obj y (s.obj y) := by rw [e1]
  have l1 : s1.live = s'.live - (s'.obj y).owns + (s.obj y).owns := by rw [e1]
  have f1 : s1.fails = s'.fails := by rw [e1]
  have t1 : s1.tick = s'.tick := by rw [e1]
  have hl := hs.live
  have a : Step S s s1 x := ⟨fun v hv hvx => by
    rw [o1]
    by_cases hvy : v = y
    · subst hvy; rw [Function.update_self]
    · rw [Function.update_of_ne hvy]; exact hs.frame v hv hvx hvy, by
    rw [o1, l1, Function.update_of_ne hxy]; omega, f1.trans hs.fails, hs.tick.trans_eq t1.symm⟩
  have b : Step S s1 s' y := ⟨fun v hv hvy => by rw [o1, Function.update_of_ne hvy], by
    rw [o1, l1, Function.update_self]; omega, f1.symm, t1.le⟩
  exact step_at (step_at h hx a (by rw [o1, Function.update_of_ne hxy]; exact hP)) hy b hQ

/-! ### The loop -/

theorem gcdLoop_run (hw : 0 < w) {S x y nx ny : Nat} (hxS : x < S) (hyS : y < S) (hxy : x ≠ y) :
    ∀ (fuel : Nat) (s : St) (tx ty z : Mpi), HoldsC tx nx (s.obj x) → HoldsC ty ny (s.obj y) → Norm (2 ^ w) tx → Norm (2 ^ w) ty →
      0 < val (2 ^ w) ty.digs → Mpi.gcdLoop w 0 0 fuel tx ty = some z →
      ∃ s', gcdLoop w x y fuel s = .ok ((), s') ∧ Step2 S s s' x y ∧ HoldsC z ny (s'.obj y) ∧ AnyR w (s'.obj x)
  | 0, _, _, _, _, _, _, _, _, _, h => by cases h
  | fuel + 1, s, tx, ty, z, hx, hy, nx', ny', hy0, h => by
    have hb1 := two_lt hw
    rw [Mpi.gcdLoop] at h
    rw [gcdLoop, bind_ok (hdr_ok hx.1.1)]
    dsimp only
    by_cases hz : tx.digs.length = 0
    · rw [if_pos hz]
      rw [if_pos (by unfold Mpi.isZero; simpa using hz)] at h
      cases h
      exact ⟨s, rfl, Step2.refl _ _ _ _, hy, _, tx, ⟨nx', rfl⟩, hx.1, Nat.zero_le _⟩
    · rw [if_neg hz]
      rw [if_neg (by unfold Mpi.isZero; simpa using hz)] at h
      dsimp only at h
      have hx0 : 0 < val (2 ^ w) tx.digs := by
        rw [Nat.pos_iff_ne_zero, ne_eq, Mpi.val_eq_zero_iff (Nat.two_pow_pos w) nx'.top]
        intro e; exact hz (by rw [e]; rfl)
      obtain ⟨a, ha, hxv, hxn, -⟩ := Mpi.shr_lsb hw 0 nx' hx0
      obtain ⟨b, hb, hyv, hyn, -⟩ := Mpi.shr_lsb hw 0 ny' hy0
      obtain ⟨s1, e1, t1, h1⟩ := shr_inplace (w := w) (S := S) hx (Mpi.lsb w 0 tx.digs)
      have hy1 : HoldsC ty ny (s1.obj y) := by rw [t1.frame y hyS (Ne.symm hxy)]; exact hy
      obtain ⟨s2, e2, t2, h2⟩ := shr_inplace (w := w) (S := S) hy1 (Mpi.lsb w 0 ty.digs)
      have hx2 := h1
      rw [← t2.frame x hxS hxy] at hx2
      rw [bind_ok (lsb_run hx.1.reads (by omega)), brk_ok e1, bind_ok (lsb_run hy1.1.reads (by omega)), brk_ok e2]
      have T := (t1.left hxy hyS).trans (t2.right hxy hxS)
      generalize Mpi.shr w tx (Mpi.lsb w 0 tx.digs) = ux at *
      generalize Mpi.shr w ty (Mpi.lsb w 0 ty.digs) = uy at *
      rw [bind_ok (cmpAbs_run hx2.1.reads h2.1.reads)]
      have hcmp := Mpi.cmpAbs_spec (b := 2 ^ w) (by omega) hxn hyn
      rw [hxv, hyv] at hcmp
      by_cases hge : b ≤ a
      · have hc : Mpi.cmpAbs ux uy ≥ 0 := by omega
        rw [if_pos hc]
        rw [if_pos hc] at h
        obtain ⟨t, u1, u2, u3, -⟩ := Mpi.subAbs_spec hb1 hxn hyn (by omega)
        obtain ⟨-, v2, -⟩ := Mpi.shr_spec hw u3 1
        simp only [u1, Option.bind_eq_bind, Option.bind_some] at h
        obtain ⟨s3, e3, t3, h3⟩ := subAbs_inplace (S := S) hx2 h2.1.reads u1
        obtain ⟨s4, e4, t4, h4⟩ := shr_inplace (w := w) (S := S) h3 1
        rw [brk_ok e3, brk_ok e4]
        have hy4 : HoldsC uy ny (s4.obj y) := by rw [(t3.trans t4).frame y hyS (Ne.symm hxy)]; exact h2
        obtain ⟨s', i1, i2, i3⟩ := gcdLoop_run hw hxS hyS hxy fuel s4 _ _ z h4 hy4 v2 hyn (by omega) h
        exact ⟨s', i1, (T.trans ((t3.trans t4).left hxy hyS)).trans i2, i3⟩
      · have hc : ¬ Mpi.cmpAbs ux uy ≥ 0 := by omega
        rw [if_neg hc]
        rw [if_neg hc] at h
        obtain ⟨t, u1, u2, u3, -⟩ := Mpi.subAbs_spec hb1 hyn hxn (by omega)
        obtain ⟨v1, v2, -⟩ := Mpi.shr_spec hw u3 1
        simp only [u1, Option.bind_eq_bind, Option.bind_some] at h
        obtain ⟨s3, e3, t3, h3⟩ := subAbs_inplace (S := S) h2 hx2.1.reads u1
        obtain ⟨s4, e4, t4, h4⟩ := shr_inplace (w := w) (S := S) h3 1
        rw [brk_ok e3, brk_ok e4]
        have hx4 : HoldsC ux nx (s4.obj x) := by rw [(t3.trans t4).frame x hxS hxy]; exact hx2
        obtain ⟨s', i1, i2, i3⟩ := gcdLoop_run hw hxS hyS hxy fuel s4 _ _ z hx4 h4 hxn v2 (by rw [v1]; omega) h
        exact ⟨s', i1, (T.trans ((t3.trans t4).right hxy hxS)).trans i2, i3⟩

/-- The turns of the loop on the shifted numbers. -/
theorem gcd_loop {x y : Mpi} (hw : 0 < w) (hx : Norm (2 ^ w) x) (hy : Norm (2 ^ w) y) (hx0 : 0 < val (2 ^ w) x.digs)
    (hy0 : 0 < val (2 ^ w) y.digs) {l : Nat} (hl : l = if Mpi.lsb w 0 y.digs < Mpi.lsb w 0 x.digs then Mpi.lsb w 0 y.digs else Mpi.lsb w 0 x.digs)
    {fuel : Nat} (hf : val (2 ^ w) (Mpi.shr w x l).digs + val (2 ^ w) (Mpi.shr w y l).digs < fuel) :
    ∃ z, Mpi.gcdLoop w 0 0 fuel (Mpi.shr w x l) (Mpi.shr w y l) = some z ∧ Norm (2 ^ w) z ∧
      val (2 ^ w) z.digs * 2 ^ l = Nat.gcd (val (2 ^ w) x.digs) (val (2 ^ w) y.digs) ∧ (z.neg = true → y.neg = true) ∧
      0 < val (2 ^ w) (Mpi.shr w y l).digs := by
  obtain ⟨a, ha⟩ := Mpi.lsb_spec 0 hx.digits (by omega)
  obtain ⟨b, hb⟩ := Mpi.lsb_spec 0 hy.digits (by omega)
  generalize Mpi.lsb w 0 x.digs = i at *
  generalize Mpi.lsb w 0 y.digs = j at *
  have hlz : l = min i j := by rw [hl]; split <;> omega
  rw [hlz] at hf ⊢
  obtain ⟨s1, s2, -⟩ := Mpi.shr_spec hw hx (min i j)
  obtain ⟨t1, t2, t3⟩ := Mpi.shr_spec hw hy (min i j)
  have cut : ∀ n k, min i j ≤ n → 2 ^ n * k / 2 ^ min i j = 2 ^ (n - min i j) * k := by
    intro n k hn
    conv_lhs => rw [show n = min i j + (n - min i j) by omega, pow_add, Nat.mul_assoc]
    exact Nat.mul_div_cancel_left _ (Nat.two_pow_pos _)
  have u1 : val (2 ^ w) (Mpi.shr w x (min i j)).digs = 2 ^ (i - min i j) * (2 * a + 1) := by
    rw [s1]; conv_lhs => rw [ha]
    exact cut i _ (by omega)
  have u2 : val (2 ^ w) (Mpi.shr w y (min i j)).digs = 2 ^ (j - min i j) * (2 * b + 1) := by
    rw [t1]; conv_lhs => rw [hb]
    exact cut j _ (by omega)
  have hpos : 0 < 2 ^ (j - min i j) * (2 * b + 1) := by positivity
  obtain ⟨z, z1, z2, z3, z4⟩ := Mpi.gcdLoop_spec hw 0 0 _ s2 t2 u1 u2 hf
  refine ⟨z, z1, z2, ?_, fun h => ?_, by omega⟩
  · rw [z3, ha, hb, Mpi.gcd_two_parts, Nat.mul_comm]
  · have h5 := z4 h
    rcases t3 with t3 | t3
    · rw [← t3]; exact h5
    · rw [t3, Mpi.val_nil] at u2
      omega

theorem val_pos_of_wf {m : Mpi} {z : Int} (h : WF (2 ^ w) m) (hz : m.toInt (2 ^ w) = z) (h0 : z ≠ 0) : 0 < val (2 ^ w) m.digs := by
  rw [Nat.pos_iff_ne_zero]
  intro e
  rw [Mpi.val_eq_zero_iff (Nat.two_pow_pos w) h.top] at e
  exact h0 (hz ▸ (Mpi.toInt_eq_zero_iff (Nat.two_pow_pos w) h.toNorm).2 e)

/-- Result of `cry_mpi_gcd`. -/
def GcdOf (w : Nat) (zx zy : Int) (o : Obj) : Prop := ∃ z : Int, V w z 0 o ∧ z.natAbs = Int.gcd zx zy ∧ (0 < zy → 0 < z)

theorem gcd_leaf (hw : DigitWidth w) {sp r x y : Nat} {s : St} {zx zy : Int} (hr : Any w (s.obj r)) (hx : (s.obj x).Shows w zx)
    (hy : (s.obj y).Shows w zy) (hx0 : zx ≠ 0) (hy0 : zy ≠ 0) (hrs : r < sp) (hxs : x < sp) (hys : y < sp) :
    Leaf sp s r (gcd w sp r x y) (GcdOf w zx zy) (Any w) := by
  have hw0 : 0 < w := by have := hw.pos; omega
  unfold gcd
  refine leaf_locals (w := w) hrs fun s1 h => ?_
  have hA : Le sp (Now s) (But s r (Any w)) := by
    intro v hv o ho
    unfold But
    by_cases hvr : v = r
    · subst hvr; rw [Function.update_self, ho]; exact hr
    · rw [Function.update_of_ne hvr]; exact ho
  have hlist : ∀ v, v ∈ [sp, sp + 1] ↔ sp ≤ v ∧ v < sp + 2 := by
    intro v
    simp only [List.mem_cons, List.not_mem_nil, or_false]
    omega
  refine initList_res (Q := fun z => V w z 8) hw0 h hlist hlist (by simp) hA (fun o ho => ho) fun s2 h => ?_
  have hle := Nums.lv (w := w) (k := 2) (L := List.replicate 2 0) hA (Q := fun z => V w z 8) (fun _ _ ho => ho.any.r)
  have n0 : ∀ i, i < 2 → Nums (fun z => V w z 8) sp (Now s) (List.replicate 2 0) (sp + i) = V w 0 8 := by
    intro i hi; rw [Nums.hi]; congr 1
    rcases i with _ | _ | i
    · rfl
    · rfl
    · omega
  have c0 : V w 0 8 (s2.obj sp) := by
    have := h.objs (sp + 0) (by omega)
    rw [n0 0 (by omega)] at this; exact this
  refine chk_leaf h hle (by omega) (copy_leaf c0 (by rw [show s2.obj x = s.obj x by have := h.objs x (by omega); rwa [Nums.lo hxs] at this]; exact hx))
    (fun o ho => by rw [Lv.mid (by omega) (by omega)]; exact ho.any.r) (fun o ho => by rw [Lv.mid (by omega) (by omega)]; exact ho.any.r)
    fun s3 h hle => ?_
  have c1 := h.objs (sp + 1) (by omega)
  rw [Function.update_of_ne (by omega), n0 1 (by omega)] at c1
  refine chk_leaf h hle (by omega) (copy_leaf c1 (by
      rw [show s3.obj y = s.obj y by have := h.objs y (by omega); rwa [Function.update_of_ne (by omega), Nums.lo hys] at this]; exact hy))
    (fun o ho => by rw [Lv.mid (by omega) (by omega)]; exact ho.any.r) (fun o ho => by rw [Lv.mid (by omega) (by omega)]; exact ho.any.r)
    fun s4 h hle => ?_
  have vx := h.objs sp (by omega)
  rw [Function.update_of_ne (by omega), Function.update_self] at vx
  have vy := h.objs (sp + 1) (by omega)
  rw [Function.update_self] at vy
  obtain ⟨mx, x1, x2, x3⟩ := vx
  obtain ⟨my, y1, y2, y3⟩ := vy
  have px := val_pos_of_wf x1 x2 hx0
  have py := val_pos_of_wf y1 y2 hy0
  refine WP.bind_run (lsb_run x3.1.reads (by omega)) (WP.bind_run (lsb_run y3.1.reads (by omega)) ?_)
  generalize hl : (if Mpi.lsb w 0 my.digs < Mpi.lsb w 0 mx.digs then Mpi.lsb w 0 my.digs else Mpi.lsb w 0 mx.digs) = l
  show WP (chk (shr w sp sp l) _) _ _
  obtain ⟨s5, e5, t5, h5⟩ := shr_inplace (w := w) (S := sp + 2) x3 l
  have y5 : HoldsC my 8 (s5.obj (sp + 1)) := by rw [t5.frame (sp + 1) (by omega) (by omega)]; exact y3
  obtain ⟨s6, e6, t6, h6⟩ := shr_inplace (w := w) (S := sp + 2) y5 l
  have x6 : HoldsC (Mpi.shr w mx l) 8 (s6.obj sp) := by rw [t6.frame sp (by omega) (by omega)]; exact h5
  refine WP.chk (WP.run e5 (Or.inl ⟨rfl, WP.chk (WP.run e6 (Or.inl ⟨rfl, ?_⟩))⟩))
  refine WP.bind_run (hdr_ok x6.1.1) (WP.bind_run (hdr_ok h6.1.1) ?_)
  obtain ⟨-, nx, -⟩ := Mpi.shr_spec hw0 x1.toNorm l
  obtain ⟨-, ny, -⟩ := Mpi.shr_spec hw0 y1.toNorm l
  obtain ⟨z, z1, z2, z3, z4, z5⟩ := gcd_loop hw0 x1.toNorm y1.toNorm px py hl.symm
    (fuel := 2 ^ (w * (Mpi.shr w mx l).digs.length) + 2 ^ (w * (Mpi.shr w my l).digs.length)) (by
      have l1 := Mpi.val_lt nx.digits
      have l2 := Mpi.val_lt ny.digits
      rw [← pow_mul] at l1 l2
      omega)
  obtain ⟨s7, e7, t7, h7, h8⟩ := gcdLoop_run hw0 (S := sp + 2) (by omega) (by omega) (by omega : sp ≠ sp + 1) _ s6 _ _ z x6 h6 nx ny z5 z1
  refine WP.bind_run e7 ?_
  have hat := step2_at h (by omega) (by omega) (by omega : sp ≠ sp + 1)
    (((t5.left (by omega) (by omega)).trans (t6.right (by omega) (by omega))).trans t7) h8 h7
  have gpos : 0 < Nat.gcd (val (2 ^ w) mx.digs) (val (2 ^ w) my.digs) := Nat.gcd_pos_of_pos_left _ px
  have zpos : 0 < val (2 ^ w) z.digs := by
    rw [← z3] at gpos
    exact Nat.pos_of_mul_pos_right gpos
  have zne : z.toInt (2 ^ w) ≠ 0 := by
    intro e
    rw [Mpi.toInt_eq_zero_iff (Nat.two_pow_pos w) z2] at e
    rw [e] at zpos
    exact absurd zpos (by simp)
  have vz : V w (z.toInt (2 ^ w)) 0 (s7.obj (sp + 1)) := R.v ⟨z, ⟨z2, rfl⟩, h7.1, Nat.zero_le _⟩ zne
  obtain ⟨st, s8, e8, t8, h9⟩ := shl_leaf (sp := sp + 2) hw0 vz vz.shows l (by omega)
  refine WP.bind_run e8 ?_
  have hgood : ∀ o, V w (z.toInt (2 ^ w) * 2 ^ l) 0 o → GcdOf w zx zy o := by
    intro o ho
    refine ⟨_, ho, ?_, fun hp => ?_⟩
    · rw [Int.natAbs_mul, Int.natAbs_pow, ← x2, ← y2, Int.gcd_def, Mpi.natAbs_toInt, Mpi.natAbs_toInt, Mpi.natAbs_toInt]
      exact z3
    · have : z.neg = false := by
        rw [← Bool.not_eq_true]
        intro e
        have := z4 e
        rw [Mpi.neg_iff_of_wf y1, y2] at this
        omega
      rw [Mpi.toInt_false this]
      positivity
  have fin : ∀ (P : Obj → Prop) (st : Int), P (s8.obj (sp + 1)) → (∀ o, P o → Any w o) →
      WP (do swap r (sp + 1); pure st : M Int) (fun st' s' => st' = st ∧ s8.tick ≤ s'.tick ∧
        At (ctxOf sp s) (Lv w sp (But s r P) 2) (sp + 2) s') s8 := by
    intro P st hP hany
    have h10 := step_at hat (by omega) t8 hP
    obtain ⟨s9, e9, l9, f9, k9, -⟩ := swap_run (a := r) (b := sp + 1) (s := s8)
    obtain ⟨u, s9', e9', h11⟩ := swap_at h10 (a := r) (b := sp + 1) (by omega) (by omega)
    rw [e9] at e9'
    injection e9' with e9'
    injection e9' with _ e9'
    subst e9'
    refine WP.bind_run e9 (WP.pure ⟨rfl, k9.ge, h11.le fun v hv o ho => ?_⟩)
    by_cases hv1 : v = sp + 1
    · subst hv1
      rw [Function.update_self, Function.update_of_ne (by omega), Function.update_of_ne (by omega), Function.update_of_ne (by omega),
        Function.update_of_ne (by omega), Function.update_of_ne (by omega), Nums.lo hrs] at ho
      rw [Lv.mid (by omega) (by omega), show o = s.obj r from ho]
      exact hr.r
    · rw [Function.update_of_ne hv1] at ho
      by_cases hv2 : v = r
      · subst hv2
        rw [Function.update_self, Function.update_self] at ho
        rw [Lv.lo hrs]
        unfold But
        rw [Function.update_self]; exact ho
      · rw [Function.update_of_ne hv2, Function.update_of_ne hv1, Function.update_of_ne hv1] at ho
        by_cases hv3 : v = sp
        · subst hv3
          rw [Function.update_self] at ho
          rw [Lv.mid (by omega) (by omega)]; exact ho
        · rw [Function.update_of_ne hv3, Function.update_of_ne hv1, Function.update_of_ne hv3, Nums.lo (by omega)] at ho
          rw [Lv.lo (by omega)]
          unfold But
          rw [Function.update_of_ne hv2]; exact ho
  rcases h9 with ⟨rfl, h9⟩ | ⟨rfl, hf, h9⟩
  · refine (fin _ 0 h9 (fun o ho => ho.any)).mono fun st s' ⟨a, b, c⟩ => Or.inl ⟨a, c.le fun v hv o ho => ?_⟩
    unfold Lv But at *
    by_cases hv1 : v < sp
    · rw [if_pos hv1] at *
      by_cases hv2 : v = r
      · subst hv2; rw [Function.update_self] at *; exact hgood _ ho
      · rw [Function.update_of_ne hv2] at *; exact ho
    · rw [if_neg hv1] at *; exact ho
  · obtain ⟨k, f1, f2, f3⟩ := hf
    refine (fin _ (-1) h9 (fun o ho => ho)).mono fun st s' ⟨a, b, c⟩ => Or.inr ⟨a, ⟨k, hat.tick.trans f1, f2.trans_le b, by rw [← hat.orc]; exact f3⟩, c⟩

/-! ### Least common multiple -/

/-- `cry_mpi_div` of numbers of the same sign is `cry_mpi_div_abs`. -/
theorem div_same (hw : DigitWidth w) {sp a b : Nat} {rq rr : Option Nat} {s : St} {za zb : Int} (ha : (s.obj a).Shows w za) (hb : (s.obj b).Shows w zb)
    (has : a < sp) (hbs : b < sp) (hb0 : zb ≠ 0) (hsg : za < 0 ↔ zb < 0) (hq : ∀ v, rq = some v → v < sp ∧ ∃ z, V w z 0 (s.obj v))
    (hr : ∀ v, rr = some v → v < sp ∧ Any w (s.obj v)) (hne : ∀ v, rq = some v → rr ≠ some v) :
    WP (div w sp rq rr a b)
      (Res (ctxOf sp s) sp (updO (updO (Now s) rq (V w (|za| / |zb|) 0)) rr (V w (if |za| < |zb| then za else |za| % |zb|) 0))
        (updO (updO (Now s) rq (Any w)) rr (Any w))) s := by
  obtain ⟨ma, a1, a2, aa, a4, a5⟩ := id ha
  obtain ⟨mb, b1, b2, ab, b4, b5⟩ := id hb
  have hga : (ma.neg = true ↔ za < 0) := by rw [Mpi.neg_iff_of_wf a1, a2]
  have hgb : (mb.neg = true ↔ zb < 0) := by rw [Mpi.neg_iff_of_wf b1, b2]
  have hx : ¬ (xor ma.neg mb.neg = true) := by
    rw [← hga, ← hgb] at hsg
    cases h1 : ma.neg <;> cases h2 : mb.neg <;> simp_all
  unfold div
  refine WP.bind_run (hdr_ok a4) (WP.bind_run (hdr_ok b4) ?_)
  dsimp only
  refine chk_res (divAbs_res hw ha hb has hbs hb0 (Nat.zero_le 2) hq hr hne) (Le.refl _ _) fun s1 h => ?_
  rw [if_neg hx]
  refine WP.pure (Or.inl ⟨rfl, h.le (updO_mono (updO_le fun o ho => ?_))⟩)
  obtain ⟨m, m1, m2, m3, _⟩ := ho
  exact ⟨m, m1, m2, m3⟩

theorem lcm_leaf (hw : DigitWidth w) {sp r x y : Nat} {s : St} {zx zy : Int} (hr : Any w (s.obj r)) (hx : (s.obj x).Shows w zx)
    (hy : (s.obj y).Shows w zy) (hx0 : 0 < zx) (hy0 : 0 < zy) (hrs : r < sp) (hxs : x < sp) (hys : y < sp) :
    Leaf sp s r (lcm w sp r x y) (V w (Int.lcm zx zy) 0) (Any w) := by
  have hw0 : 0 < w := by have := hw.pos; omega
  unfold lcm
  refine leaf_locals (w := w) hrs fun s1 h => ?_
  have hA : Le sp (Now s) (But s r (Any w)) := by
    intro v hv o ho
    unfold But
    by_cases hvr : v = r
    · subst hvr; rw [Function.update_self, ho]; exact hr
    · rw [Function.update_of_ne hvr]; exact ho
  have hlist : ∀ v, v ∈ [sp, sp + 1] ↔ sp ≤ v ∧ v < sp + 2 := by
    intro v
    simp only [List.mem_cons, List.not_mem_nil, or_false]
    omega
  refine initList_res (Q := fun z => V w z 8) hw0 h hlist hlist (by simp) hA (fun o ho => ho) fun s2 h => ?_
  have hle := Nums.lv (w := w) (k := 2) (L := List.replicate 2 0) hA (Q := fun z => V w z 8) (fun _ _ ho => ho.any.r)
  have n0 : ∀ i, i < 2 → Nums (fun z => V w z 8) sp (Now s) (List.replicate 2 0) (sp + i) = V w 0 8 := by
    intro i hi; rw [Nums.hi]; congr 1
    rcases i with _ | _ | i
    · rfl
    · rfl
    · omega
  have c0 : V w 0 8 (s2.obj sp) := by
    have := h.objs (sp + 0) (by omega)
    rw [n0 0 (by omega)] at this; exact this
  have ob2 : ∀ v, v < sp → s2.obj v = s.obj v := fun v hv => by
    have := h.objs v (by omega); rwa [Nums.lo hv] at this
  refine chk_leaf h hle (by omega) (gcd_leaf hw c0.any (by rw [ob2 x hxs]; exact hx) (by rw [ob2 y hys]; exact hy) (by omega) (by omega)
      (by omega) (by omega) (by omega))
    (fun o ho => by rw [Lv.mid (by omega) (by omega)]; exact ho.r) (fun o ho => by rw [Lv.mid (by omega) (by omega)]; obtain ⟨z, ho, _⟩ := ho; exact ho.any.r)
    fun s3 h hle => ?_
  have c1 := h.objs (sp + 1) (by omega)
  rw [Function.update_of_ne (by omega), n0 1 (by omega)] at c1
  have ob3 : ∀ v, v < sp → s3.obj v = s.obj v := fun v hv => by
    have := h.objs v (by omega); rwa [Function.update_of_ne (by omega), Nums.lo hv] at this
  refine chk_leaf h hle (by omega) (mul_leaf hw.pos c1.r (by rw [ob3 x hxs]; exact shows_rs hx) (by rw [ob3 y hys]; exact shows_rs hy)
      (by omega) (by omega) (by omega) (Or.inr (by omega)))
    (fun o ⟨z, ho⟩ => by rw [Lv.mid (by omega) (by omega)]; exact ho.any) (fun o ho => by rw [Lv.mid (by omega) (by omega)]; exact ho.any.r)
    fun s4 h hle => ?_
  have g4 := h.objs sp (by omega)
  rw [Function.update_of_ne (by omega), Function.update_self] at g4
  obtain ⟨g, g1, g2, g3⟩ := g4
  have p4 := h.objs (sp + 1) (by omega)
  rw [Function.update_self] at p4
  have ob4 : ∀ v, v < sp → s4.obj v = s.obj v := fun v hv => by
    have := h.objs v (by omega); rwa [Function.update_of_ne (by omega), Function.update_of_ne (by omega), Nums.lo hv] at this
  have hg := g3 hy0
  have hprod : 0 < zx * zy := by positivity
  have hd := div_same hw (sp := sp + 2) (rq := some r) (rr := none) p4.shows g1.shows (by omega) (by omega) (by omega) (by omega)
    (fun v e => by cases e; exact ⟨by omega, by rw [ob4 r hrs]; exact hr⟩) (fun v e => by cases e) (fun v _ => by simp)
  have hl := leaf_of_res (r := r) (by omega) hd
  have hval : |zx * zy| / |g| = (Int.lcm zx zy : Int) := by
    rw [abs_of_pos hprod, abs_of_pos hg]
    have e1 : (g : Int) = (Int.gcd zx zy : Int) := by omega
    rw [e1]
    have := Int.gcd_mul_lcm zx zy
    have e2 : zx * zy = ((zx * zy).natAbs : Int) := by omega
    rw [e2, Int.natAbs_mul, ← this]
    push_cast
    exact Int.mul_ediv_cancel_left _ (by omega)
  rw [hval] at hl
  refine (leaf_at h (by omega) hl).mono fun st s5 h5 => h5.le ?_ ?_
  · intro v hv o ho
    by_cases hv1 : v = r
    · subst hv1
      rw [Function.update_self] at ho
      rw [Lv.lo hrs]; unfold But; rw [Function.update_self]; exact ho
    · rw [Function.update_of_ne hv1] at ho
      have := hle v hv o ho
      unfold Lv But at *
      by_cases hv2 : v < sp
      · rw [if_pos hv2] at *; rw [Function.update_of_ne hv1] at *; exact this
      · rw [if_neg hv2] at *; exact this
  · intro v hv o ho
    by_cases hv1 : v = r
    · subst hv1
      rw [Function.update_self] at ho
      rw [Lv.lo hrs]; unfold But; rw [Function.update_self]; exact ho
    · rw [Function.update_of_ne hv1] at ho
      exact hle v hv o ho

end Verif.Mem
