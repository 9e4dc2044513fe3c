import Verif.Lemmas.Mem.Safe
/-! Memory safety of the point operations, whichever allocations fail. -/
namespace Verif.Mem
open Verif.Mpi

variable {w : Nat} {K : Ctx} {E A B G : Env} {S sp N : Nat} {s : St} {r x y g : Nat} {M : Int}

/-- The object at `x` can be read. -/
def Rd (w : Nat) (E : Env) (x : Nat) : Prop := ∀ o, E x o → ∃ z, o.Shows w z

theorem Rd.any (h : E x = Any w) : Rd w E x := fun o ho => by rw [h] at ho; exact ho.imp fun _ h => h.shows

theorem Le.set {P : Obj → Prop} (hb : Le S E B) (hP : ∀ o, P o → B r o) : Le S (Function.update E r P) B := hb.update hP

section
variable (h : At K E S s) (hr : r < S) (hE : E r = Any w)
include h hr hE

theorem here : Any w (s.obj r) := by have := h.objs r hr; rwa [hE] at this

theorem upd_any {P : Obj → Prop} (hP : ∀ o, P o → Any w o) : Le S (Function.update E r P) E :=
  (Le.refl _ _).update fun o ho => by rw [hE]; exact hP o ho

theorem mul_any_step (hw : DigitWidth w) (hx : Rd w E x) (hy : Rd w E y) (hxs : x < S) (hys : y < S) (hb : Le S E B) (hB : ∀ o, AnyR w o → B r o) :
    Safe K S E B (mul w S r x y s) := by
  obtain ⟨zr, vr⟩ := here h hr hE
  obtain ⟨zx, vx⟩ := hx _ (h.objs x hxs)
  obtain ⟨zy, vy⟩ := hy _ (h.objs y hys)
  exact Safe.of_leaf h hr (mul_leaf hw.pos ⟨_, ⟨vr.choose_spec.1.toNorm, vr.choose_spec.2.1⟩, vr.choose_spec.2.2⟩ (shows_rs vx) (shows_rs vy) hr hxs hys (Or.inl rfl)) (upd_any h hr hE fun o ho => ho.any) (hb.update hB)

theorem mod_any_step (hw : DigitWidth w) (hx : Rd w E x) (hg : ∀ o, E g o → o.Shows w M) (hM : 0 < M) (hxs : x < S) (hgs : g < S) (hgr : g ≠ r) (hb : Le S E B) :
    Safe K S E B (mod w S r x g s) := by
  obtain ⟨zx, vx⟩ := hx _ (h.objs x hxs)
  exact Safe.of_leaf h hr (mod_leaf hw vx (hg _ (h.objs g hgs)) hxs hgs hM hr (here h hr hE) (Or.inr hgr)) (upd_any h hr hE fun o ho => ho.any)
    ((upd_any h hr hE fun o ho => ho).trans hb)

theorem sub_any_step (hw : DigitWidth w) (hx : Rd w E x) (hy : Rd w E y) (hxs : x < S) (hys : y < S) (hb : Le S E B) : Safe K S E B (sub (2 ^ w) r x y s) := by
  obtain ⟨zr, vr⟩ := here h hr hE
  obtain ⟨zx, vx⟩ := hx _ (h.objs x hxs)
  obtain ⟨zy, vy⟩ := hy _ (h.objs y hys)
  exact Safe.of_leaf h hr (sub_leaf (by have := hw.pos; omega) vr vx vy) (upd_any h hr hE fun o ho => ho.any) ((upd_any h hr hE fun o ho => ho.any).trans hb)

theorem add_any_step (hw : DigitWidth w) (hx : Rd w E x) (hy : Rd w E y) (hxs : x < S) (hys : y < S) (hb : Le S E B) : Safe K S E B (add (2 ^ w) r x y s) := by
  obtain ⟨zr, vr⟩ := here h hr hE
  obtain ⟨zx, vx⟩ := hx _ (h.objs x hxs)
  obtain ⟨zy, vy⟩ := hy _ (h.objs y hys)
  exact Safe.of_leaf h hr (add_leaf (by have := hw.pos; omega) vr vx vy) (upd_any h hr hE fun o ho => ho.any) ((upd_any h hr hE fun o ho => ho.any).trans hb)

theorem copy_any_step (hx : Rd w E x) (hxs : x < S) (hb : Le S E B) : Safe K S E B (copy r x s) := by
  obtain ⟨zr, vr⟩ := here h hr hE
  obtain ⟨zx, vx⟩ := hx _ (h.objs x hxs)
  exact Safe.of_leaf h hr (copy_leaf vr vx) (upd_any h hr hE fun o ho => ho.any) ((upd_any h hr hE fun o ho => ho.any).trans hb)

theorem setInt_any_step (hw : DigitWidth w) {v : Int} (hv : v.natAbs < 2 ^ 63) (hb : Le S E B) : Safe K S E B (setInt w r v s) := by
  obtain ⟨zr, vr⟩ := here h hr hE
  exact Safe.of_leaf h hr (setInt_leaf hw vr hv) (upd_any h hr hE fun o ho => ho.any) ((upd_any h hr hE fun o ho => ho.any).trans hb)

theorem inv_any_step (hw : DigitWidth w) (hx : Rd w E x) (hg : ∀ o, E g o → o.Shows w M) (hM : 0 < M) (hxs : x < S) (hgs : g < S) (hgr : g ≠ r) (hb : Le S E B) :
    Safe K S E B (inv w S r x g s) := by
  have := inv_safe hw h hr hxs hgs (by rw [hE]; exact fun o ho => ho) hx hg hM hgr
  rw [show Function.update E r (Any w) = E by rw [← hE, Function.update_eq_self]] at this
  exact this.mono (Le.refl _ _) hb
end

theorem sqr_any_step (h : At K E S s) (hr : r < S) (hE : E r = V w 0 0) (hw : DigitWidth w) (hx : Rd w E x) (hxs : x < S)
    (hG : Le S (Function.update E r (Any w)) G) (hb : Le S E B) (hB : ∀ o, AnyR w o → B r o) : Safe K S G B (sqr w S r x s) := by
  have vr : V w 0 0 (s.obj r) := by have := h.objs r hr; rwa [hE] at this
  obtain ⟨zx, vx⟩ := hx _ (h.objs x hxs)
  exact Safe.of_leaf h hr (sqr_leaf_v hw.pos vr (Or.inl le_rfl) vx hr hxs)
    (((Le.refl S E).both fun o ho => ho.any).trans hG) (hb.update hB)

/-- The three numbers of the point at `q` are initialised. -/
def Rdy (w : Nat) (E : Env) (q : Nat) : Prop := E q = Any w ∧ E (q + 1) = Any w ∧ E (q + 2) = Any w
/-- The three numbers of the point at `q` can be read. -/
def Rd3 (w : Nat) (E : Env) (q : Nat) : Prop := Rd w E q ∧ Rd w E (q + 1) ∧ Rd w E (q + 2)

theorem Rdy.rd3 {q : Nat} (h : Rdy w E q) : Rd3 w E q := ⟨.any h.1, .any h.2.1, .any h.2.2⟩

variable {pr p1 p2 q : Nat}

theorem ecpCopy_safe (h : At K E S s) (hd : Rdy w E pr) (hq : Rd3 w E q) (hds : pr + 2 < S) (hqs : q + 2 < S) : Safe K S E E (ecpCopy pr q s) := by
  unfold ecpCopy
  refine chk_safe (copy_any_step h (by omega) hd.1 hq.1 (by omega) (Le.refl _ _)) (Le.refl _ _) fun s h => ?_
  refine chk_safe (copy_any_step h (by omega) hd.2.1 hq.2.1 (by omega) (Le.refl _ _)) (Le.refl _ _) fun s h => ?_
  exact copy_any_step h (by omega) hd.2.2 hq.2.2 (by omega) (Le.refl _ _)

theorem ecpSetZero_safe (hw : DigitWidth w) (h : At K E S s) (hd : Rdy w E pr) (hds : pr + 2 < S) : Safe K S E E (ecpSetZero w pr (pure 0) s) := by
  unfold ecpSetZero
  refine ign_safe (setInt_any_step h (by omega) hd.1 hw (by norm_num) (Le.refl _ _)) fun s h => ?_
  refine ign_safe (setInt_any_step h (by omega) hd.2.1 hw (by norm_num) (Le.refl _ _)) fun s h => ?_
  refine ign_safe (setInt_any_step h (by omega) hd.2.2 hw (by norm_num) (Le.refl _ _)) fun s h => ?_
  exact Or.inr ⟨0, s, rfl, Or.inl ⟨rfl, h⟩⟩

theorem swap_any (h : At K E S s) (ha : x < S) (hb : y < S) (hx : E x = Any w) (hy : E y = Any w) : ∃ s', swap x y s = .ok ((), s') ∧ At K E S s' := by
  obtain ⟨_, s', e, h'⟩ := swap_at h ha hb
  refine ⟨s', e, h'.le fun v hv o ho => ?_⟩
  by_cases q1 : v = y
  · subst q1; rw [Function.update_self, hx] at ho; rwa [hy]
  rw [Function.update_of_ne q1] at ho
  by_cases q2 : v = x
  · subst q2; rw [Function.update_self, hy] at ho; rwa [hx]
  rwa [Function.update_of_ne q2] at ho

theorem ecpSwap_any (h : At K E S s) (ha : pr + 2 < S) (hb : q + 2 < S) (hx : Rdy w E pr) (hy : Rdy w E q) : ∃ s', ecpSwap pr q s = .ok ((), s') ∧ At K E S s' := by
  obtain ⟨s1, e1, h1⟩ := swap_any h (by omega) (by omega) hx.1 hy.1
  obtain ⟨s2, e2, h2⟩ := swap_any h1 (by omega) (by omega) hx.2.1 hy.2.1
  obtain ⟨s3, e3, h3⟩ := swap_any h2 (by omega) (by omega) hx.2.2 hy.2.2
  exact ⟨s3, by unfold ecpSwap; rw [bind_ok e1, bind_ok e2, e3], h3⟩

theorem six_mem (v : Nat) : v ∈ [sp, sp + 1, sp + 2, sp + 3, sp + 4, sp + 5] ↔ sp ≤ v ∧ v < sp + 6 := by
  simp only [List.mem_cons, List.not_mem_nil, or_false]; omega

/-- The locals `num`, `den`, `lam` and `r` of the two additions, where `r.x` is still zero. -/
def Work0 (w sp : Nat) (A : Env) : Env := Function.update (Locals sp A (Any w)) (sp + 3) (V w 0 0)

theorem Work0.lo {v : Nat} (h : v < sp) : Work0 w sp A v = A v := by
  unfold Work0; rw [Function.update_of_ne (by omega), Locals.lo h]
theorem Work0.hi {v : Nat} (h : sp ≤ v) (h' : v ≠ sp + 3) : Work0 w sp A v = Any w := by
  unfold Work0; rw [Function.update_of_ne h', Locals.hi h]
theorem Work0.rx : Work0 w sp A (sp + 3) = V w 0 0 := Function.update_self _ _ _
theorem Work0.le : Le S (Work0 w sp A) (Locals sp A (Any w)) := Locals.upd (by omega) fun o ho => ho.any
theorem Work0.leR : Le S (Work0 w sp A) (Locals sp A (AnyR w)) := Work0.le.trans (Locals.mono fun o ho => ho.r)

/-! ### The coefficient of one zero digit -/

/-- The coefficient `a` can be read: a number, or the constant of one zero digit of three of the built-in groups. -/
def RdC (w : Nat) (E : Env) (x : Nat) : Prop := Rd w E x ∨ ∀ o, E x o → o.Reads ⟨false, [0]⟩

theorem RdC.congr {E' : Env} (h : RdC w E x) (e : E' x = E x) : RdC w E' x :=
  h.imp (fun h o ho => h o (by rwa [e] at ho)) fun h o ho => h o (by rwa [e] at ho)

/-- Some number that is not negative. -/
def AnyN (w : Nat) (o : Obj) : Prop := ∃ z, 0 ≤ z ∧ V w z 0 o
theorem AnyN.any {o : Obj} (h : AnyN w o) : Any w o := h.imp fun _ h => h.2

/-- Some number, or one zero digit. -/
def Zed (w : Nat) (o : Obj) : Prop := Any w o ∨ HoldsC ⟨false, [0]⟩ 0 o
/-- Some number, whose zero may carry a sign, or one zero digit. -/
def AnyZ (w : Nat) (o : Obj) : Prop := AnyR w o ∨ HoldsC ⟨false, [0]⟩ 0 o
theorem AnyZ.clr {o : Obj} (h : AnyZ w o) : Null o ∨ ∃ m, o.Holds m := h.elim (fun h => h.clr) fun h => Or.inr ⟨_, h.1⟩

/-- The locals of the doubling until `lam` is written, where `num` is only known to meet `P`. -/
def WorkD (w sp : Nat) (A : Env) (P : Obj → Prop) : Env :=
  Function.update (Function.update (Work0 w sp A) (sp + 2) (V w 0 0)) sp P

section
variable {P Q : Obj → Prop}
theorem WorkD.num : WorkD w sp A P sp = P := Function.update_self _ _ _
theorem WorkD.lam : WorkD w sp A P (sp + 2) = V w 0 0 := by unfold WorkD; rw [Function.update_of_ne (by omega), Function.update_self]
theorem WorkD.rx : WorkD w sp A P (sp + 3) = V w 0 0 := by
  unfold WorkD; rw [Function.update_of_ne (by omega), Function.update_of_ne (by omega), Work0.rx]
theorem WorkD.lo {v : Nat} (h : v < sp) : WorkD w sp A P v = A v := by
  unfold WorkD; rw [Function.update_of_ne (by omega), Function.update_of_ne (by omega), Work0.lo h]
theorem WorkD.hi {v : Nat} (h : sp < v) (h2 : v ≠ sp + 2) (h3 : v ≠ sp + 3) : WorkD w sp A P v = Any w := by
  unfold WorkD; rw [Function.update_of_ne (by omega), Function.update_of_ne (by omega), Work0.hi (by omega) h3]
theorem WorkD.set : Le S (Function.update (WorkD w sp A P) sp Q) (WorkD w sp A Q) := by
  unfold WorkD; rw [Function.update_idem]; exact Le.refl _ _
theorem WorkD.leB (hP : ∀ o, P o → AnyZ w o) : Le S (WorkD w sp A P) (Locals sp A (AnyZ w)) := by
  refine ((Work0.leR.trans (Locals.mono fun o ho => Or.inl ho)).update fun o ho => ?_).update fun o ho => ?_
  · rw [Locals.hi (by omega)]; exact Or.inl ho.any.r
  · rw [Locals.hi (by omega)]; exact hP o ho
end

theorem mod_nn_step (h : At K E S s) (hr : r < S) (hE : E r = Any w) (hw : DigitWidth w) (hx : Rd w E x) (hg : ∀ o, E g o → o.Shows w M) (hM : 0 < M)
    (hxs : x < S) (hgs : g < S) (hgr : g ≠ r) (hb : Le S E B) : Safe K S (Function.update E r (AnyN w)) B (mod w S r x g s) := by
  obtain ⟨zx, vx⟩ := hx _ (h.objs x hxs)
  refine Safe.of_leaf h hr (mod_leaf hw vx (hg _ (h.objs g hgs)) hxs hgs hM hr (here h hr hE) (Or.inr hgr)) ?_ ((upd_any h hr hE fun o ho => ho).trans hb)
  exact (Le.refl _ _).both fun o ho => ⟨_, Int.emod_nonneg _ (by omega), ho⟩

/-- Zero and one zero digit make one zero digit. -/
theorem add_zed_leaf (hw : 0 < w) {sp r y : Nat} {s : St} (hr : V w 0 0 (s.obj r)) (hy : (s.obj y).Reads ⟨false, [0]⟩) :
    Leaf sp s r (add (2 ^ w) r r y) (HoldsC ⟨false, [0]⟩ 0) (V w 0 0) := by
  obtain ⟨mr, r1, r2, r3⟩ := hr
  have hd : mr.digs = [] := (Mpi.toInt_eq_zero_iff (Nat.two_pow_pos w) r1.toNorm).1 r2
  have hn : mr.neg = false := V.nonneg_sign (n := 0) (o := s.obj r) hw r1 r2 (by omega)
  have hm : mr = ⟨false, []⟩ := by rw [← hn, ← hd]
  have x3 := r3.1.reads
  have e : add (2 ^ w) r r y s = signed (addAbs (2 ^ w) r r y) r false s := by
    obtain ⟨ax, hx1, hx2⟩ := x3
    obtain ⟨ay, hy1, hy2⟩ := hy
    unfold add
    rw [bind_ok (hdr_ok hx1), bind_ok (hdr_ok hy1), hn]
    exact congrFun (if_pos rfl) s
  have hadd : Mpi.addAbs (2 ^ w) mr ⟨false, [0]⟩ = ⟨false, [0]⟩ := by
    rw [hm]; simp [Mpi.addAbs, Mpi.addLoop, addCarry]
  have h1 := (addAbs_run (sp := sp) (b := 2 ^ w) r3 x3 hy).mono (g' := fun o => HoldsC ⟨false, [0]⟩ 0 o ∧ True)
    (fun o h => ⟨by rwa [hadd] at h, trivial⟩) (fun _ h => h)
  have h2 := setSign_leaf h1 false (fun _ _ _ => trivial)
  exact Leaf.congr (h2.mono (fun o h => h.1) (fun o h => ⟨mr, r1, r2, h⟩)) e

theorem addC_step (h : At K E S s) (hr : r < S) (hE : E r = AnyN w) (hw : DigitWidth w) (hy : RdC w E y) (hys : y < S) (hb : Le S E B) :
    Safe K S (Function.update E r (Zed w)) B (add (2 ^ w) r r y s) := by
  have hw0 : 0 < w := by have := hw.pos; omega
  have ho := h.objs r hr
  rw [hE] at ho
  obtain ⟨z, z0, vz⟩ := ho
  have up : ∀ {P : Obj → Prop}, (∀ o, P o → Zed w o) → Le S (Function.update E r P) (Function.update E r (Zed w)) := fun hP => Le.both (Le.refl _ _) hP
  have bad : Le S (Function.update E r (V w z 0)) B := hb.update fun o ho => hb r hr o (by rw [hE]; exact ⟨z, z0, ho⟩)
  rcases hy with hy | hy
  · obtain ⟨zy, vy⟩ := hy _ (h.objs y hys)
    exact Safe.of_leaf h hr (add_leaf hw0 vz vz.shows vy) (up fun o ho => Or.inl ho.any) bad
  have vy := hy _ (h.objs y hys)
  rcases z0.eq_or_lt with rfl | z1
  · exact Safe.of_leaf h hr (add_zed_leaf hw0 vz vy) (up fun o ho => Or.inr ho) bad
  · exact Safe.of_leaf h hr (add_coef_leaf hw0 vz vz.shows vy z1) (up fun o ho => Or.inl ho.any) bad

/-- One zero digit is smaller than any modulus and stays as it is. -/
theorem mod_zed_leaf (hw : 0 < w) {sp r m : Nat} {s : St} {zm : Int} {bad : Obj → Prop} (hr : HoldsC ⟨false, [0]⟩ 0 (s.obj r)) (hm : (s.obj m).Shows w zm)
    (hm0 : 0 < zm) (hrs : r < sp) (hms : m < sp) : Leaf sp s r (mod w sp r r m) (HoldsC ⟨false, [0]⟩ 0) bad := by
  obtain ⟨mm, m1, m2, m3⟩ := hm
  have hn : mm.neg = false := V.nonneg_sign (n := 0) (o := s.obj m) hw m1 m2 (by omega)
  have hd : mm.digs ≠ [] := fun h => by
    have := (Mpi.toInt_eq_zero_iff (Nat.two_pow_pos w) m1.toNorm).2 h
    omega
  have hc : Mpi.cmpAbs ⟨false, [0]⟩ mm < 0 := by
    obtain ⟨g, ds⟩ := mm
    match ds, hd, m2 with
    | [], hd, _ => exact absurd rfl hd
    | [d], _, m2 =>
      simp only at hn
      subst hn
      have : 0 < d := by simp [Mpi.Mpi.toInt, val] at m2; omega
      simp [Mpi.cmpAbs, Mpi.cmpDigs, this]
    | _ :: _ :: _, _, _ => simp [Mpi.cmpAbs]
  obtain ⟨am, hm1, hm2⟩ := id m3
  set s0 : St := { s with obj := fun p => if sp ≤ p ∧ p < sp + 5 then Obj.fresh else s.obj p } with hs0
  have ho : ∀ v, v < sp → s0.obj v = s.obj v := fun v hv => by rw [hs0]; dsimp only; rw [if_neg (by omega)]
  have hrun : divAbs w sp none (some r) r m s = .ok (0, s0) := by
    unfold divAbs
    rw [bind_ok (show decl sp 5 s = .ok ((), s0) from rfl), bind_ok (hdr_ok (s := s0) (by rw [ho m hms]; exact hm1))]
    dsimp only
    rw [if_neg (by simpa using hd), bind_ok (cmpAbs_run (s := s0) (mx := ⟨false, [0]⟩) (my := mm) (by rw [ho r hrs]; exact hr.1.reads) (by rw [ho m hms]; exact m3)), if_pos hc]
    unfold copy
    rw [if_pos rfl]
    rfl
  have : mod w sp r r m s = .ok (0, s0) := by
    unfold mod div
    rw [bind_ok (hdr_ok hr.1.1), bind_ok (hdr_ok hm1), chk_ok hrun]
    dsimp only
    rw [hn]
    rfl
  refine ⟨0, s0, this, ⟨fun v hv _ => ho v hv, ?_, rfl, le_refl _⟩, Or.inl ⟨rfl, by rw [ho r hrs]; exact hr⟩⟩
  show s.live + (s.obj r).owns = s.live + (s0.obj r).owns
  rw [ho r hrs]

theorem modZ_step (h : At K E S s) (hr : r < S) (hE : E r = Zed w) (hw : DigitWidth w) (hg : ∀ o, E g o → o.Shows w M) (hM : 0 < M)
    (hgs : g < S) (hgr : g ≠ r) (hb : Le S E B) : Safe K S E B (mod w S r r g s) := by
  have ho := h.objs r hr
  rw [hE] at ho
  have up : ∀ {P : Obj → Prop}, (∀ o, P o → Zed w o) → Le S (Function.update E r P) E := fun hP => (Le.refl _ _).update fun o ho => by rw [hE]; exact hP o ho
  rcases ho with ⟨z, vz⟩ | ho
  · exact Safe.of_leaf h hr (mod_leaf hw vz.shows (hg _ (h.objs g hgs)) hr hgs hM hr ⟨z, vz⟩ (Or.inr hgr)) (up fun o ho => Or.inl ho.any)
      ((up fun o ho => Or.inl ho).trans hb)
  · exact Safe.of_leaf h hr (mod_zed_leaf (bad := Any w) (by have := hw.pos; omega) ho (hg _ (h.objs g hgs)) hM hr hgs) (up fun o ho => Or.inr ho)
      ((up fun o ho => Or.inl ho).trans hb)

/-- The product with one zero digit is zero, and has no sign if the result had none. -/
theorem mul_zed_leaf (hw : 8 ≤ w) {sp r x y : Nat} {s : St} {zy : Int} (hr : V w 0 0 (s.obj r)) (hx : (s.obj x).Reads ⟨false, [0]⟩)
    (hy : (s.obj y).Shows w zy) (hrs : r < sp) (hxs : x < sp) (hys : y < sp) : Leaf sp s r (mul w sp r x y) (V w 0 0) (V w 0 0) := by
  obtain ⟨mr, r1, r2, r3⟩ := hr
  obtain ⟨my, y1, y2, y3⟩ := hy
  have hn : mr.neg = false := V.nonneg_sign (n := 0) (o := s.obj r) (by omega) r1 r2 (by omega)
  have h64 : 1 < 2 ^ w := Nat.one_lt_two_pow (by omega)
  obtain ⟨c1, c2, c3⟩ := Mpi.mulComba_spec (w := w) (x := ⟨false, [0]⟩) (y := my) (by omega) (if r = x ∨ r = y then false else mr.neg)
    (by intro d hd; simp at hd; omega) y1.toNorm.digits (by simp; omega)
  have hrun := mulComba_run (w := w) r3 hx y3 hrs hxs hys (Or.inl (Nat.zero_le _))
  generalize hm : Mpi.mulComba w (if r = x ∨ r = y then false else mr.neg) ⟨false, [0]⟩ my = m at *
  have hm0 : m.digs = [] := by
    rw [← Mpi.toInt_eq_zero_iff (Nat.two_pow_pos w) c2]
    have : val (2 ^ w) m.digs = 0 := by rw [c1]; simp [val]
    unfold Mpi.Mpi.toInt
    simp [this]
  have hmn : m.neg = false := by
    cases h : m.neg with
    | false => rfl
    | true => have := c3 h; rw [hn, ite_self] at this; cases this
  obtain ⟨st, s1, e1, t1, h1⟩ := hrun
  obtain ⟨ax, hx1, -⟩ := hx
  obtain ⟨ay, hy1, -⟩ := y3
  have e : mulAbs w (min 1 my.digs.length + 1) sp r x y s = .ok (st, s1) := by
    rw [mulAbs, bind_ok (hdr_ok hx1), bind_ok (hdr_ok hy1)]
    dsimp only [List.length_singleton]
    rw [if_neg (by omega), if_neg (by omega), e1]
  unfold Leaf mul mulWith
  rw [bind_ok (hdr_ok hx1), bind_ok (hdr_ok hy1)]
  dsimp only [List.length_singleton]
  rw [bind_ok (hdr_ok hx1), bind_ok (hdr_ok hy1)]
  dsimp only
  rw [bind_ok e]
  rcases h1 with ⟨rfl, h⟩ | ⟨rfl, hf, h⟩
  · rw [if_pos rfl, bind_ok (hdr_ok h.1.1)]
    dsimp only
    rw [if_neg (by simp [hm0])]
    exact ⟨0, s1, rfl, t1, Or.inl ⟨rfl, m, ⟨c2, fun _ => hmn⟩, by rw [Mpi.toInt_eq_zero_iff (Nat.two_pow_pos w) c2]; exact hm0, h⟩⟩
  · rw [if_neg (by decide)]
    exact ⟨-1, s1, rfl, t1, Or.inr ⟨rfl, hf, mr, r1, r2, h⟩⟩

theorem mulZ_step (h : At K E S s) (hr : r < S) (hE : E r = V w 0 0) (hw : DigitWidth w) (hx : E x = Zed w) (hy : Rd w E y) (hxs : x < S) (hys : y < S)
    (_hxr : x ≠ r) (hb : Le S E B) (hB : ∀ o, AnyR w o → B r o) : Safe K S (Function.update E r (Any w)) B (mul w S r x y s) := by
  have vr := h.objs r hr
  rw [hE] at vr
  obtain ⟨zy, vy⟩ := hy _ (h.objs y hys)
  have ox := h.objs x hxs
  rw [hx] at ox
  rcases ox with ⟨zx, vx⟩ | ox
  · exact Safe.of_leaf h hr (mul_leaf hw.pos vr.r vx.r.rs (shows_rs vy) hr hxs hys (Or.inl rfl)) (Le.both (Le.refl _ _) fun o ho => ho.any) (hb.update hB)
  · exact Safe.of_leaf h hr (mul_zed_leaf hw.pos vr ox.1.reads vy hr hxs hys) (Le.both (Le.refl _ _) fun o ho => ho.any) (hb.update fun o ho => hB o ho.any.r)

section
variable (hw : DigitWidth w) (hpr : Rdy w A pr) (h1 : Rd3 w A p1) (hg : ∀ o, A g o → o.Shows w M) (hM : 0 < M) (hprs : pr + 2 < sp)
  (h1s : p1 + 2 < sp) (hgs : g + 1 < sp)
include hw hpr h1 hg hM hprs h1s hgs

/-- The end of both additions, where the two locals in front are of no account. -/
theorem ecpTail_safe {p2 : Nat} {E B : Env} (h2 : Rd w A p2) (h2s : p2 < sp) (elo : ∀ v, v < sp → E v = A v) (e2 : E (sp + 2) = Any w)
    (e3 : E (sp + 3) = V w 0 0) (e4 : E (sp + 4) = Any w) (e5 : E (sp + 5) = Any w) (eb : Le (sp + 6) E B)
    (rb : ∀ v, sp + 2 ≤ v → ∀ o, AnyR w o → B v o) (h : At K E (sp + 6) s) :
    Safe K (sp + 6) B B ((
      chk (sqr w (sp + 6) (sp + 3) (sp + 2)) <|
      chk (mod w (sp + 6) (sp + 3) (sp + 3) g) <|
      chk (sub (2 ^ w) (sp + 3) (sp + 3) p1) <|
      chk (sub (2 ^ w) (sp + 3) (sp + 3) p2) <|
      chk (mod w (sp + 6) (sp + 3) (sp + 3) g) <|
      chk (sub (2 ^ w) (sp + 4) p1 (sp + 3)) <|
      chk (mul w (sp + 6) (sp + 4) (sp + 4) (sp + 2)) <|
      chk (mod w (sp + 6) (sp + 4) (sp + 4) g) <|
      chk (sub (2 ^ w) (sp + 4) (sp + 4) (p1 + 1)) <|
      chk (mod w (sp + 6) (sp + 4) (sp + 4) g) <|
      chk (setInt w (sp + 5) 1) do
        ecpSwap pr (sp + 3)
        pure 0) s) := by
  set L : Env := Function.update E (sp + 3) (Any w) with hL
  have ne : ∀ v, v ≠ sp + 3 → L v = E v := fun v hv => by rw [hL, Function.update_of_ne hv]
  have l3 : L (sp + 3) = Any w := by rw [hL, Function.update_self]
  have l2 : L (sp + 2) = Any w := by rw [ne _ (by omega), e2]
  have l4 : L (sp + 4) = Any w := by rw [ne _ (by omega), e4]
  have l5 : L (sp + 5) = Any w := by rw [ne _ (by omega), e5]
  have lo : ∀ v, v < sp → L v = A v := fun v hv => by rw [ne _ (by omega), elo v hv]
  have lb : Le (sp + 6) L B := eb.update fun o ho => rb _ (by omega) _ ho.r
  have rA : ∀ v, v < sp → Rd w A v → Rd w L v := fun v hv h o ho => h o (by rwa [lo v hv] at ho)
  have hg' : ∀ o, L g o → o.Shows w M := fun o ho => hg o (by rwa [lo g (by omega)] at ho)
  refine chk_safe (sqr_any_step (G := L) h (by omega) e3 hw (.any e2) (by omega) (Le.refl _ _) eb (rb _ (by omega))) (Le.refl _ _) fun s h => ?_
  refine chk_safe (mod_any_step h (by omega) l3 hw (.any l3) hg' hM (by omega) (by omega) (by omega) lb) (Le.refl _ _) fun s h => ?_
  refine chk_safe (sub_any_step h (by omega) l3 hw (.any l3) (rA p1 (by omega) h1.1) (by omega) (by omega) lb) (Le.refl _ _) fun s h => ?_
  refine chk_safe (sub_any_step h (by omega) l3 hw (.any l3) (rA p2 (by omega) h2) (by omega) (by omega) lb) (Le.refl _ _) fun s h => ?_
  refine chk_safe (mod_any_step h (by omega) l3 hw (.any l3) hg' hM (by omega) (by omega) (by omega) lb) (Le.refl _ _) fun s h => ?_
  refine chk_safe (sub_any_step h (by omega) l4 hw (rA p1 (by omega) h1.1) (.any l3) (by omega) (by omega) lb) (Le.refl _ _) fun s h => ?_
  refine chk_safe (mul_any_step h (by omega) l4 hw (.any l4) (.any l2) (by omega) (by omega) lb (rb _ (by omega))) (Le.refl _ _) fun s h => ?_
  refine chk_safe (mod_any_step h (by omega) l4 hw (.any l4) hg' hM (by omega) (by omega) (by omega) lb) (Le.refl _ _) fun s h => ?_
  refine chk_safe (sub_any_step h (by omega) l4 hw (.any l4) (rA _ (by omega) h1.2.1) (by omega) (by omega) lb) (Le.refl _ _) fun s h => ?_
  refine chk_safe (mod_any_step h (by omega) l4 hw (.any l4) hg' hM (by omega) (by omega) (by omega) lb) (Le.refl _ _) fun s h => ?_
  refine chk_safe (setInt_any_step h (by omega) l5 hw (by norm_num) lb) (Le.refl _ _) fun s h => ?_
  obtain ⟨s', e, h'⟩ := ecpSwap_any h (pr := pr) (q := sp + 3) (by omega) (by omega)
    ⟨by rw [lo _ (by omega), hpr.1], by rw [lo _ (by omega), hpr.2.1], by rw [lo _ (by omega), hpr.2.2]⟩ ⟨l3, l4, l5⟩
  rw [bind_ok e]
  exact Or.inr ⟨0, s', rfl, Or.inl ⟨rfl, h'.le lb⟩⟩

theorem ecpDbl_safe (ha : RdC w A (g + 1)) (h : At K A sp s) : Safe K sp A A (ecpDbl w sp pr p1 g s) := by
  unfold ecpDbl
  obtain ⟨s0, e0, h0⟩ := decl_run h 6
  rw [bind_ok e0]
  obtain ⟨zz, vz⟩ := h1.2.2 (s0.obj (p1 + 2)) (by have := h0.objs (p1 + 2) (by omega); rwa [Locals.lo (by omega)] at this)
  rw [bind_ok (ecpIsZero_run vz)]
  by_cases hz : zz = 0
  · rw [if_pos (by simpa using hz)]
    split_ifs
    · exact ecpCopy_safe (undecl h0) hpr h1 hprs h1s
    · exact Or.inr ⟨0, s0, rfl, Or.inl ⟨rfl, undecl h0⟩⟩
  rw [if_neg (by simpa using hz)]
  rcases initList_any (w := w) (by have := hw.pos; omega) h0 six_mem (by simp) with ⟨s1, e1, h1'⟩ | ⟨s1, e1, -, h1'⟩
  swap
  · rw [chk_fail e1 (by decide)]
    exact Or.inr ⟨-1, s1, rfl, Or.inr ⟨rfl, h1'⟩⟩
  rw [chk_ok e1]
  have h : At K (WorkD w sp A (Any w)) (sp + 6) s1 := h1'.le fun v hv o ho => by
    by_cases c' : v < sp
    · rw [NV.lo c'] at ho; rwa [WorkD.lo c']
    by_cases c : v = sp + 2 ∨ v = sp + 3
    · rcases c with c | c <;> subst c <;> rw [NV.hi] at ho
      · rw [WorkD.lam]; exact ho
      · rw [WorkD.rx]; exact ho
    · have := NV.toAny v hv o ho
      rw [Locals.hi (by omega)] at this
      by_cases c2 : v = sp
      · subst c2; rw [WorkD.num]; exact this
      · rw [WorkD.hi (by omega) (by omega) (by omega)]; exact this
  refine Safe.clear_of (P := AnyZ w) (N := 6) ?_ (fun o ho => ho.clr) six_mem
  clear h1' e1 vz e0 h0
  unfold ecpDblBody
  set B : Env := Locals sp A (AnyZ w) with hB
  have rb : ∀ v, sp ≤ v → ∀ o, AnyR w o → B v o := fun v hv o ho => by rw [hB, Locals.hi hv]; exact Or.inl ho
  have lb : ∀ {P : Obj → Prop}, (∀ o, P o → AnyZ w o) → Le (sp + 6) (WorkD w sp A P) B := fun hP => WorkD.leB hP
  have la : ∀ o, Any w o → AnyZ w o := fun o ho => Or.inl ho.r
  have lz : ∀ o, Zed w o → AnyZ w o := fun o ho => ho.imp (fun h => h.r) id
  have rA : ∀ {P : Obj → Prop} v, v < sp → Rd w A v → Rd w (WorkD w sp A P) v := fun v hv h o ho => h o (by rwa [WorkD.lo hv] at ho)
  have hg' : ∀ {P : Obj → Prop} o, WorkD w sp A P g o → o.Shows w M := fun o ho => hg o (by rwa [WorkD.lo (show g < sp by omega)] at ho)
  have ha' : ∀ {P : Obj → Prop}, RdC w (WorkD w sp A P) (g + 1) := fun {P} => ha.congr (WorkD.lo (by omega))
  have w0 : ∀ {P : Obj → Prop}, WorkD w sp A P sp = P := WorkD.num
  have w1 : ∀ {P : Obj → Prop}, WorkD w sp A P (sp + 1) = Any w := WorkD.hi (by omega) (by omega) (by omega)
  refine chk_safe (setInt_any_step h (by omega) w0 hw (by norm_num) (lb la)) (Le.refl _ _) fun s h => ?_
  refine chk_safe (mul_any_step h (by omega) w0 hw (.any w0) (rA p1 (by omega) h1.1) (by omega) (by omega) (lb la) (rb _ (by omega))) (Le.refl _ _) fun s h => ?_
  refine chk_safe (mul_any_step h (by omega) w0 hw (.any w0) (rA p1 (by omega) h1.1) (by omega) (by omega) (lb la) (rb _ (by omega))) (Le.refl _ _) fun s h => ?_
  refine chk_safe (mod_nn_step h (by omega) w0 hw (.any w0) hg' hM (by omega) (by omega) (by omega) (lb la)) (Le.refl _ _) fun s h => ?_
  replace h := h.le (WorkD.set (Q := AnyN w))
  refine chk_safe (addC_step h (by omega) w0 hw ha' (by omega) (lb fun o ho => la o ho.any)) (Le.refl _ _) fun s h => ?_
  replace h := h.le (WorkD.set (Q := Zed w))
  refine chk_safe (modZ_step h (by omega) w0 hw hg' hM (by omega) (by omega) (lb lz)) (Le.refl _ _) fun s h => ?_
  refine chk_safe (setInt_any_step h (by omega) w1 hw (by norm_num) (lb lz)) (Le.refl _ _) fun s h => ?_
  refine chk_safe (mul_any_step h (by omega) w1 hw (.any w1) (rA (p1 + 1) (by omega) h1.2.1) (by omega) (by omega) (lb lz) (rb _ (by omega))) (Le.refl _ _) fun s h => ?_
  refine chk_safe (inv_any_step h (by omega) w1 hw (.any w1) hg' hM (by omega) (by omega) (by omega) (lb lz)) (Le.refl _ _) fun s h => ?_
  refine chk_safe (mod_any_step h (by omega) w1 hw (.any w1) hg' hM (by omega) (by omega) (by omega) (lb lz)) (Le.refl _ _) fun s h => ?_
  refine chk_safe (mulZ_step h (by omega) WorkD.lam hw w0 (.any w1) (by omega) (by omega) (by omega) (lb lz) (rb _ (by omega))) (Le.refl _ _) fun s h => ?_
  set W : Env := Function.update (WorkD w sp A (Zed w)) (sp + 2) (Any w) with hW
  have ne : ∀ v, v ≠ sp + 2 → W v = WorkD w sp A (Zed w) v := fun v hv => by rw [hW, Function.update_of_ne hv]
  have wb : Le (sp + 6) W B := (lb lz).update fun o ho => rb _ (by omega) _ ho.r
  refine chk_safe (mod_any_step h (by omega) (by rw [ne _ (by omega), w1]) hw (.any (by rw [ne _ (by omega), w1])) (fun o ho => hg' o (by rwa [ne _ (by omega)] at ho)) hM (by omega) (by omega)
    (by omega) wb) (Le.refl _ _) fun s h => ?_
  exact ecpTail_safe hw hpr h1 hg hM hprs h1s hgs h1.1 (by omega) (fun v hv => by rw [ne _ (by omega), WorkD.lo hv]) (by rw [hW, Function.update_self])
    (by rw [ne _ (by omega), WorkD.rx]) (by rw [ne _ (by omega), WorkD.hi (by omega) (by omega) (by omega)])
    (by rw [ne _ (by omega), WorkD.hi (by omega) (by omega) (by omega)]) wb (fun v hv => rb v (by omega)) h

theorem ecpAdd_safe (ha : RdC w A (g + 1)) (h2 : Rd3 w A p2) (h2s : p2 + 2 < sp) (h : At K A sp s) : Safe K sp A A (ecpAdd w sp pr p1 p2 g s) := by
  unfold ecpAdd
  obtain ⟨s0, e0, h0⟩ := decl_run h 2
  rw [bind_ok e0]
  obtain ⟨z1, v1⟩ := h1.2.2 (s0.obj (p1 + 2)) (by have := h0.objs (p1 + 2) (by omega); rwa [Locals.lo (by omega)] at this)
  obtain ⟨z2, v2⟩ := h2.2.2 (s0.obj (p2 + 2)) (by have := h0.objs (p2 + 2) (by omega); rwa [Locals.lo (by omega)] at this)
  rw [bind_ok (ecpIsZero_run v1)]
  by_cases hz : z1 = 0
  · rw [if_pos (by simpa using hz)]
    split_ifs
    · exact ecpCopy_safe (undecl h0) hpr h2 hprs h2s
    · exact Or.inr ⟨0, s0, rfl, Or.inl ⟨rfl, undecl h0⟩⟩
  rw [if_neg (by simpa using hz), bind_ok (ecpIsZero_run v2)]
  by_cases hz2 : z2 = 0
  · rw [if_pos (by simpa using hz2)]
    split_ifs
    · exact ecpCopy_safe (undecl h0) hpr h1 hprs h1s
    · exact Or.inr ⟨0, s0, rfl, Or.inl ⟨rfl, undecl h0⟩⟩
  rw [if_neg (by simpa using hz2)]
  have two_mem : ∀ v, v ∈ [sp, sp + 1] ↔ sp ≤ v ∧ v < sp + 2 := fun v => by simp only [List.mem_cons, List.not_mem_nil, or_false]; omega
  have four_mem : ∀ v, v ∈ [sp + 2, sp + 3, sp + 4, sp + 5] ↔ sp + 2 ≤ v ∧ v < sp + 2 + 4 := fun v => by
    simp only [List.mem_cons, List.not_mem_nil, or_false]; omega
  rcases initList_any (w := w) (by have := hw.pos; omega) h0 two_mem (by simp) with ⟨s1, e1, h1'⟩ | ⟨s1, e1, -, h1'⟩
  swap
  · rw [chk_fail e1 (by decide)]
    exact Or.inr ⟨-1, s1, rfl, Or.inr ⟨rfl, h1'⟩⟩
  rw [chk_ok e1]
  refine Safe.clear (w := w) (N := 2) ?_ two_mem
  replace h1' := h1'.le NV.toAny
  set B : Env := Locals sp A (AnyR w) with hB
  set L : Env := Locals sp A (Any w) with hL
  have hi : ∀ v, sp ≤ v → L v = Any w := fun v hv => by rw [hL, Locals.hi hv]
  have lo : ∀ v, v < sp → L v = A v := fun v hv => by rw [hL, Locals.lo hv]
  have lb : ∀ {S}, Le S L B := Locals.mono fun o ho => ho.r
  have rA : ∀ v, v < sp → Rd w A v → Rd w L v := fun v hv h o ho => h o (by rwa [lo v hv] at ho)
  have hg' : ∀ o, L g o → o.Shows w M := fun o ho => hg o (by rwa [lo g (by omega)] at ho)
  have w0 : L sp = Any w := hi _ (by omega)
  have w1 : L (sp + 1) = Any w := hi _ (by omega)
  have hpr' : Rdy w L pr := ⟨by rw [lo _ (by omega), hpr.1], by rw [lo _ (by omega), hpr.2.1], by rw [lo _ (by omega), hpr.2.2]⟩
  have h1L : Rd3 w L p1 := ⟨rA _ (by omega) h1.1, rA _ (by omega) h1.2.1, rA _ (by omega) h1.2.2⟩
  refine chk_safe (sub_any_step h1' (by omega) w0 hw (rA _ (by omega) h2.2.1) (rA _ (by omega) h1.2.1) (by omega) (by omega) lb) (Le.refl _ _) fun s h => ?_
  refine chk_safe (mod_any_step h (by omega) w0 hw (.any w0) hg' hM (by omega) (by omega) (by omega) lb) (Le.refl _ _) fun s h => ?_
  refine chk_safe (sub_any_step h (by omega) w1 hw (rA _ (by omega) h2.1) (rA _ (by omega) h1.1) (by omega) (by omega) lb) (Le.refl _ _) fun s h => ?_
  refine chk_safe (mod_any_step h (by omega) w1 hw (.any w1) hg' hM (by omega) (by omega) (by omega) lb) (Le.refl _ _) fun s h => ?_
  obtain ⟨zd, md, d1, d2, d3⟩ := here h (by omega) w1
  obtain ⟨zn, mn, n1, n2, n3⟩ := here h (by omega) w0
  rw [bind_ok (hdr_ok d3.1.1)]
  split_ifs with c1
  · rw [bind_ok (hdr_ok n3.1.1)]
    split_ifs with c2
    · exact (ecpDbl_safe hw hpr' h1L hg' hM (by omega) (by omega) (by omega) (ha.congr (lo _ (by omega))) h).mono lb lb
    · exact (ecpSetZero_safe hw h hpr' (by omega)).mono lb lb
  obtain ⟨s2, e2, h2'⟩ := decl_run h 4
  rw [bind_ok e2]
  rcases initList_any (w := w) (by have := hw.pos; omega) h2' four_mem (by simp) with ⟨s3, e3, h3⟩ | ⟨s3, e3, -, h3⟩
  swap
  · rw [chk_fail e3 (by decide)]
    exact Or.inr ⟨-1, s3, rfl, Or.inr ⟨rfl, h3.le lb⟩⟩
  rw [chk_ok e3]
  refine Safe.clear (w := w) (N := 4) ?_ four_mem
  have hBB : Locals (sp + 2) B (AnyR w) = B := by
    funext v
    by_cases c : v < sp + 2
    · rw [Locals.lo c]
    · rw [Locals.hi (by omega), hB, Locals.hi (by omega)]
  rw [hBB]
  replace h3 : At K (Work0 w sp A) (sp + 6) s3 := h3.le fun v hv o ho => by
    by_cases c : v = sp + 3
    · subst c; rw [show sp + 3 = sp + 2 + 1 from rfl, NV.hi] at ho; rw [Work0.rx]; exact ho
    have := NV.toAny v hv o ho
    by_cases c2 : v < sp
    · rw [Locals.lo (by omega), lo v c2] at this; rwa [Work0.lo c2]
    rw [Work0.hi (by omega) c]
    by_cases c3 : v < sp + 2
    · rwa [Locals.lo c3, hi v (by omega)] at this
    · rwa [Locals.hi (by omega)] at this
  unfold ecpAddBody
  set W : Env := Work0 w sp A with hW
  have lb : Le (sp + 6) W B := Work0.leR
  have rb : ∀ v, sp ≤ v → ∀ o, AnyR w o → B v o := fun v hv o ho => by rw [hB, Locals.hi hv]; exact ho
  have hg' : ∀ o, W g o → o.Shows w M := fun o ho => hg o (by rwa [hW, Work0.lo (by omega)] at ho)
  have w0 : W sp = Any w := Work0.hi (by omega) (by omega)
  have w1 : W (sp + 1) = Any w := Work0.hi (by omega) (by omega)
  have w2 : W (sp + 2) = Any w := Work0.hi (by omega) (by omega)
  refine chk_safe (inv_any_step h3 (by omega) w1 hw (.any w1) hg' hM (by omega) (by omega) (by omega) lb) (Le.refl _ _) fun s h => ?_
  refine chk_safe (mul_any_step h (by omega) w2 hw (.any w0) (.any w1) (by omega) (by omega) lb (rb _ (by omega))) (Le.refl _ _) fun s h => ?_
  refine chk_safe (mod_any_step h (by omega) w2 hw (.any w2) hg' hM (by omega) (by omega) (by omega) lb) (Le.refl _ _) fun s h => ?_
  exact ecpTail_safe hw hpr h1 hg hM hprs h1s hgs h2.1 (by omega) (fun v hv => Work0.lo hv) w2 Work0.rx (Work0.hi (by omega) (by omega))
    (Work0.hi (by omega) (by omega)) lb (fun v hv => rb v (by omega)) h
end

end Verif.Mem
