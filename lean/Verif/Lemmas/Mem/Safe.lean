import Verif.Lemmas.Mem.ElgamalAny
/-! Memory safety of the inverse, whichever allocations fail. -/
namespace Verif.Mem
open Verif.Mpi

variable {w : Nat} {K : Ctx} {E A B G B1 G1 : Env} {S sp N : Nat} {s : St}

/-- How a call ends: not at all, or with 0 and everything as in `G`, or with −1 and everything as in `B`. -/
def Safe (K : Ctx) (S : Nat) (G B : Env) (run : Out (Int × St)) : Prop :=
  run = .hang ∨ ∃ st s', run = .ok (st, s') ∧ ((st = 0 ∧ At K G S s') ∨ (st = -1 ∧ At K B S s'))

theorem Safe.mono {run : Out (Int × St)} (h : Safe K S G1 B1 run) (hg : Le S G1 G) (hb : Le S B1 B) : Safe K S G B run := by
  rcases h with h | ⟨st, s', e, h⟩
  · exact Or.inl h
  · exact Or.inr ⟨st, s', e, h.imp (fun h => ⟨h.1, h.2.le hg⟩) fun h => ⟨h.1, h.2.le hb⟩⟩

theorem Safe.of_res {c : M Int} (h : WP c (Res K S G B) s) : Safe K S G B (c s) := by
  obtain ⟨st, s', e, h⟩ := h
  exact Or.inr ⟨st, s', e, h.imp id fun h => ⟨h.1, h.2.2⟩⟩

theorem Safe.of_leaf {c : M Int} {good bad : Obj → Prop} {r : Nat} (h : At K E S s) (hr : r < S) (hl : Leaf S s r c good bad)
    (hg : Le S (Function.update E r good) G) (hb : Le S (Function.update E r bad) B) : Safe K S G B (c s) :=
  (Safe.of_res (leaf_at h hr hl)).mono hg hb

theorem Safe.ret (st : Int) (hst : st = 0 ∨ st = -1) (hg : st = 0 → At K G S s) (hb : st = -1 → At K B S s) : Safe K S G B ((pure st : M Int) s) :=
  Or.inr ⟨st, s, rfl, hst.imp (fun h => ⟨h, hg h⟩) fun h => ⟨h, hb h⟩⟩

theorem hang_through {α β : Type} {c : M α} {f : α → M β} (h : c s = .hang) : (c >>= f) s = .hang := by
  rw [bind_apply, h]

theorem chk_safe {c k : M Int} (h : Safe K S G1 B1 (c s)) (hb : Le S B1 B) (hk : ∀ s', At K G1 S s' → Safe K S G B (k s')) :
    Safe K S G B (chk c k s) := by
  rcases h with h | ⟨st, s', e, ⟨rfl, h⟩ | ⟨rfl, h⟩⟩
  · exact Or.inl (hang_through h)
  · rw [chk_ok e]; exact hk s' h
  · exact Or.inr ⟨-1, s', chk_fail e (by decide), Or.inr ⟨rfl, h.le hb⟩⟩

theorem ign_safe {c k : M Int} (h : Safe K S G1 G1 (c s)) (hk : ∀ s', At K G1 S s' → Safe K S G B (k s')) : Safe K S G B (ign c k s) := by
  rcases h with h | ⟨st, s', e, h⟩
  · exact Or.inl (hang_through h)
  · rw [ign_run e]; exact hk s' (h.elim (fun h => h.2) fun h => h.2)

/-- The locals are cleared at the end. -/
theorem Safe.clear {c : M Int} {as : List Nat} (h : Safe K (sp + N) (Locals sp G (AnyR w)) (Locals sp B (AnyR w)) (c s))
    (has : ∀ v, v ∈ as ↔ sp ≤ v ∧ v < sp + N) : Safe K sp G B ((do let st ← c; clearList as; pure st : M Int) s) := by
  rcases h with h | ⟨st, s1, e, ⟨rfl, h⟩ | ⟨rfl, h⟩⟩
  · exact Or.inl (hang_through h)
  · obtain ⟨s2, e2, h2, -⟩ := clearList_anyR h has
    exact Or.inr ⟨0, s2, by rw [bind_ok e, bind_ok e2]; rfl, Or.inl ⟨rfl, h2⟩⟩
  · obtain ⟨s2, e2, h2, -⟩ := clearList_anyR h has
    exact Or.inr ⟨-1, s2, by rw [bind_ok e, bind_ok e2]; rfl, Or.inr ⟨rfl, h2⟩⟩

/-- The locals are cleared at the end, whatever they hold. -/
theorem Safe.clear_of {c : M Int} {as : List Nat} {P : Obj → Prop} (h : Safe K (sp + N) (Locals sp G P) (Locals sp B P) (c s))
    (hP : ∀ o, P o → Null o ∨ ∃ m, o.Holds m) (has : ∀ v, v ∈ as ↔ sp ≤ v ∧ v < sp + N) : Safe K sp G B ((do let st ← c; clearList as; pure st : M Int) s) := by
  have key : ∀ {E : Env} {s1 : St}, At K (Locals sp E P) (sp + N) s1 → ∃ s2, clearList as s1 = .ok ((), s2) ∧ At K E sp s2 := fun {E s1} h => by
    obtain ⟨s', e, h', t⟩ := clearList_at as _ s1 h (fun a ha => ((has a).1 ha).2) (fun a ha o ho => by
      rw [Locals.hi ((has a).1 ha).1] at ho
      exact hP o ho)
    refine ⟨s', e, (exit_at h' fun v h1 h2 o ho => ?_).le fun v hv o ho => ?_⟩
    · unfold Sets at ho
      rw [if_pos ((has v).2 ⟨h1, h2⟩)] at ho
      rw [ho]; rfl
    · unfold Sets at ho
      rw [if_neg (by rw [has]; omega), Locals.lo hv] at ho
      exact ho
  rcases h with h | ⟨st, s1, e, ⟨rfl, h⟩ | ⟨rfl, h⟩⟩
  · exact Or.inl (hang_through h)
  · obtain ⟨s2, e2, h2⟩ := key h
    exact Or.inr ⟨0, s2, by rw [bind_ok e, bind_ok e2]; rfl, Or.inl ⟨rfl, h2⟩⟩
  · obtain ⟨s2, e2, h2⟩ := key h
    exact Or.inr ⟨-1, s2, by rw [bind_ok e, bind_ok e2]; rfl, Or.inr ⟨rfl, h2⟩⟩

theorem Locals.upd {P Q : Obj → Prop} {r : Nat} (hr : sp ≤ r) (h : ∀ o, Q o → P o) : Le S (Function.update (Locals sp A P) r Q) (Locals sp A P) :=
  (Le.refl _ _).update fun o ho => by rw [Locals.hi hr]; exact h o ho
theorem Locals.mono {P Q : Obj → Prop} (h : ∀ o, P o → Q o) : Le S (Locals sp A P) (Locals sp A Q) := fun v _ o ho => by
  by_cases hv : v < sp
  · rw [Locals.lo hv] at *; exact ho
  · rw [Locals.hi (by omega)] at *; exact h o ho
theorem NV.toAny {L : List Int} : Le S (NV w sp A L) (Locals sp A (Any w)) := by
  intro v _ o ho
  by_cases h : v < sp
  · rw [NV.lo h] at ho; rw [Locals.lo h]; exact ho
  · obtain ⟨j, rfl⟩ := Nat.exists_eq_add_of_le (Nat.le_of_not_lt h)
    rw [NV.hi] at ho
    rw [Locals.hi (by omega)]
    exact ho.any

/-- The difference with a number whose zero may carry a sign. -/
theorem sub_leaf_rs {sp r x y : Nat} {s : St} {zr zx zy : Int} {n : Nat} (hw : 0 < w) (hr : V w zr n (s.obj r)) (hx : (s.obj x).Shows w zx)
    (hy : RS w zy (s.obj y)) : Leaf sp s r (sub (2 ^ w) r x y) (V w (zx - zy) n) (V w zr n) := by
  obtain ⟨mr, r1, r2, r3⟩ := hr
  obtain ⟨mx, x1, x2, x3⟩ := hx
  obtain ⟨my, y1, y3⟩ := hy
  obtain ⟨m, e, hl⟩ := sub_run (sp := sp) (two_lt hw) r3 x3 y3 x1.toNorm y1.1
  obtain ⟨m', e', v, hn, hz⟩ := Mpi.sub_norm (two_lt hw) x1.toNorm y1.1
  rw [e] at e'; cases e'
  refine hl.mono (fun o h => ⟨m, ⟨hn, fun h0 => ?_⟩, by rw [v, x2, y1.2], h.1⟩) (fun o h => ⟨mr, r1, r2, h⟩)
  cases hz' : m.neg with
  | false => rfl
  | true =>
    obtain ⟨h1, h2, -⟩ := hz h0 hz'
    rw [x1.2 h2] at h1; cases h1

/-- The environment after a division. -/
def AfterDiv (w : Nat) (E : Env) (u vr : Nat) : Env := Function.update (Function.update E u (AnyR w)) vr (Any w)

theorem div_safe (hw : DigitWidth w) (h : At K E S s) {a b u vr : Nat} {za zb zq : Int} (ha : (s.obj a).Shows w za) (hb : (s.obj b).Shows w zb)
    (hb0 : zb ≠ 0) (has : a < S) (hbs : b < S) (hu : u < S) (hq : V w zq 0 (s.obj u)) (hrs : vr < S) (hr : Any w (s.obj vr)) (hne : u ≠ vr)
    (hbr : b ≠ vr) (hbu : b ≠ u) : Safe K S (AfterDiv w E u vr) (AfterDiv w E u vr) (div w S (some u) (some vr) a b s) := by
  have hw8 := hw.pos
  have hw0 : 0 < w := by omega
  obtain ⟨ma, a1, a2, aa, a4, a5⟩ := id ha
  obtain ⟨mb, b1, b2, ab, b4, b5⟩ := id hb
  unfold div
  rw [bind_ok (hdr_ok a4), bind_ok (hdr_ok b4)]
  obtain ⟨st, s1, e1, h1⟩ := divAbs_res hw ha hb has hbs hb0 (n := 0) (rq := some u) (rr := some vr) (by omega)
    (fun v hv => by cases hv; exact ⟨hu, zq, hq⟩) (fun v hv => by cases hv; exact ⟨hrs, hr⟩) (fun v hv e => by cases hv; cases e; exact hne rfl)
  have back : ∀ {P Q : Obj → Prop} {s' : St}, (∀ o, P o → AnyR w o) → (∀ o, Q o → Any w o) →
      At (ctxOf S s) (updO (updO (Now s) (some u) P) (some vr) Q) S s' → At K (AfterDiv w E u vr) S s' := fun {P Q s'} hP hQ h' =>
    (h.lift h').le fun v hv o ho => by
      unfold AfterDiv
      simp only [updO] at ho
      by_cases g1 : v = vr
      · subst g1; rw [Function.update_self] at *; exact hQ _ ho
      rw [Function.update_of_ne g1] at *
      by_cases g2 : v = u
      · subst g2; rw [Function.update_self] at *; exact hP _ ho
      rw [Function.update_of_ne g2] at *
      rw [show o = s.obj v from ho]; exact h.objs v hv
  rcases h1 with ⟨rfl, h1⟩ | ⟨rfl, -, h1⟩
  swap
  · rw [chk_fail e1 (by decide)]
    exact Or.inr ⟨-1, s1, rfl, Or.inr ⟨rfl, back (fun o ho => ho.r) (fun o ho => ho) h1⟩⟩
  rw [chk_ok e1]
  have a1' : At K (AfterDiv w E u vr) S s1 := back (fun o ⟨m, m1, m2, m3, _⟩ => ⟨_, m, ⟨m1.toNorm, rfl⟩, m3.1, Nat.zero_le _⟩) (fun o ho => ho.any) h1
  dsimp only
  have done : Safe K S (AfterDiv w E u vr) (AfterDiv w E u vr) ((pure 0 : M Int) s1) := Or.inr ⟨0, s1, rfl, Or.inl ⟨rfl, a1'⟩⟩
  split_ifs with hx
  swap
  · exact done
  have hvr : V w (if |za| < |zb| then za else |za| % |zb|) 0 (s1.obj vr) := by
    have := h1.objs vr hrs; simp only [updO, Function.update_self] at this; exact this
  have hvu : QO w 0 (|za| / |zb|) (s1.obj u) := by
    have := h1.objs u hu; simp only [updO] at this; rwa [Function.update_of_ne hne, Function.update_self] at this
  have hvb : s1.obj b = s.obj b := by
    have := h1.objs b hbs; simp only [updO] at this; rwa [Function.update_of_ne hbr, Function.update_of_ne hbu] at this
  obtain ⟨mr, r1, r2, r3⟩ := id hvr
  rw [bind_ok (hdr_ok r3.1.1)]
  dsimp only
  split_ifs with hz
  swap
  · exact done
  obtain ⟨mq, q1, q2, q3, -⟩ := hvu
  -- the quotient
  let s2 : St := s1.set S ⟨some ⟨false, 1, 1⟩, .mem false [some 1]⟩
  have es : setObj S ⟨some ⟨false, 1, 1⟩, .mem false [some 1]⟩ s1 = .ok ((), s2) := rfl
  have hlo : ∀ v, v ≠ S → s2.obj v = s1.obj v := fun v hv => set_obj_ne _ _ hv
  have hsp : s2.obj S = ⟨some ⟨false, 1, 1⟩, .mem false [some 1]⟩ := set_obj_same _ _ _
  obtain ⟨s3, e3, t3, h3⟩ := sign_run (S := S + 1) (g := true) (s := s2) (v := u) (n := 0) (m := mq) (by rw [hlo u (by omega)]; exact q3)
  have hone : (s3.obj S).Reads ⟨false, [1]⟩ := by
    rw [t3.frame S (by omega) (by omega), hsp]; exact ⟨1, rfl, List.prefix_rfl⟩
  have hn : Norm (2 ^ w) ⟨true, mq.digs⟩ := ⟨q1.digits, q1.top⟩
  have hn1 : Norm (2 ^ w) ⟨false, [1]⟩ := ⟨by simp; have := two_lt hw0; omega, by unfold Mpi.TopNZ; simp⟩
  obtain ⟨m', e, hl⟩ := sub_run (sp := S + 1) (two_lt hw0) (n := 0) h3 h3.1.reads hone hn hn1
  obtain ⟨m'', e', -, hn', -⟩ := Mpi.sub_norm (two_lt hw0) hn hn1
  rw [e] at e'; cases e'
  obtain ⟨st, s4, e4, t4, hout⟩ := hl
  have hu4 : AnyR w (s4.obj u) := by
    rcases hout with ⟨-, h⟩ | ⟨-, -, h⟩
    · exact ⟨_, m', ⟨hn', rfl⟩, h.1⟩
    · exact ⟨_, _, ⟨hn, rfl⟩, h⟩
  have t : Step S s1 s4 u := ⟨fun v hv hv' => by rw [t4.frame v (by omega) hv', t3.frame v (by omega) hv', hlo v (by omega)], by
      have b3 := t3.live
      have b4 := t4.live
      rw [hlo u (by omega)] at b3
      have : s2.live = s1.live := rfl
      omega, by rw [t4.fails, t3.fails]; rfl, by
      have c3 := t3.tick
      have c4 := t4.tick
      have : s2.tick = s1.tick := rfl
      omega⟩
  have a4' : At K (AfterDiv w E u vr) S s4 := (step_at a1' hu t hu4).le ((Le.refl _ _).update fun o ho => by
    unfold AfterDiv; rw [Function.update_of_ne hne, Function.update_self]; exact ho)
  -- the remainder
  have hbpos : 0 < |zb| := abs_pos.2 hb0
  have hlt : |(if |za| < |zb| then za else |za| % |zb|)| ≤ |zb| := by
    split_ifs with g
    · omega
    · rw [abs_of_nonneg (Int.emod_nonneg _ (by omega))]; exact (Int.emod_lt_of_pos _ hbpos).le
  have hv4 : s4.obj vr = s1.obj vr := t.frame vr hrs (fun e => hne e.symm)
  have hb4 : s4.obj b = s1.obj b := t.frame b hbs hbu
  have fin := Safe.of_leaf a4' hrs (subAbs_leaf hw0 (sp := S) (s := s4) (r := vr) (x := b) (y := vr) (by rw [hv4]; exact hvr) (by rw [hb4, hvb]; exact hb)
    (by rw [hv4]; exact hvr.shows) hlt) (G := AfterDiv w E u vr) (B := AfterDiv w E u vr)
    ((Le.refl _ _).update fun o ho => by unfold AfterDiv; rw [Function.update_self]; exact ho.any)
    ((Le.refl _ _).update fun o ho => by unfold AfterDiv; rw [Function.update_self]; exact ho.any)
  rw [bind_ok es, bind_ok e3, bind_ok e4]
  exact fin

theorem zero_anyR {v : Nat} (h : AnyR w (s.obj v)) : ∃ s', zero v s = .ok ((), s') ∧ Step S s s' v ∧ V w 0 0 (s'.obj v) := by
  obtain ⟨z, m, m1, m2⟩ := h
  refine ⟨_, zero_ok m2.1.1, Step.upd _ _ _ _ _, ⟨false, []⟩, ⟨Mpi.norm_zero _ _, fun _ => rfl⟩, rfl, ?_⟩
  rw [upd_obj_same]
  exact ⟨holds_upd (m' := ⟨false, []⟩) m2.1 rfl List.nil_prefix, by rw [cells_upd rfl]; exact m2.2⟩

/-- The loop, whatever its variables hold and whichever allocations fail. -/
theorem invLoop_safe (hw : DigitWidth w) {k : M Int} (hk : ∀ s', At K (Locals sp A (Any w)) (sp + 5) s' → Safe K (sp + 5) G B (k s')) :
    ∀ (fuel : Nat) (s : St), At K (Locals sp A (Any w)) (sp + 5) s →
      Safe K (sp + 5) G B (invLoop w (sp + 5) sp (sp + 1) (sp + 2) (sp + 3) (sp + 4) k fuel s)
  | 0, s, _ => Or.inl rfl
  | fuel + 1, s, h => by
    have hw0 : 0 < w := by have := hw.pos; omega
    have g : ∀ {s : St}, At K (Locals sp A (Any w)) (sp + 5) s → ∀ i, i < 5 → Any w (s.obj (sp + i)) := fun h i hi => by
      have := h.objs (sp + i) (by omega); rwa [Locals.hi (by omega)] at this
    obtain ⟨z0, v0⟩ := g h 0 (by omega)
    obtain ⟨z1, v1⟩ := g h 1 (by omega)
    obtain ⟨z4, v4⟩ := g h 4 (by omega)
    obtain ⟨m1, p1, p2, p3⟩ := id v1
    rw [invLoop, bind_ok (hdr_ok p3.1.1)]
    dsimp only
    split_ifs with hz
    · exact hk s h
    have h10 : z1 ≠ 0 := fun e => hz (by
      rw [e] at p2
      rw [(Mpi.toInt_eq_zero_iff (Nat.two_pow_pos w) p1.toNorm).1 p2]; rfl)
    set E1 : Env := Function.update (Locals sp A (Any w)) (sp + 4) (AnyR w) with hE1
    have hE1v : ∀ v, v ≠ sp + 4 → E1 v = Locals sp A (Any w) v := fun v hv => Function.update_of_ne hv _ _
    have hE1q : E1 (sp + 4) = AnyR w := Function.update_self _ _ _
    have g1 : ∀ {s : St}, At K E1 (sp + 5) s → ∀ i, i < 4 → Any w (s.obj (sp + i)) := fun h i hi => by
      have := h.objs (sp + i) (by omega); rwa [hE1v _ (by omega), Locals.hi (by omega)] at this
    have gq : ∀ {s : St}, At K E1 (sp + 5) s → AnyR w (s.obj (sp + 4)) := fun h => by
      have := h.objs (sp + 4) (by omega); rwa [hE1q] at this
    refine ign_safe (G1 := E1) ((div_safe hw h (a := sp) (b := sp + 1) (u := sp + 4) (vr := sp) v0.shows v1.shows h10 (by omega) (by omega) (by omega) v4
      (by omega) v0.any (by omega) (by omega) (by omega)).mono ?_ ?_) fun s1 h1 => ?_
    iterate 2
      · exact (Le.refl _ _).update fun o ho => by rw [← hE1, hE1v _ (by omega), Locals.hi (by omega)]; exact ho
    obtain ⟨_, s2, e2, h2⟩ := swap_at h1 (a := sp) (b := sp + 1) (by omega) (by omega)
    rw [bind_ok e2]
    replace h2 : At K E1 (sp + 5) s2 := h2.le fun v hv o ho => by
      by_cases q1 : v = sp + 1
      · subst q1; rw [Function.update_self, hE1v _ (by omega), Locals.hi (by omega)] at ho; rw [hE1v _ (by omega), Locals.hi (by omega)]; exact ho
      rw [Function.update_of_ne q1] at ho
      by_cases q2 : v = sp
      · subst q2; rw [Function.update_self, hE1v _ (by omega), Locals.hi (by omega)] at ho; rw [hE1v _ (by omega), Locals.hi (by omega)]; exact ho
      rwa [Function.update_of_ne q2] at ho
    obtain ⟨zq, vq⟩ := gq h2
    obtain ⟨z3, v3⟩ := g1 h2 3 (by omega)
    refine ign_safe (G1 := E1) (Safe.of_leaf h2 (r := sp + 4) (by omega) (mul_leaf hw.pos vq vq.rs v3.rs (by omega) (by omega) (by omega) (Or.inl rfl))
      ((Le.refl _ _).update fun o ho => by rw [hE1q]; exact ho.any.r) ((Le.refl _ _).update fun o ho => by rw [hE1q]; exact ho)) fun s3 h3 => ?_
    obtain ⟨zq, vq⟩ := gq h3
    obtain ⟨z2, v2⟩ := g1 h3 2 (by omega)
    refine ign_safe (G1 := E1) (Safe.of_leaf h3 (r := sp + 2) (by omega) (sub_leaf_rs hw0 v2 v2.shows vq.rs)
      ((Le.refl _ _).update fun o ho => by rw [hE1v _ (by omega), Locals.hi (by omega)]; exact ho.any)
      ((Le.refl _ _).update fun o ho => by rw [hE1v _ (by omega), Locals.hi (by omega)]; exact ho.any)) fun s4 h4 => ?_
    obtain ⟨_, s5, e5, h5⟩ := swap_at h4 (a := sp + 2) (b := sp + 3) (by omega) (by omega)
    rw [bind_ok e5]
    replace h5 : At K E1 (sp + 5) s5 := h5.le fun v hv o ho => by
      by_cases q1 : v = sp + 3
      · subst q1; rw [Function.update_self, hE1v _ (by omega), Locals.hi (by omega)] at ho; rw [hE1v _ (by omega), Locals.hi (by omega)]; exact ho
      rw [Function.update_of_ne q1] at ho
      by_cases q2 : v = sp + 2
      · subst q2; rw [Function.update_self, hE1v _ (by omega), Locals.hi (by omega)] at ho; rw [hE1v _ (by omega), Locals.hi (by omega)]; exact ho
      rwa [Function.update_of_ne q2] at ho
    obtain ⟨s6, e6, t6, h6⟩ := zero_anyR (S := sp + 5) (gq h5)
    rw [bind_ok e6]
    refine invLoop_safe hw hk fuel s6 ((step_at h5 (by omega) t6 h6).le fun v hv o ho => ?_)
    by_cases q1 : v = sp + 4
    · subst q1; rw [Function.update_self] at ho; rw [Locals.hi (by omega)]; exact ho.any
    · rwa [Function.update_of_ne q1, hE1v _ q1] at ho

theorem five_mem (v : Nat) : v ∈ [sp, sp + 1, sp + 2, sp + 3, sp + 4] ↔ sp ≤ v ∧ v < sp + 5 := by
  simp only [List.mem_cons, List.not_mem_nil, or_false]; omega

theorem invTurns_safe (hw : DigitWidth w) (turns : Nat → Nat) (h : At K A sp s) {r a m : Nat} {M : Int} (hrs : r < sp) (has : a < sp) (hms : m < sp) (hr : ∀ o, A r o → Any w o)
    (ha : ∀ o, A a o → ∃ z, o.Shows w z) (hm : ∀ o, A m o → o.Shows w M) (hM : 0 < M) (hrm : m ≠ r) :
    Safe K sp (Function.update A r (Any w)) (Function.update A r (Any w)) (invTurns turns w sp r a m s) := by
  have hw0 : 0 < w := by have := hw.pos; omega
  have hA : Le sp A (Function.update A r (Any w)) := fun v _ o ho => by
    by_cases e : v = r
    · subst e; rw [Function.update_self]; exact hr o ho
    · rwa [Function.update_of_ne e]
  unfold invTurns
  obtain ⟨s0, e0, h0⟩ := decl_run h 5
  rw [bind_ok e0]
  rcases initList_any hw0 h0 five_mem (by simp) with ⟨s1, e1, h1⟩ | ⟨s1, e1, -, h1⟩
  swap
  · rw [chk_fail e1 (by decide)]
    exact Or.inr ⟨-1, s1, rfl, Or.inr ⟨rfl, h1.le hA⟩⟩
  rw [chk_ok e1]
  replace h1 := h1.le NV.toAny
  set L : Env := Locals sp A (Any w) with hL
  have g : ∀ {s : St}, At K L (sp + 5) s → ∀ i, i < 5 → Any w (s.obj (sp + i)) := fun h i hi => by
    have := h.objs (sp + i) (by omega); rwa [hL, Locals.hi (by omega)] at this
  have ga : ∀ {s : St}, At K L (sp + 5) s → ∀ v, v < sp → A v (s.obj v) := fun h v hv => by
    have := h.objs v (by omega); rwa [hL, Locals.lo hv] at this
  have up : ∀ {i : Nat} {z : Int} {n : Nat}, i < 5 → Le (sp + 5) (Function.update L (sp + i) (V w z n)) L := fun {i z n} hi =>
    Locals.upd (by omega) fun o ho => ho.any
  refine Safe.clear (w := w) (N := 5) ?_ five_mem
  obtain ⟨z0, v0⟩ := g h1 0 (by omega)
  obtain ⟨za, va⟩ := ha _ (ga h1 a has)
  refine ign_safe (G1 := L) (Safe.of_leaf h1 (r := sp) (by omega) (copy_leaf v0 va) (up (i := 0) (by omega)) (up (i := 0) (by omega))) fun s2 h2 => ?_
  obtain ⟨z1, v1⟩ := g h2 1 (by omega)
  refine ign_safe (G1 := L) (Safe.of_leaf h2 (r := sp + 1) (by omega) (copy_leaf v1 (hm _ (ga h2 m hms))) (up (by omega)) (up (by omega))) fun s3 h3 => ?_
  obtain ⟨z2, v2⟩ := g h3 2 (by omega)
  refine ign_safe (G1 := L) (Safe.of_leaf h3 (r := sp + 2) (by omega) (setInt_leaf hw v2 (v := 1) (by norm_num)) (up (by omega)) (up (by omega))) fun s4 h4 => ?_
  obtain ⟨z3, v3⟩ := g h4 3 (by omega)
  refine ign_safe (G1 := L) (Safe.of_leaf h4 (r := sp + 3) (by omega) (setInt_leaf hw v3 (v := 0) (by norm_num)) (up (by omega)) (up (by omega))) fun s5 h5 => ?_
  obtain ⟨z1, m1, p1, p2, p3⟩ := g h5 1 (by omega)
  rw [bind_ok (hdr_ok p3.1.1)]
  refine invLoop_safe hw (fun s6 h6 => ?_) _ s5 h5
  change At K L (sp + 5) s6 at h6
  obtain ⟨z0, m0, q1, q2, q3⟩ := g h6 0 (by omega)
  rw [Nat.add_zero] at q3
  set A' : Env := Function.update A r (Any w) with hA'
  have one : ∃ b, isOne sp s6 = .ok (b, s6) := by
    unfold isOne
    rw [bind_ok (hdr_ok q3.1.1)]
    dsimp only
    split_ifs with hc
    · obtain ⟨d, hd⟩ : ∃ d, m0.digs = [d] := List.length_eq_one_iff.1 hc.1
      have : rd sp 0 s6 = .ok (d, s6) := rd_ok (by
        have := q3.1.2.1
        rw [hd] at this
        obtain ⟨t, ht⟩ := this
        rw [← ht]; rfl)
      rw [bind_ok this]; exact ⟨_, rfl⟩
    · exact ⟨false, rfl⟩
  obtain ⟨b, eb⟩ := one
  rw [bind_ok eb]
  cases b with
  | false =>
    rw [if_neg (by decide)]
    obtain ⟨s7, e7, t7, h7⟩ := zero_anyR (S := sp + 5) (g h6 2 (by omega)).r
    rw [bind_ok e7]
    refine Or.inr ⟨-1, s7, rfl, Or.inr ⟨rfl, ?_⟩⟩
    refine ((step_at h6 (by omega) t7 h7).le (up (by omega))).le fun v hv o ho => ?_
    by_cases c : v < sp
    · rw [hL, Locals.lo c] at ho; rw [Locals.lo c]; exact hA v c o ho
    · rw [hL, Locals.hi (by omega)] at ho; rw [Locals.hi (by omega)]; exact ho.r
  | true =>
    rw [if_pos rfl]
    obtain ⟨_, s7, e7, h7⟩ := swap_at h6 (a := r) (b := sp + 2) (by omega) (by omega)
    rw [bind_ok e7]
    replace h7 : At K (Locals sp A' (Any w)) (sp + 5) s7 := h7.le fun v hv o ho => by
      by_cases c1 : v = sp + 2
      · subst c1; rw [Function.update_self, hL, Locals.lo hrs] at ho; rw [Locals.hi (by omega)]; exact hr o ho
      rw [Function.update_of_ne c1] at ho
      by_cases c2 : v = r
      · subst c2; rw [Function.update_self, hL, Locals.hi (by omega)] at ho; rw [Locals.lo hrs, hA', Function.update_self]; exact ho
      rw [Function.update_of_ne c2] at ho
      by_cases c : v < sp
      · rw [hL, Locals.lo c] at ho; rw [Locals.lo c, hA', Function.update_of_ne c2]; exact ho
      · rw [hL, Locals.hi (by omega)] at ho; rw [Locals.hi (by omega)]; exact ho
    have vr : Any w (s7.obj r) := by
      have := h7.objs r (by omega); rwa [Locals.lo hrs, hA', Function.update_self] at this
    have vm : (s7.obj m).Shows w M := hm _ (by
      have := h7.objs m (by omega); rwa [Locals.lo hms, hA', Function.update_of_ne hrm] at this)
    have fin : Le (sp + 5) (Locals sp A' (Any w)) (Locals sp A' (AnyR w)) := Locals.mono fun o ho => ho.r
    obtain ⟨zr, mr, r1, r2, r3⟩ := id vr
    rw [bind_ok (hdr_ok r3.1.1)]
    have upr : ∀ {P : Obj → Prop}, (∀ o, P o → Any w o) → Le (sp + 5) (Function.update (Locals sp A' (Any w)) r P) (Locals sp A' (AnyR w)) := fun {P} hP =>
      fin.update fun o ho => by rw [Locals.lo hrs, hA', Function.update_self]; exact hP o ho
    split_ifs
    · refine ign_safe (G1 := Locals sp A' (AnyR w)) (Safe.of_leaf h7 (r := r) (by omega) (mod_leaf hw (V.shows ⟨mr, r1, r2, r3⟩) vm (by omega) (by omega) hM (by omega) vr
        (Or.inr hrm)) (upr fun o ho => ho.any) (upr fun o ho => ho)) fun s8 h8 => Or.inr ⟨0, s8, rfl, Or.inl ⟨rfl, h8⟩⟩
    · exact Or.inr ⟨0, s7, rfl, Or.inl ⟨rfl, h7.le fin⟩⟩

theorem inv_safe (hw : DigitWidth w) (h : At K A sp s) {r a m : Nat} {M : Int} (hrs : r < sp) (has : a < sp) (hms : m < sp) (hr : ∀ o, A r o → Any w o)
    (ha : ∀ o, A a o → ∃ z, o.Shows w z) (hm : ∀ o, A m o → o.Shows w M) (hM : 0 < M) (hrm : m ≠ r) :
    Safe K sp (Function.update A r (Any w)) (Function.update A r (Any w)) (inv w sp r a m s) := invTurns_safe hw _ h hrs has hms hr ha hm hM hrm

end Verif.Mem
