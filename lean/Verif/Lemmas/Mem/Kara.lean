import Verif.Lemmas.Mem.Frame
/-! Karatsuba multiplication in memory. -/
namespace Verif.Mem
open Verif.Mpi (Mpi Norm WF val Rep)

variable {w : Nat}

set_option hygiene false in
/-- Find what an environment says about an address. -/
macro "env_at" : tactic => `(tactic| (intro o ho; try simp (disch := omega) only [Nat.add_zero, Function.update_of_ne, Function.update_self, Locals.lo, Locals.hi] at ho))
set_option hygiene false in
macro "env_r" : tactic => `(tactic| (env_at; first | exact ho | exact V.r ho))
set_option hygiene false in
macro "env_v" : tactic => `(tactic| (env_at; first | exact ho | exact R.v ho (by omega)))
set_option hygiene false in
macro "env_rs" : tactic => `(tactic| (env_at; first | exact R.rs ho | exact V.rs ho))
set_option hygiene false in
/-- A local may hold any number when the function fails. -/
macro "env_b" : tactic => `(tactic| (intro o ho; rw [Lv.mid (by omega) (by omega)]; exact ho))

theorem Lv.le_res {sp S i r : Nat} {s : St} {E : Env} {P Q : Obj → Prop} (hr : r < sp) (h : Le S E (Lv w sp (But s r P) i)) :
    Le S (Function.update E r Q) (Lv w sp (But s r Q) i) := by
  intro v hv o ho
  by_cases hvr : v = r
  · subst hvr
    rw [Function.update_self] at ho
    rw [Lv.lo hr]; unfold But; rw [Function.update_self]; exact ho
  · rw [Function.update_of_ne hvr] at ho
    have := h v hv o ho
    unfold Lv But at *
    rw [Function.update_of_ne hvr] at this ⊢
    exact this

theorem Lv.at_r {sp i r : Nat} {s : St} {P : Obj → Prop} (hr : r < sp) {o : Obj} (h : P o) : Lv w sp (But s r P) i r o := by
  rw [Lv.lo hr]; unfold But; rw [Function.update_self]; exact h

/-- A multiplication of numbers that are not negative, into a local. -/
theorem st_mulpos {f : Nat} {mul : Nat → Nat → Nat → Nat → M Int} (hm : MulOn w f mul) {K : Ctx} {E G B : Env} {S r x y n : Nat} {s : St} {k : M Int}
    {zr zx zy : Int} (h : At K E S s) (hle : Le S E B) (hr : ∀ o, E r o → V w zr n o) (hx : ∀ o, E x o → RS w zx o)
    (hy : ∀ o, E y o → RS w zy o) (hrs : r < S) (hxs : x < S) (hys : y < S) (hB : ∀ o, AnyR w o → B r o) (hz : 0 ≤ zr) (hzx : 0 ≤ zx) (hzy : 0 ≤ zy)
    (hl : zx.natAbs < (2 ^ w) ^ f ∨ zy.natAbs < (2 ^ w) ^ f)
    (hk : ∀ s', At K (Function.update E r (V w (zx * zy) 0)) S s' → Le S (Function.update E r (V w (zx * zy) 0)) B → WP k (Res K S G B) s') :
    WP (chk (mul S r x y) k) (Res K S G B) s := by
  obtain ⟨mr, r1, r2, r3⟩ := hr _ (h.objs _ hrs)
  refine chk_leaf h hle hrs ((hm S s r x y mr zr zx zy 0 ⟨r1.toNorm, r2⟩ ⟨r3.1, Nat.zero_le _⟩ (hx _ (h.objs _ hxs)) (hy _ (h.objs _ hys))
    hrs hxs hys (Or.inl rfl) hl).mono (g' := V w (zx * zy) 0) (fun o ho => ?_) (fun o ho => ho)) ?_ (fun o ho => hB o ho.r.any) hk
  · obtain ⟨m, m1, m2, m3, m4, m5⟩ := ho
    have hneg : mr.neg = false := by rw [← Bool.not_eq_true, Mpi.neg_iff_of_wf r1, r2]; omega
    have hg := m3 hneg hzx hzy
    refine ⟨m, Mpi.wf_of_norm_false m1 hg, ?_, m5⟩
    rw [Mpi.toInt_false hg, m2]
    push_cast
    rw [abs_of_nonneg hzx, abs_of_nonneg hzy]
  · rintro o ⟨z, ho⟩
    exact hB o ho.any

theorem v_of_holds {ds : List Nat} {o : Obj} (hn : Norm (2 ^ w) ⟨false, ds⟩) (h : o.Holds ⟨false, ds⟩) : V w (val (2 ^ w) ds : Nat) 0 o :=
  ⟨_, Mpi.wf_of_norm_false hn rfl, Mpi.toInt_false rfl, h, Nat.zero_le _⟩

theorem kara_prod (hw : 0 < w) {f : Nat} {mul : Nat → Nat → Nat → Nat → M Int} (hm : MulOn w f mul) {sp r a b n : Nat} {s : St} {mr ma mb : Mpi}
    {zr : Int} (hr : Rep w mr zr) (hr' : HoldsC mr n (s.obj r)) (ha : Norm (2 ^ w) ma) (ha' : (s.obj a).Reads ma)
    (hb : Norm (2 ^ w) mb) (hb' : (s.obj b).Reads mb) (hrs : r < sp) (has : a < sp) (hbs : b < sp)
    (hl : 4 < min ma.digs.length mb.digs.length) (hf : min ma.digs.length mb.digs.length ≤ f + 1) :
    Leaf sp s r (mulKaratsuba w mul sp r a b) (R w ((val (2 ^ w) ma.digs * val (2 ^ w) mb.digs : Nat) : Int) n) (R w zr n) := by
  unfold mulKaratsuba
  refine leaf_locals (w := w) hrs fun s1 h => ?_
  have hle := Lv.start (w := w) (sp := sp) (k := 7) (s := s) (r := r) (P := R w zr n) ⟨mr, hr, hr'⟩
  have ea : s1.obj a = s.obj a := by have := h.objs a (by omega); rwa [Locals.lo has] at this
  have eb : s1.obj b = s.obj b := by have := h.objs b (by omega); rwa [Locals.lo hbs] at this
  obtain ⟨aa, ha1, -⟩ := id ha'
  obtain ⟨ab, hb1, -⟩ := id hb'
  refine WP.bind_run (hdr_ok (by rw [ea, ha1])) (WP.bind_run (hdr_ok (by rw [eb, hb1])) ?_)
  dsimp only
  rw [if_neg (by omega)]
  generalize hhB : min ma.digs.length mb.digs.length / 2 = hB
  obtain ⟨na0, na1, va, la0⟩ := Mpi.split_low ha hB (by omega)
  obtain ⟨nb0, nb1, vb, lb0⟩ := Mpi.split_low hb hB (by omega)
  have pb : 1 < 2 ^ w := two_lt hw
  have ba0 := Mpi.val_lt na0.digits
  have ba1 := Mpi.val_lt na1.digits
  have bb0 := Mpi.val_lt nb0.digits
  have bb1 := Mpi.val_lt nb1.digits
  dsimp only at ba0 ba1 bb0 bb1
  have pa1 : 0 < val (2 ^ w) (ma.digs.drop hB) := Nat.pos_of_ne_zero fun h => by
    rw [Mpi.val_eq_zero_iff (by omega) na1.top] at h
    have := congrArg List.length h
    simp at this; omega
  have pb1 : 0 < val (2 ^ w) (mb.digs.drop hB) := Nat.pos_of_ne_zero fun h => by
    rw [Mpi.val_eq_zero_iff (by omega) nb1.top] at h
    have := congrArg List.length h
    simp at this; omega
  rw [List.length_drop] at ba1 bb1
  refine within_res (i := 0) hw h (by omega) hle fun s2 h hle => ?_
  refine within_res (i := 1) hw h (by omega) hle fun s3 h hle => ?_
  refine within_res (i := 2) hw h (by omega) hle fun s4 h hle => ?_
  refine within_res (i := 3) hw h (by omega) hle fun s5 h hle => ?_
  refine within_res (i := 4) hw h (by omega) hle fun s6 h hle => ?_
  refine within_res (i := 5) hw h (by omega) hle fun s7 h hle => ?_
  refine within_res (i := 6) hw h (by omega) hle fun s8 h hle => ?_
  refine setUsed_at (w := w) h (by omega) (by env_v) fun s2 h => ?_
  refine setUsed_at (w := w) h (by omega) (by env_v) fun s3 h => ?_
  refine setUsed_at (w := w) h (by omega) (by env_v) fun s4 h => ?_
  refine setUsed_at (w := w) h (by omega) (by env_v) fun s5 h => ?_
  refine memcpy_at (m := ma) h (by omega) (by omega) (by omega) (by env_at; exact ho) (by env_at; rw [ho]; exact ha') (by omega) fun s6 h => ?_
  refine memcpy_at (m := mb) h (by omega) (by omega) (by omega) (by env_at; exact ho) (by env_at; rw [ho]; exact hb') (by omega) fun s7 h => ?_
  refine memcpy_at (m := ma) h (by omega) (by omega) (by omega) (by env_at; exact ho) (by env_at; rw [ho]; exact ha') (by omega) fun s8 h => ?_
  refine memcpy_at (m := mb) h (by omega) (by omega) (by omega) (by env_at; exact ho) (by env_at; rw [ho]; exact hb') (by omega) fun s9 h => ?_
  refine adjust_at h (by omega) (by env_at; exact ho) fun s10 h => ?_
  refine adjust_at h (by omega) (by env_at; exact ho) fun s11 h => ?_
  have hle' : Le (sp + 7) _ (Lv w sp (But s r (R w zr n)) 7) :=
    (((hle.update (r := sp + 1) (P := V w (val (2 ^ w) (ma.digs.drop hB) : Nat) 0) (fun o ho => by rw [Lv.mid (by omega) (by omega)]; exact ho.r.any)).update
      (r := sp + 3) (P := V w (val (2 ^ w) (mb.digs.drop hB) : Nat) 0) (fun o ho => by rw [Lv.mid (by omega) (by omega)]; exact ho.r.any)).update
      (r := sp) (P := V w (val (2 ^ w) (Mpi.adjust (ma.digs.take hB)) : Nat) 0) (fun o ho => by rw [Lv.mid (by omega) (by omega)]; exact ho.r.any)).update
      (r := sp + 2) (P := V w (val (2 ^ w) (Mpi.adjust (mb.digs.take hB)) : Nat) 0) (fun o ho => by rw [Lv.mid (by omega) (by omega)]; exact ho.r.any)
  have h' := h.le (B := Function.update (Function.update (Function.update (Function.update _ (sp + 1) _) (sp + 3) _) sp _) (sp + 2) _) (by
    intro v hv o ho
    by_cases e0 : v = sp + 2
    · subst e0
      simp (disch := omega) only [Nat.add_zero, Function.update_of_ne, Function.update_self] at ho ⊢
      rw [List.drop_zero] at ho
      exact v_of_holds nb0 ho
    by_cases e1 : v = sp
    · subst e1
      simp (disch := omega) only [Nat.add_zero, Function.update_of_ne, Function.update_self] at ho ⊢
      rw [List.drop_zero] at ho
      exact v_of_holds na0 ho
    by_cases e2 : v = sp + 3
    · subst e2
      simp (disch := omega) only [Nat.add_zero, Function.update_of_ne, Function.update_self] at ho ⊢
      rw [List.take_of_length_le (by simp)] at ho
      exact v_of_holds nb1 ho
    by_cases e3 : v = sp + 1
    · subst e3
      simp (disch := omega) only [Nat.add_zero, Function.update_of_ne, Function.update_self] at ho ⊢
      rw [List.take_of_length_le (by simp)] at ho
      exact v_of_holds na1 ho
    simp (disch := omega) only [Nat.add_zero, Function.update_of_ne] at ho ⊢
    exact ho)
  have hpow : ∀ i j, i ≤ j → (2 ^ w) ^ i ≤ (2 ^ w) ^ j := fun i j h => Nat.pow_le_pow_right (by omega) h
  have key : ∀ l L c0 c1 : Nat, l ≤ hB → L ≤ f + 1 → hB = L / 2 → 4 < L → c0 < (2 ^ w) ^ l → c1 < (2 ^ w) ^ (L - hB) → c1 + c0 < (2 ^ w) ^ f := by
    intro l L c0 c1 e1 e2 e3 e4 e5 e6
    have q1 := hpow l (L - hB) (by omega)
    have q2 := hpow (L - hB + 1) f (by omega)
    rw [pow_succ] at q2
    have q3 : (2 ^ w) ^ (L - hB) * 2 ≤ (2 ^ w) ^ (L - hB) * 2 ^ w := Nat.mul_le_mul_left _ pb
    omega
  have k0 := (hpow (Mpi.adjust (ma.digs.take hB)).length f (by omega))
  have kk : (val (2 ^ w) (ma.digs.drop hB) + val (2 ^ w) (Mpi.adjust (ma.digs.take hB)) < (2 ^ w) ^ f) ∨
      (val (2 ^ w) (mb.digs.drop hB) + val (2 ^ w) (Mpi.adjust (mb.digs.take hB)) < (2 ^ w) ^ f) := by
    by_cases hc : ma.digs.length ≤ mb.digs.length
    · left; exact key _ ma.digs.length _ _ la0 (by omega) (by omega) (by omega) ba0 ba1
    · right; exact key _ mb.digs.length _ _ lb0 (by omega) (by omega) (by omega) bb0 bb1
  clear key hpow
  generalize val (2 ^ w) (Mpi.adjust (ma.digs.take hB)) = A0 at *
  generalize val (2 ^ w) (Mpi.adjust (mb.digs.take hB)) = B0 at *
  generalize val (2 ^ w) (ma.digs.drop hB) = A1 at *
  generalize val (2 ^ w) (mb.digs.drop hB) = B1 at *
  refine st_mulpos hm h' hle' (by env_v) (by env_rs) (by env_rs) (by omega) (by omega) (by omega) (by env_b) (by omega) (by omega) (by omega)
    (by omega) fun s12 h hle => ?_
  refine st_mulpos hm h hle (by env_v) (by env_rs) (by env_rs) (by omega) (by omega) (by omega) (by env_b) (by omega) (by omega) (by omega)
    (by omega) fun s13 h hle => ?_
  refine st_add hw h hle (by env_r) (by env_rs) (by env_rs) (by omega) (by omega) (by omega) (by env_b) fun s14 h hle => ?_
  refine st_add hw h hle (by env_r) (by env_rs) (by env_rs) (by omega) (by omega) (by omega) (by env_b) fun s15 h hle => ?_
  refine st_mulpos hm h hle (by env_v) (by env_rs) (by env_rs) (by omega) (by omega) (by omega) (by env_b) (by omega) (by omega) (by omega)
    (by omega) fun s16 h hle => ?_
  refine st_add hw h hle (by env_r) (by env_rs) (by env_rs) (by omega) (by omega) (by omega) (by env_b) fun s17 h hle => ?_
  refine st_sub hw h hle (by env_r) (by env_rs) (by env_rs) (by omega) (by omega) (by omega) (by env_b) fun s18 h hle => ?_
  refine st_shld hw h hle (by env_r) (by omega) (by env_b) fun s19 h hle => ?_
  refine st_shld hw h hle (by env_r) (by omega) (by env_b) fun s20 h hle => ?_
  refine st_add hw h hle (by env_r) (by env_rs) (by env_rs) (by omega) (by omega) (by omega) (by env_b) fun s21 h hle => ?_
  have er : R w zr n (s21.obj r) := by
    have := h.objs r (by omega)
    simp (disch := omega) only [Nat.add_zero, Function.update_of_ne, Locals.lo] at this
    rw [this]; exact ⟨mr, hr, hr'⟩
  have ez1 : ∃ z, z = _ ∧ RS w z (s21.obj (sp + 5)) := ⟨_, rfl, by
    have := h.objs (sp + 5) (by omega)
    simp (disch := omega) only [Nat.add_zero, Function.update_of_ne, Function.update_self] at this
    exact this.rs⟩
  have ez2 : ∃ z, z = _ ∧ RS w z (s21.obj (sp + 6)) := ⟨_, rfl, by
    have := h.objs (sp + 6) (by omega)
    simp (disch := omega) only [Nat.add_zero, Function.update_of_ne, Function.update_self] at this
    exact this.rs⟩
  obtain ⟨z1, hz1, ez1⟩ := ez1
  obtain ⟨z2, hz2, ez2⟩ := ez2
  have hv : z1 + z2 = ((val (2 ^ w) ma.digs * val (2 ^ w) mb.digs : Nat) : Int) := by
    rw [hz1, hz2, va, vb, mul_two, pow_add]
    push_cast
    ring
  have la := addR (sp := sp + 7) hw er ez1 ez2
  rw [hv] at la
  refine chk_res (leaf_at h (by omega) la) (hle.update fun o ho => Lv.at_r hrs ho) fun s22 h => ?_
  exact WP.pure (Or.inl ⟨rfl, h.le (Lv.le_res hrs hle)⟩)

end Verif.Mem
