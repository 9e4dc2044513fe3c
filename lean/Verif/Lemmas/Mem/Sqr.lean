import Verif.Lemmas.Mem.Toom
/-! Squaring in memory, and multiplication by a digit. -/
namespace Verif.Mem
open Verif.Mpi (Mpi Norm WF val Rep)

variable {w : Nat}

/-- One column of the square: what `Mpi.sqrStep` computes. -/
def sqrCol (w : Nat) (xs : List Nat) (ix : Nat) (c1 c2 : Nat) : Nat × Nat × Nat :=
  let p := Mpi.sqrStep w xs ((c1, c2), []) ix
  (p.2.headD 0, p.1.1, p.1.2)

theorem sqrStep_eq (xs : List Nat) (ix c1 c2 : Nat) (acc : List Nat) :
    Mpi.sqrStep w xs ((c1, c2), acc) ix = ((((sqrCol w xs ix c1 c2).2.1), (sqrCol w xs ix c1 c2).2.2), acc ++ [(sqrCol w xs ix c1 c2).1]) := rfl

theorem sqrLoop_ok {dst x : Nat} {h : Hdr} {xs : List Nat} (hxd : x ≠ dst) (hx0 : 0 < xs.length) :
    ∀ n ix c1 c2 (s : St), Seg s x 0 xs → (s.obj dst).hdr = some h → ix + n = xs.length + xs.length →
      ix + n ≤ (s.obj dst).cells.length →
      ∃ L : List Nat, L.length = n ∧
        (∀ acc, ((List.range' ix n).foldl (Mpi.sqrStep w xs) ((c1, c2), acc)).2 = acc ++ L) ∧
        sqrLoop w dst x xs.length n ix c1 c2 s = .ok ((), s.upd dst h (over (s.obj dst).cells ix L))
  | 0, ix, c1, c2, s, _, hh, _, _ => ⟨[], rfl, fun acc => by simp, by rw [over_nil, upd_self hh]; rfl⟩
  | n + 1, ix, c1, c2, s, sx, hh, hn, hl => by
    obtain ⟨L, l1, l2, l3⟩ := sqrLoop_ok hxd hx0 n (ix + 1) (sqrCol w xs ix c1 c2).2.1 (sqrCol w xs ix c1 c2).2.2
      (s.upd dst h ((s.obj dst).cells.set ix (some (sqrCol w xs ix c1 c2).1)))
      (seg_of_obj sx (upd_obj_ne _ _ _ hxd)) (by rw [upd_obj_same]; rfl) (by omega)
      (by rw [upd_obj_same, cells_upd (by simp)]; simp; omega)
    refine ⟨(sqrCol w xs ix c1 c2).1 :: L, by simp [l1], fun acc => ?_, ?_⟩
    · rw [List.range'_succ, List.foldl_cons, sqrStep_eq, l2, List.append_assoc]; rfl
    · have key : ∀ c : Nat × Nat × Nat, c = sqrCol w xs ix c1 c2 →
          (do wr dst ix c.1; sqrLoop w dst x xs.length n (ix + 1) c.2.1 c.2.2) s =
            .ok ((), s.upd dst h (over (s.obj dst).cells ix ((sqrCol w xs ix c1 c2).1 :: L))) := by
        rintro c rfl
        rw [bind_ok (wr_ok hh _ (by omega)), l3, upd_upd, upd_obj_same, cells_upd (by simp), over_cons (by omega)]
      rw [sqrLoop]
      have hd : ix &&& 1 = 0 → (s.obj x).cells[ix >>> 1]? = some (some (Mpi.dig xs (ix >>> 1))) := fun _ =>
        seg_dig sx (by rw [Nat.shiftRight_eq_div_pow]; omega)
      by_cases h1 : min (min (xs.length - (ix - min ix (xs.length - 1))) (min ix (xs.length - 1) + 1))
          ((min ix (xs.length - 1) + 1 - (ix - min ix (xs.length - 1))) / 2) ≠ 0
      · simp only [if_pos h1]
        rw [bind_ok (combaCol_ok sx sx _ _ _ _ (by omega) (by omega) (by omega))]
        by_cases h2 : ix &&& 1 = 0
        · simp only [if_pos h2]
          rw [bind_ok (pure_run _ _), bind_ok (rd_ok (hd h2)), bind_ok (pure_run _ _)]
          apply key
          simp only [sqrCol, Mpi.sqrStep, if_pos h1, if_pos h2, List.nil_append, List.headD_cons]
        · simp only [if_neg h2]
          rw [bind_ok (pure_run _ _), bind_ok (pure_run _ _)]
          apply key
          simp only [sqrCol, Mpi.sqrStep, if_pos h1, if_neg h2, List.nil_append, List.headD_cons]
      · simp only [if_neg h1]
        by_cases h2 : ix &&& 1 = 0
        · simp only [if_pos h2]
          rw [bind_ok (pure_run _ _), bind_ok (rd_ok (hd h2)), bind_ok (pure_run _ _)]
          apply key
          simp only [sqrCol, Mpi.sqrStep, if_neg h1, if_pos h2, List.nil_append, List.headD_cons]
        · simp only [if_neg h2]
          rw [bind_ok (pure_run _ _), bind_ok (pure_run _ _)]
          apply key
          simp only [sqrCol, Mpi.sqrStep, if_neg h1, if_neg h2, List.nil_append, List.headD_cons]

theorem sqrComba_run {sp r x n : Nat} {s : St} {mr mx : Mpi} (hr : HoldsC mr n (s.obj r)) (hx : (s.obj x).Reads mx)
    (hrs : r < sp) (hxs : x < sp) (hn : n = 0 ∨ ¬ r = x) :
    Leaf sp s r (sqrComba w sp r x)
      (HoldsC (Mpi.sqrComba w (if r = x then false else mr.neg) mx) n) (HoldsC mr n) := by
  unfold sqrComba
  apply decl_leaf hrs
  generalize hs0 : ({ s with obj := fun p => if sp ≤ p ∧ p < sp + 1 then Obj.fresh else s.obj p } : St) = s0
  have ho : ∀ v, v < sp → s0.obj v = s.obj v := fun v hv => by rw [← hs0]; dsimp only; rw [if_neg (by omega)]
  have hf : (s0.obj sp).owns = 0 := by rw [← hs0]; dsimp only; rw [if_pos (by omega)]; rfl
  rw [← ho r hrs] at hr
  rw [← ho x hxs] at hx
  obtain ⟨ax, x1, x2⟩ := id hx
  apply Leaf.congr (c' := if mx.digs.length = 0 then (do zero r; pure 0) else
    chk (if r = x then initSize sp (mx.digs.length + mx.digs.length) else grow r (mx.digs.length + mx.digs.length)) do
      setUsedZ (if r = x then sp else r) (mx.digs.length + mx.digs.length)
      sqrLoop w (if r = x then sp else r) x mx.digs.length (mx.digs.length + mx.digs.length) 0 0 0
      if r ≠ (if r = x then sp else r) then
        swap r (if r = x then sp else r)
        clear (if r = x then sp else r)
      adjust r
      pure 0)
  rotate_left
  · rw [bind_ok (hdr_ok x1)]
  unfold Mpi.sqrComba
  by_cases h0 : mx.digs.length = 0
  · rw [if_pos h0, if_pos (List.length_eq_zero_iff.1 h0)]
    exact zero_leaf hr _
  · rw [if_neg h0, if_neg (fun h => h0 (List.length_eq_zero_iff.2 h))]
    have hlen : (Mpi.sqrCombaDigs w mx.digs).length = mx.digs.length + mx.digs.length := by
      unfold Mpi.sqrCombaDigs
      have : ∀ (l : List Nat) (st : (Nat × Nat) × List Nat), (l.foldl (Mpi.sqrStep w mx.digs) st).2.length = st.2.length + l.length := by
        intro l
        induction l with
        | nil => intro st; rfl
        | cons a l ih => intro st; rw [List.foldl_cons, ih]; simp [Mpi.sqrStep]; omega
      rw [this]; simp
    refine comba_frame (fill := fun d => sqrLoop w d x mx.digs.length (mx.digs.length + mx.digs.length) 0 0 0)
      hr hrs hf (by omega) hlen (by omega) ?_
    intro s1 h f1 h1 hcap
    have hxd : x ≠ (if r = x then sp else r) := by split_ifs <;> omega
    obtain ⟨L, l1, l2, l3⟩ := sqrLoop_ok (w := w) hxd (xs := mx.digs) (by omega)
      (mx.digs.length + mx.digs.length) 0 0 0 s1 (seg_of_obj hx.seg (f1 x hxs hxd)) h1
      (by omega) (by omega)
    rw [l3]
    have := l2 []
    rw [← List.range_eq_range', List.nil_append] at this
    unfold Mpi.sqrCombaDigs
    rw [this]

/-- The square as a magnitude; the sign is that of the old destination at worst. -/
def Sq (w : Nat) (old : Bool) (zx : Int) (n : Nat) (o : Obj) : Prop :=
  ∃ m, Norm (2 ^ w) m ∧ val (2 ^ w) m.digs = zx.natAbs * zx.natAbs ∧ (m.neg = true → old = true) ∧ (m.digs = [] → m.neg = false) ∧ HoldsC m n o

theorem Sq.v {zx : Int} {n : Nat} {o : Obj} (h : Sq w false zx n o) : V w (zx * zx) n o := by
  obtain ⟨m, h1, h2, h3, h4, h5⟩ := h
  have hg : m.neg = false := by
    cases hm : m.neg with
    | false => rfl
    | true => exact absurd (h3 hm) (by decide)
  refine ⟨m, Mpi.wf_of_norm_false h1 hg, ?_, h5⟩
  rw [Mpi.toInt_false hg, h2]
  push_cast
  exact abs_mul_abs_self zx

/-- Squaring works on operands of at most `f` digits. -/
def SqrOn (w f : Nat) (sqr : Nat → Nat → Nat → M Int) : Prop :=
  ∀ (sp : Nat) (s : St) (r x : Nat) (mr : Mpi) (zr zx : Int) (n : Nat), Rep w mr zr → HoldsC mr n (s.obj r) → RS w zx (s.obj x) →
    r < sp → x < sp → (n = 0 ∨ ¬ r = x) → zx.natAbs < (2 ^ w) ^ f →
    Leaf sp s r (sqr sp r x) (Sq w (if r = x then false else mr.neg) zx n) (fun o => ∃ z, R w z n o)

theorem sqrComba_sq (hw : 0 < w) {sp r x n : Nat} {s : St} {mr mx : Mpi} {zr zx : Int} (hr : Rep w mr zr)
    (hr' : HoldsC mr n (s.obj r)) (hx : Rep w mx zx) (hx' : (s.obj x).Reads mx)
    (hrs : r < sp) (hxs : x < sp) (hn : n = 0 ∨ ¬ r = x) (hl : mx.digs.length < 2 ^ w) :
    Leaf sp s r (sqrComba w sp r x) (Sq w (if r = x then false else mr.neg) zx n) (fun o => ∃ z, R w z n o) := by
  refine (sqrComba_run hr' hx' hrs hxs hn).mono (fun o h => ?_) (fun o h => ⟨zr, mr, hr, h⟩)
  obtain ⟨h1, h2, h3⟩ := Mpi.sqrComba_spec hw (if r = x then false else mr.neg) hx.1 hl
  have hv : val (2 ^ w) (Mpi.sqrComba w (if r = x then false else mr.neg) mx).digs = zx.natAbs * zx.natAbs := by
    rw [h1, hx.val_eq]
  refine ⟨_, h2, hv, fun h => ?_, fun h0 => ?_, h⟩
  · rw [h3] at h
    by_cases he : mx.digs = []
    · rw [if_pos he] at h; cases h
    · rwa [if_neg he] at h
  · rw [h0, Mpi.val_nil] at hv
    have : mx.digs = [] := by
      by_contra hc
      have := Int.natAbs_pos.2 (rep_pos hx hc)
      have := Nat.mul_pos this this
      omega
    rw [h3, if_pos this]

/-- A square into a local that is not negative. -/
theorem st_sqr {f : Nat} {sqr : Nat → Nat → Nat → M Int} (hm : SqrOn w f sqr) {K : Ctx} {E G B : Env} {S r x n : Nat} {s : St} {k : M Int}
    {zr zx : Int} (h : At K E S s) (hle : Le S E B) (hr : ∀ o, E r o → V w zr n o) (hx : ∀ o, E x o → RS w zx o)
    (hrs : r < S) (hxs : x < S) (hB : ∀ o, AnyR w o → B r o) (hz : 0 ≤ zr) (hl : zx.natAbs < (2 ^ w) ^ f)
    (hk : ∀ s', At K (Function.update E r (V w (zx * zx) 0)) S s' → Le S (Function.update E r (V w (zx * zx) 0)) B → WP k (Res K S G B) s') :
    WP (chk (sqr S r x) k) (Res K S G B) s := by
  obtain ⟨mr, r1, r2, r3⟩ := hr _ (h.objs _ hrs)
  refine chk_leaf h hle hrs ((hm S s r x mr zr zx 0 ⟨r1.toNorm, r2⟩ ⟨r3.1, Nat.zero_le _⟩ (hx _ (h.objs _ hxs))
    hrs hxs (Or.inl rfl) hl).mono (g' := V w (zx * zx) 0) (fun o ho => ?_) (fun o ho => ho)) ?_ (fun o ho => hB o ho.r.any) hk
  · have hneg : mr.neg = false := by rw [← Bool.not_eq_true, Mpi.neg_iff_of_wf r1, r2]; omega
    rw [hneg, ite_self] at ho
    exact ho.v
  · rintro o ⟨z, ho⟩
    exact hB o ho.any

theorem karaSqr (hw : 0 < w) {f : Nat} {sqr : Nat → Nat → Nat → M Int} (hm : SqrOn w f sqr) {sp r a n : Nat} {s : St} {mr ma : Mpi}
    {zr : Int} (hr : Rep w mr zr) (hr' : HoldsC mr n (s.obj r)) (ha : Norm (2 ^ w) ma) (ha' : (s.obj a).Reads ma)
    (hrs : r < sp) (has : a < sp) (hl : 4 < ma.digs.length) (hf : ma.digs.length ≤ f + 1) :
    Leaf sp s r (sqrKaratsuba w sqr sp r a) (R w ((val (2 ^ w) ma.digs * val (2 ^ w) ma.digs : Nat) : Int) n) (R w zr n) := by
  unfold sqrKaratsuba
  refine leaf_locals (w := w) hrs fun s1 h => ?_
  have hle := Lv.start (w := w) (sp := sp) (k := 5) (s := s) (r := r) (P := R w zr n) ⟨mr, hr, hr'⟩
  have ea : s1.obj a = s.obj a := by have := h.objs a (by omega); rwa [Locals.lo has] at this
  obtain ⟨aa, ha1, -⟩ := id ha'
  refine WP.bind_run (hdr_ok (by rw [ea, ha1])) ?_
  dsimp only
  rw [if_neg (by omega)]
  generalize hhB : ma.digs.length / 2 = hB
  obtain ⟨na0, na1, va, la0⟩ := Mpi.split_low ha hB (by omega)
  have pb : 1 < 2 ^ w := two_lt hw
  have ba0 := Mpi.val_lt na0.digits
  have ba1 := Mpi.val_lt na1.digits
  dsimp only at ba0 ba1
  have pa1 : 0 < val (2 ^ w) (ma.digs.drop hB) := Nat.pos_of_ne_zero fun h => by
    rw [Mpi.val_eq_zero_iff (by omega) na1.top] at h
    have := congrArg List.length h
    simp at this; omega
  rw [List.length_drop] at ba1
  refine within_res (i := 0) hw h (by omega) hle fun s2 h hle => ?_
  refine within_res (i := 1) hw h (by omega) hle fun s3 h hle => ?_
  refine within_res (i := 2) hw h (by omega) hle fun s4 h hle => ?_
  refine within_res (i := 3) hw h (by omega) hle fun s5 h hle => ?_
  refine within_res (i := 4) hw h (by omega) hle fun s6 h hle => ?_
  refine setUsed_at (w := w) h (by omega) (by env_v) fun s2 h => ?_
  refine setUsed_at (w := w) h (by omega) (by env_v) fun s4 h => ?_
  refine memcpy_at (m := ma) h (by omega) (by omega) (by omega) (by env_at; exact ho) (by env_at; rw [ho]; exact ha') (by omega) fun s6 h => ?_
  refine memcpy_at (m := ma) h (by omega) (by omega) (by omega) (by env_at; exact ho) (by env_at; rw [ho]; exact ha') (by omega) fun s8 h => ?_
  refine adjust_at h (by omega) (by env_at; exact ho) fun s10 h => ?_
  have hle' : Le (sp + 5) _ (Lv w sp (But s r (R w zr n)) 5) :=
    (hle.update (r := sp + 1) (P := V w (val (2 ^ w) (ma.digs.drop hB) : Nat) 0) (fun o ho => by rw [Lv.mid (by omega) (by omega)]; exact ho.r.any)).update
      (r := sp) (P := V w (val (2 ^ w) (Mpi.adjust (ma.digs.take hB)) : Nat) 0) (fun o ho => by rw [Lv.mid (by omega) (by omega)]; exact ho.r.any)
  have h' := h.le (B := Function.update (Function.update _ (sp + 1) _) sp _) (by
    intro v hv o ho
    by_cases e1 : v = sp
    · subst e1
      simp (disch := omega) only [Nat.add_zero, Function.update_of_ne, Function.update_self] at ho ⊢
      rw [List.drop_zero] at ho
      exact v_of_holds na0 ho
    by_cases e3 : v = sp + 1
    · subst e3
      simp (disch := omega) only [Nat.add_zero, Function.update_of_ne, Function.update_self] at ho ⊢
      rw [List.take_of_length_le (by simp)] at ho
      exact v_of_holds na1 ho
    simp (disch := omega) only [Nat.add_zero, Function.update_of_ne] at ho ⊢
    exact ho)
  have hpow : ∀ i j, i ≤ j → (2 ^ w) ^ i ≤ (2 ^ w) ^ j := fun i j h => Nat.pow_le_pow_right (by omega) h
  have kk : val (2 ^ w) (ma.digs.drop hB) + val (2 ^ w) (Mpi.adjust (ma.digs.take hB)) < (2 ^ w) ^ f := by
    have q1 := hpow (Mpi.adjust (ma.digs.take hB)).length (ma.digs.length - hB) (by omega)
    have q2 := hpow (ma.digs.length - hB + 1) f (by omega)
    rw [pow_succ] at q2
    have q3 : (2 ^ w) ^ (ma.digs.length - hB) * 2 ≤ (2 ^ w) ^ (ma.digs.length - hB) * 2 ^ w := Nat.mul_le_mul_left _ pb
    omega
  clear hpow
  generalize val (2 ^ w) (Mpi.adjust (ma.digs.take hB)) = A0 at *
  generalize val (2 ^ w) (ma.digs.drop hB) = A1 at *
  refine st_sqr hm h' hle' (by env_v) (by env_rs) (by omega) (by omega) (by env_b) (by omega) (by omega) fun s12 h hle => ?_
  refine st_sqr hm h hle (by env_v) (by env_rs) (by omega) (by omega) (by env_b) (by omega) (by omega) fun s13 h hle => ?_
  refine st_add hw h hle (by env_r) (by env_rs) (by env_rs) (by omega) (by omega) (by omega) (by env_b) fun s14 h hle => ?_
  refine st_sqr hm h hle (by env_v) (by env_rs) (by omega) (by omega) (by env_b) (by omega) (by omega) fun s16 h hle => ?_
  refine st_add hw h hle (by env_r) (by env_rs) (by env_rs) (by omega) (by omega) (by omega) (by env_b) fun s17 h hle => ?_
  refine st_sub hw h hle (by env_r) (by env_rs) (by env_rs) (by omega) (by omega) (by omega) (by env_b) fun s18 h hle => ?_
  refine st_shld hw h hle (by env_r) (by omega) (by env_b) fun s19 h hle => ?_
  refine st_shld hw h hle (by env_r) (by omega) (by env_b) fun s20 h hle => ?_
  refine st_add hw h hle (by env_r) (by env_rs) (by env_rs) (by omega) (by omega) (by omega) (by env_b) fun s21 h hle => ?_
  have er : R w zr n (s21.obj r) := by
    have := h.objs r (by omega)
    simp (disch := omega) only [Nat.add_zero, Function.update_of_ne, Locals.lo] at this
    rw [this]; exact ⟨mr, hr, hr'⟩
  have ez1 : ∃ z, z = _ ∧ RS w z (s21.obj (sp + 3)) := ⟨_, rfl, by
    have := h.objs (sp + 3) (by omega)
    simp (disch := omega) only [Nat.add_zero, Function.update_of_ne, Function.update_self] at this
    exact this.rs⟩
  have ez2 : ∃ z, z = _ ∧ RS w z (s21.obj (sp + 4)) := ⟨_, rfl, by
    have := h.objs (sp + 4) (by omega)
    simp (disch := omega) only [Nat.add_zero, Function.update_of_ne, Function.update_self] at this
    exact this.rs⟩
  obtain ⟨z1, hz1, ez1⟩ := ez1
  obtain ⟨z2, hz2, ez2⟩ := ez2
  have hv : z1 + z2 = ((val (2 ^ w) ma.digs * val (2 ^ w) ma.digs : Nat) : Int) := by
    rw [hz1, hz2, va, mul_two, pow_add]
    push_cast
    ring
  have la := addR (sp := sp + 5) hw er ez1 ez2
  rw [hv] at la
  refine chk_res (leaf_at h (by omega) la) (hle.update fun o ho => Lv.at_r hrs ho) fun s22 h => ?_
  exact WP.pure (Or.inl ⟨rfl, h.le (Lv.le_res hrs hle)⟩)

theorem sqrFuel_on (hw : 8 ≤ w) : ∀ f, SqrOn w f (sqrFuel w (f + 1)) := by
  have h64 : 64 < 2 ^ w := by
    calc 64 < 2 ^ 8 := by norm_num
      _ ≤ 2 ^ w := Nat.pow_le_pow_right (by omega) hw
  intro f
  induction f with
  | zero =>
    intro sp s r x mr zr zx n hr hr' ⟨mx, x1, x2⟩ hrs hxs hn hl
    have hlen := len_of_lt (by omega) x1 hl
    refine Leaf.congr (sqrComba_sq (by omega) hr hr' x1 x2 hrs hxs hn (by omega)) ?_
    obtain ⟨ax, hx, -⟩ := x2
    rw [sqrFuel, bind_ok (hdr_ok hx), if_neg (by dsimp only; omega)]
  | succ f ih =>
    intro sp s r x mr zr zx n hr hr' ⟨mx, x1, x2⟩ hrs hxs hn hl
    have hlen := len_of_lt (by omega) x1 hl
    have hrun : sqrFuel w (f + 1 + 1) sp r x s = (if mx.digs.length > 64 then sqrKaratsuba w (sqrFuel w (f + 1)) sp r x else sqrComba w sp r x) s := by
      obtain ⟨ax, hx, -⟩ := x2
      rw [sqrFuel, bind_ok (hdr_ok hx)]
    refine Leaf.congr ?_ hrun
    by_cases h1 : mx.digs.length > 64
    · rw [if_pos h1]
      refine (karaSqr (by omega) ih hr hr' x1.1 x2 hrs hxs (by omega) hlen).mono (fun o ho => ?_) (fun o ho => ⟨_, ho⟩)
      have h0 : zx ≠ 0 := rep_pos x1 fun h' => by rw [h'] at h1; simp at h1
      rw [x1.val_eq] at ho
      have := Nat.mul_pos (Int.natAbs_pos.2 h0) (Int.natAbs_pos.2 h0)
      obtain ⟨m, m1, m2⟩ := ho
      have hg := m1.nonneg (by omega)
      exact ⟨m, m1.1, by rw [m1.val_eq]; rfl, fun h => absurd (hg.symm.trans h) (by decide), fun _ => hg, m2⟩
    · rw [if_neg h1]
      exact sqrComba_sq (by omega) hr hr' x1 x2 hrs hxs hn (by omega)

/-- `cry_mpi_sqr`. -/
theorem sqr_leaf (hw : 8 ≤ w) {sp r x n : Nat} {s : St} {mr : Mpi} {zr zx : Int} (hr : Rep w mr zr) (hr' : HoldsC mr n (s.obj r))
    (hx : RS w zx (s.obj x)) (hrs : r < sp) (hxs : x < sp) (hn : n = 0 ∨ ¬ r = x) :
    Leaf sp s r (sqr w sp r x) (Sq w (if r = x then false else mr.neg) zx n) (fun o => ∃ z, R w z n o) := by
  obtain ⟨mx, x1, ax, hx', x2⟩ := id hx
  refine Leaf.congr (sqrFuel_on hw mx.digs.length sp s r x mr zr zx n hr hr' hx hrs hxs hn ?_) ?_
  · have lx := Mpi.val_lt x1.1.digits
    rwa [x1.val_eq] at lx
  · rw [sqr, bind_ok (hdr_ok hx')]

/-! ### Multiplication by a digit -/

/-- The product of `zx` and a digit, up to the sign of zero. -/
theorem mulDig_leaf (hw : 8 ≤ w) {sp r x d n : Nat} {s : St} {mr : Mpi} {zr zx : Int} (hr : Rep w mr zr) (hr' : HoldsC mr n (s.obj r))
    (hx : RS w zx (s.obj x)) (hd : d < 2 ^ w) (hrs : r < sp) (hxs : x < sp)
    (hn : (∀ m, (s.obj x).Reads m → n ≤ m.digs.length + 1) ∨ ¬ r = x) :
    Leaf sp s r (mulDig w sp r x d) (fun o => R w (zx * d) n o ∧ (mr.neg = false → V w (zx * d) n o)) (fun o => ∃ z, R w z n o) := by
  obtain ⟨mx, x1, x2⟩ := hx
  have hn : n ≤ mx.digs.length + 1 ∨ ¬ r = x := hn.imp (fun h => h mx x2) id
  have hw0 : 0 < w := by omega
  have e1 : setObj sp ⟨some ⟨false, 1, 1⟩, .mem false [some d]⟩ s = .ok ((), s.set sp ⟨some ⟨false, 1, 1⟩, .mem false [some d]⟩) := rfl
  generalize hs1 : s.set sp ⟨some ⟨false, 1, 1⟩, .mem false [some d]⟩ = s1 at e1
  have ho : ∀ v, v < sp → s1.obj v = s.obj v := fun v hv => by rw [← hs1]; exact set_obj_ne _ _ (by omega)
  have hy : (s1.obj sp).Reads ⟨false, [d]⟩ := by rw [← hs1, set_obj_same]; exact ⟨1, rfl, by simp [Obj.cells, Data.cells]⟩
  have hlive : s1.live = s.live := by rw [← hs1]; rfl
  have hfails : s1.fails = s.fails := by rw [← hs1]; rfl
  have htick : s1.tick = s.tick := by rw [← hs1]; rfl
  rw [← ho r hrs] at hr'
  rw [← ho x hxs] at x2
  have hc := mulComba_run (w := w) (sp := sp + 1) hr' x2 hy (by omega) (by omega) (by omega) (by simp only [List.length_singleton]; omega)
  obtain ⟨c1, c2, c3⟩ := Mpi.mulComba_spec hw0 (if r = x ∨ r = sp then false else mr.neg) (x := mx) (y := ⟨false, [d]⟩) x1.1.digits (by simpa using hd)
    (by have := two_lt hw0; simp only [List.length_singleton]; omega)
  obtain ⟨st, s2, e2, t2, h2⟩ := hc
  obtain ⟨ax, hx', -⟩ := id x2
  obtain ⟨ay, hy', -⟩ := id hy
  have hrun : mulDig w sp r x d s = (do
      let st ← mulComba w (sp + 1) r x sp
      if st = 0 then
        if (← hdr r).used ≠ 0 then setSign r (xor mx.neg false)
      pure st) s1 := by
    unfold mulDig
    rw [bind_ok e1, mul, bind_ok (hdr_ok hx'), bind_ok (hdr_ok hy'), mulWith, bind_ok (hdr_ok hx'), bind_ok (hdr_ok hy')]
    have : mulAbs w (min mx.digs.length [d].length + 1) (sp + 1) r x sp s1 = mulComba w (sp + 1) r x sp s1 := by
      rw [mulAbs, bind_ok (hdr_ok hx'), bind_ok (hdr_ok hy')]
      simp only [List.length_singleton]
      rw [if_neg (by omega), if_neg (by omega)]
    dsimp only
    rw [bind_ok (this.trans e2), bind_ok e2]
  have hval : val (2 ^ w) (Mpi.mulComba w (if r = x ∨ r = sp then false else mr.neg) mx ⟨false, [d]⟩).digs = zx.natAbs * d := by
    rw [c1, x1.val_eq]; simp
  generalize Mpi.mulComba w (if r = x ∨ r = sp then false else mr.neg) mx ⟨false, [d]⟩ = m at *
  have hstep : ∀ s3, Step (sp + 1) s1 s3 r → Step sp s s3 r := fun s3 h => by
    refine ⟨fun v hv hv' => by rw [h.frame v (by omega) hv', ho v hv], ?_, by rw [h.fails, hfails], by rw [← htick]; exact h.tick⟩
    have := h.live
    rw [hlive, ho r hrs] at this
    exact this
  unfold Leaf
  rw [hrun, bind_ok e2]
  rcases h2 with ⟨rfl, h2⟩ | ⟨rfl, hf, h2⟩
  · rw [if_pos rfl, bind_ok (hdr_ok h2.1.1)]
    dsimp only
    by_cases h0 : m.digs.length = 0
    · rw [if_neg (by simpa using h0)]
      rw [List.length_eq_zero_iff] at h0
      have hz : zx * d = 0 := by
        rw [h0, Mpi.val_nil] at hval
        rcases Nat.mul_eq_zero.1 hval.symm with h | h
        · rw [Int.natAbs_eq_zero.1 h, zero_mul]
        · rw [h]; simp
      have hi : Mpi.Mpi.toInt (2 ^ w) m = zx * d := by rw [hz, Mpi.toInt_eq_zero_iff (Nat.two_pow_pos w) c2]; exact h0
      refine ⟨0, s2, rfl, hstep _ t2, Or.inl ⟨rfl, ⟨m, ⟨c2, hi⟩, h2⟩, fun hg => ⟨m, ⟨c2, fun _ => ?_⟩, hi, h2⟩⟩⟩
      cases hm : m.neg with
      | false => rfl
      | true => have := c3 hm; rw [hg, ite_self] at this; cases this
    · rw [if_pos h0, bind_ok (setSign_ok h2.1.1 _)]
      have hV : V w (zx * d) n ((s2.upd r ⟨xor mx.neg false, m.digs.length, (s2.obj r).cells.length⟩ (s2.obj r).cells).obj r) := by
        refine ⟨⟨xor mx.neg false, m.digs⟩, ⟨Mpi.norm_with_neg c2 _, fun h => absurd (congrArg List.length h) h0⟩, ?_, ?_⟩
        · rw [← x1.val_eq] at hval
          rw [← x1.2]
          unfold Mpi.Mpi.toInt
          simp only [hval]
          cases mx.neg <;> simp
        · rw [upd_obj_same]
          exact ⟨holds_upd (m' := ⟨xor mx.neg false, m.digs⟩) h2.1 rfl h2.1.2.1, by rw [cells_upd rfl]; exact h2.2⟩
      exact ⟨0, _, rfl, hstep _ (t2.trans (Step.upd _ _ _ _ _)), Or.inl ⟨rfl, hV.r, fun _ => hV⟩⟩
  · rw [if_neg (by decide)]
    exact ⟨-1, s2, rfl, hstep _ t2, Or.inr ⟨rfl, hf.pre (by omega) hfails, zr, mr, hr, h2⟩⟩

end Verif.Mem
