import Verif.Lemmas.Mem.Comba
/-! Multiplication in memory: Karatsuba, Toom-3 and the dispatcher. -/
namespace Verif.Mem
open Verif.Mpi (Mpi Norm WF val Rep)

variable {w : Nat}

/-- The product of magnitudes; the sign is right for operands that are not negative. -/
def Prod (w : Nat) (old : Bool) (zx zy : Int) (n : Nat) (o : Obj) : Prop :=
  ∃ m, Norm (2 ^ w) m ∧ val (2 ^ w) m.digs = zx.natAbs * zy.natAbs ∧ (old = false → 0 ≤ zx → 0 ≤ zy → m.neg = false) ∧
    (m.digs = [] → m.neg = false) ∧ HoldsC m n o

/-- A multiplication of magnitudes that works as soon as one operand has at most `f` digits. -/
def MulOn (w f : Nat) (mul : Nat → Nat → Nat → Nat → M Int) : Prop :=
  ∀ (sp : Nat) (s : St) (r x y : Nat) (mr : Mpi) (zr zx zy : Int) (n : Nat), Rep w mr zr → HoldsC mr n (s.obj r) → RS w zx (s.obj x) →
    RS w zy (s.obj y) → r < sp → x < sp → y < sp → (n = 0 ∨ ¬ (r = x ∨ r = y)) →
    (zx.natAbs < (2 ^ w) ^ f ∨ zy.natAbs < (2 ^ w) ^ f) →
    Leaf sp s r (mul sp r x y) (Prod w mr.neg zx zy n) (fun o => ∃ z, R w z n o)

theorem rep_pos {mx : Mpi} {zx : Int} (h : Rep w mx zx) (hl : mx.digs ≠ []) : zx ≠ 0 := by
  intro h0
  rw [h0] at h
  exact hl ((Mpi.toInt_eq_zero_iff (Nat.two_pow_pos w) h.1).1 h.2)

theorem comba_prod (hw : 0 < w) {sp r x y n : Nat} {s : St} {mr mx my : Mpi} {zr zx zy : Int} (hr : Rep w mr zr)
    (hr' : HoldsC mr n (s.obj r)) (hx : Rep w mx zx) (hx' : (s.obj x).Reads mx) (hy : Rep w my zy) (hy' : (s.obj y).Reads my)
    (hrs : r < sp) (hxs : x < sp) (hys : y < sp) (hn : n = 0 ∨ ¬ (r = x ∨ r = y))
    (hl : min mx.digs.length my.digs.length < 2 ^ w) :
    Leaf sp s r (mulComba w sp r x y) (Prod w mr.neg zx zy n) (fun o => ∃ z, R w z n o) := by
  refine (mulComba_run hr' hx' hy' hrs hxs hys (by omega)).mono (fun o h => ?_) (fun o h => ⟨zr, mr, hr, h⟩)
  obtain ⟨h1, h2, h3⟩ := Mpi.mulComba_spec hw (if r = x ∨ r = y then false else mr.neg) hx.1.digits hy.1.digits hl
  have hv : val (2 ^ w) (Mpi.mulComba w (if r = x ∨ r = y then false else mr.neg) mx my).digs = zx.natAbs * zy.natAbs := by
    rw [h1, hx.val_eq, hy.val_eq]
  refine ⟨_, h2, hv, fun ho hx0 hy0 => ?_, fun h0 => ?_, h⟩
  · cases hz : (Mpi.mulComba w (if r = x ∨ r = y then false else mr.neg) mx my).neg with
    | false => rfl
    | true => have := h3 hz; rw [ho, ite_self] at this; cases this
  · rw [h0, Mpi.val_nil] at hv
    have : mx.digs = [] ∨ my.digs = [] := by
      rcases Nat.mul_eq_zero.1 hv.symm with h | h
      · left; by_contra hc; exact rep_pos hx hc (Int.natAbs_eq_zero.1 h)
      · right; by_contra hc; exact rep_pos hy hc (Int.natAbs_eq_zero.1 h)
    unfold Mpi.mulComba
    rw [if_pos this]

/-- The sign rule of `cry_mpi_mul`. -/
theorem sign_mul {mx my m : Mpi} {zx zy : Int} (hx : Rep w mx zx) (hy : Rep w my zy) (hv : val (2 ^ w) m.digs = zx.natAbs * zy.natAbs) :
    Mpi.Mpi.toInt (2 ^ w) ⟨xor mx.neg my.neg, m.digs⟩ = zx * zy := by
  rw [← hx.val_eq, ← hy.val_eq] at hv
  rw [← hx.2, ← hy.2]
  unfold Mpi.Mpi.toInt
  simp only [hv]
  cases mx.neg <;> cases my.neg <;> simp

theorem mulWith_leaf {f : Nat} {mul : Nat → Nat → Nat → Nat → M Int} (hm : MulOn w f mul) {sp r x y n : Nat} {s : St} {zr zx zy : Int}
    (hr : R w zr n (s.obj r)) (hx : RS w zx (s.obj x)) (hy : RS w zy (s.obj y)) (hrs : r < sp) (hxs : x < sp) (hys : y < sp)
    (hn : n = 0 ∨ ¬ (r = x ∨ r = y)) (hl : zx.natAbs < (2 ^ w) ^ f ∨ zy.natAbs < (2 ^ w) ^ f) :
    Leaf sp s r (mulWith mul sp r x y) (V w (zx * zy) n) (fun o => ∃ z, R w z n o) := by
  obtain ⟨mr, r1, r2⟩ := hr
  obtain ⟨st, s1, e1, t1, h1⟩ := hm sp s r x y mr zr zx zy n r1 r2 hx hy hrs hxs hys hn hl
  obtain ⟨mx, x1, ax, x2, x3⟩ := hx
  obtain ⟨my, y1, ay, y2, y3⟩ := hy
  unfold Leaf mulWith
  rw [bind_ok (hdr_ok x2), bind_ok (hdr_ok y2)]
  dsimp only
  rw [bind_ok e1]
  rcases h1 with ⟨rfl, m, m1, m2, m3, m4, m5⟩ | ⟨rfl, hf, h⟩
  · rw [if_pos rfl, bind_ok (hdr_ok m5.1.1)]
    dsimp only
    by_cases h0 : m.digs.length = 0
    · rw [if_neg (by simpa using h0)]
      rw [List.length_eq_zero_iff] at h0
      refine ⟨0, s1, rfl, t1, Or.inl ⟨rfl, m, ⟨m1, m4⟩, ?_, m5⟩⟩
      rw [Mpi.toInt_false (m4 h0), m2]
      rw [h0, Mpi.val_nil] at m2
      rw [← m2]
      symm
      apply Int.natAbs_eq_zero.1
      rw [Int.natAbs_mul, ← m2]
    · rw [if_pos h0, bind_ok (setSign_ok m5.1.1 _)]
      refine ⟨0, _, rfl, t1.trans (Step.upd _ _ _ _ _), Or.inl ⟨rfl, ⟨xor mx.neg my.neg, m.digs⟩, ⟨Mpi.norm_with_neg m1 _, fun h => ?_⟩,
        sign_mul x1 y1 m2, ?_⟩⟩
      · exact absurd (congrArg List.length h) h0
      · rw [upd_obj_same]
        exact ⟨holds_upd (m' := ⟨xor mx.neg my.neg, m.digs⟩) m5.1 rfl m5.1.2.1, by rw [cells_upd rfl]; exact m5.2⟩
  · rw [if_neg (by decide)]
    exact ⟨-1, s1, rfl, t1, Or.inr ⟨rfl, hf, h⟩⟩

/-! ### `div3` -/

theorem over_set {c : List (Option Nat)} {i d : Nat} {L : List Nat} (h : i + 1 + L.length ≤ c.length) :
    (over c (i + 1) L).set i (some d) = over c i (d :: L) := by
  unfold over
  rw [List.take_add_one, List.getElem?_eq_getElem (by omega), List.append_assoc, List.append_assoc, List.set_append_right _ _ (by simp)]
  simp [Nat.min_eq_left (show i ≤ c.length by omega)]
  congr 1; omega

theorem Mpi.div3Loop_length (w : Nat) : ∀ ds : List Nat, (Mpi.div3Loop w ds).1.length = ds.length
  | [] => rfl
  | d :: ds => by
    rw [Mpi.div3Loop]
    dsimp only
    split <;> simp [Mpi.div3Loop_length w ds]

theorem div3Loop_ok {q a : Nat} {h : Hdr} {ds : List Nat} {c : List (Option Nat)} (hqa : a ≠ q) (hc : ds.length ≤ c.length) :
    ∀ n (s : St), n ≤ ds.length → Seg s a 0 ds → (s.obj q).hdr = some h → (s.obj q).cells = over c n (Mpi.div3Loop w (ds.drop n)).1 →
      div3Loop w q a n (Mpi.div3Loop w (ds.drop n)).2 s = .ok ((), s.upd q h (over c 0 (Mpi.div3Loop w ds).1))
  | 0, s, _, _, hh, hcell => by
    rw [List.drop_zero] at hcell
    rw [← hcell, upd_self hh]; rfl
  | n + 1, s, hn, hs, hh, hcell => by
    have hlen := Mpi.div3Loop_length w (ds.drop (n + 1))
    rw [List.length_drop] at hlen
    have hrd : (s.obj a).cells[n]? = some (some ds[n]) := by
      have := hs.get (k := n) (d := ds[n]) (List.getElem?_eq_getElem _)
      rwa [Nat.zero_add] at this
    have hd : ds.drop n = ds[n] :: ds.drop (n + 1) := List.drop_eq_getElem_cons (by omega)
    have hcl : (s.obj q).cells.length = c.length := by rw [hcell, over_length (by omega)]
    have ih := fun d => div3Loop_ok hqa hc n (s.upd q h ((s.obj q).cells.set n (some d))) (by omega)
      (seg_of_obj hs (upd_obj_ne _ _ _ hqa)) (by rw [upd_obj_same]; rfl)
    rw [div3Loop, bind_ok (rd_ok hrd)]
    dsimp only
    have e : Mpi.div3Loop w (ds.drop n) = Mpi.div3Loop w (ds[n] :: ds.drop (n + 1)) := by rw [hd]
    rw [Mpi.div3Loop] at e
    dsimp only at e
    split_ifs with hv
    · rw [if_pos hv] at e
      rw [bind_ok (wr_ok hh _ (by omega))]
      have := ih (((Mpi.div3Fix (((((Mpi.div3Loop w (ds.drop (n + 1))).2 <<< w) % 2 ^ (2 * w)) ||| ds[n]) * (2 ^ w / 3) % 2 ^ (2 * w) / 2 ^ w)
        (((((Mpi.div3Loop w (ds.drop (n + 1))).2 <<< w) % 2 ^ (2 * w)) ||| ds[n]) - (((((Mpi.div3Loop w (ds.drop (n + 1))).2 <<< w) % 2 ^ (2 * w)) ||| ds[n]) * (2 ^ w / 3) % 2 ^ (2 * w) / 2 ^ w + ((((Mpi.div3Loop w (ds.drop (n + 1))).2 <<< w) % 2 ^ (2 * w)) ||| ds[n]) * (2 ^ w / 3) % 2 ^ (2 * w) / 2 ^ w + ((((Mpi.div3Loop w (ds.drop (n + 1))).2 <<< w) % 2 ^ (2 * w)) ||| ds[n]) * (2 ^ w / 3) % 2 ^ (2 * w) / 2 ^ w)))).1 % 2 ^ w)
        (by rw [upd_obj_same, cells_upd (by simp), hcell, over_set (by omega), e])
      rw [upd_upd] at this
      rw [← this, e]
    · rw [if_neg hv] at e
      rw [bind_ok (wr_ok hh _ (by omega))]
      have := ih 0 (by rw [upd_obj_same, cells_upd (by simp), hcell, over_set (by omega), e])
      rw [upd_upd] at this
      rw [← this, e]

theorem div3R (hw : 2 ≤ w) {sp a n : Nat} {s : St} {z : Int} (ha : R w z n (s.obj a)) (has : a < sp) :
    Leaf sp s a (div3 w sp a) (R w (Int.tdiv z 3) 0) (R w z n) := by
  obtain ⟨m, m1, m2⟩ := ha
  unfold div3
  apply decl_leaf has
  generalize hs0 : ({ s with obj := fun p => if sp ≤ p ∧ p < sp + 1 then Obj.fresh else s.obj p } : St) = s0
  have ho : ∀ v, v < sp → s0.obj v = s.obj v := fun v hv => by rw [← hs0]; dsimp only; rw [if_neg (by omega)]
  have hf : (s0.obj sp).owns = 0 := by rw [← hs0]; dsimp only; rw [if_pos (by omega)]; rfl
  rw [← ho a has] at m2
  unfold Leaf
  rw [bind_ok (hdr_ok m2.1.1)]
  dsimp only
  obtain ⟨st, s1, e1, t1, h1⟩ := initSize_run (w := w) (sp := sp + 1) (size := m.digs.length) (by omega) hf
  rcases h1 with ⟨rfl, h1⟩ | ⟨rfl, hf, h1⟩
  · have h1 := holds_zero_of_v h1
    have ha1 : s1.obj a = s0.obj a := t1.frame a (by omega) (by omega)
    rw [chk_ok e1, bind_ok (setUsed_ok h1.1.1 _), bind_ok (setSign_ok (by rw [upd_obj_same]; rfl) _), upd_upd, upd_obj_same, cells_upd rfl]
    have hl := div3Loop_ok (w := w) (q := sp) (a := a) (ds := m.digs) (c := (s1.obj sp).cells) (by omega) h1.2 m.digs.length
      (s1.upd sp ⟨m.neg, m.digs.length, (s1.obj sp).cells.length⟩ (s1.obj sp).cells) (Nat.le_refl _)
      (seg_of_obj (s := s0) m2.1.reads.seg (by rw [upd_obj_ne _ _ _ (by omega), ha1])) (by rw [upd_obj_same]; rfl)
      (by rw [upd_obj_same, cells_upd rfl, List.drop_length]; exact (over_nil _ _).symm)
    rw [List.drop_length, upd_upd] at hl
    rw [bind_ok (show div3Loop w sp a m.digs.length 0 _ = _ from hl)]
    have hlen := Mpi.div3Loop_length w m.digs
    have hc2 : (over (s1.obj sp).cells 0 (Mpi.div3Loop w m.digs).1).length = (s1.obj sp).cells.length := over_length (by rw [hlen]; have := h1.2; omega)
    generalize hs2 : s1.upd sp _ _ = s2
    have hH2 : (s2.obj sp).Holds ⟨m.neg, (Mpi.div3Loop w m.digs).1⟩ := by
      rw [← hs2, upd_obj_same]
      exact holds_len_upd h1.1 hc2 over_seg0 (by simp [hlen])
    have t2 : Step (sp + 1) s0 s2 sp := by rw [← hs2]; exact t1.trans (Step.upd _ _ _ _ _)
    obtain ⟨s3, e3, t3, h3, -⟩ := adjust_run (sp := sp + 1) hH2
    have t3 := t2.trans t3
    obtain ⟨s4, e4, l4, f4, k4, o4⟩ := swap_run (a := sp) (b := a) (s := s3)
    have oa4 : s4.obj a = s3.obj sp := by rw [o4]; simp
    have os4 : s4.obj sp = s0.obj a := by rw [o4]; simp [t3.frame a (by omega) (by omega)]
    obtain ⟨s5, e5, t5, h5⟩ := clear_run (sp := sp + 1) (a := sp) (s := s4) (Or.inr ⟨m, by rw [os4]; exact m2.1⟩)
    have oa5 : s5.obj a = s3.obj sp := by rw [t5.frame a (by omega) (by omega), oa4]
    refine ⟨0, s5, ?_, ⟨fun v hv hv' => ?_, ?_, ?_, ?_⟩, Or.inl ⟨rfl, Mpi.div3 w m, Mpi.div3_rep hw m1, ?_, Nat.zero_le _⟩⟩
    · rw [bind_ok e3, bind_ok e4, bind_ok e5]; rfl
    · rw [t5.frame v (by omega) (by omega), o4]
      simp only [Function.comp, Equiv.swap_apply_of_ne_of_ne (by omega : v ≠ sp) hv']
      exact t3.frame v (by omega) (by omega)
    · have a1 := t3.live
      have a2 := t5.live
      rw [os4, h5] at a2
      have : Obj.cleared.owns = 0 := rfl
      rw [oa5]
      omega
    · rw [t5.fails, f4, t3.fails]
    · have := t5.tick; have := t3.tick; omega
    · rw [oa5]; exact h3
  · refine ⟨-1, s1, chk_fail e1 (by decide), ⟨fun v hv hv' => t1.frame v (by omega) (by omega), ?_, t1.fails, t1.tick⟩, Or.inr ⟨rfl, hf, m, m1, ?_⟩⟩
    · rw [t1.frame a (by omega) (by omega)]
      have := t1.live
      have := h1.owns
      omega
    · rw [t1.frame a (by omega) (by omega)]; exact m2

end Verif.Mem
