import Verif.Lemmas.Mem.EcdsaLost
import Verif.Lemmas.Mem.EcpInit
import Verif.Lemmas.Ecp.Builtin
/-! Contexts of ECDSA and ECDH in memory, and the built-in groups. -/
namespace Verif.Ecp
open WeierstrassCurve WeierstrassCurve.Affine

/-- A point with abscissa 0 on a curve with `a = 0` has order 3. -/
theorem order_three {p : Nat} [Fact p.Prime] {b r : ZMod p} (h2 : (2 : ZMod p) ≠ 0) (hr : r ≠ 0) (hb : b = r * r) :
    ∃ P : (curve p 0 b).Point, P ≠ 0 ∧ 3 • P = 0 := by
  have hE : (curve p 0 b).Equation 0 r := by rw [equation_iff]; rw [hb]; ring
  have hy : r ≠ (curve p 0 b).negY 0 r := by
    intro e
    rw [negY] at e
    apply mul_ne_zero h2 hr
    linear_combination e
  have hN : (curve p 0 b).Nonsingular 0 r := by
    rw [nonsingular_iff]; exact ⟨hE, Or.inr (by simpa [negY] using hy)⟩
  refine ⟨.some 0 r hN, Point.some_ne_zero hN, ?_⟩
  have hs : (curve p 0 b).slope 0 0 r r = 0 := by
    rw [slope_of_Y_ne rfl hy]; simp
  have e1 : Point.some 0 r hN + Point.some 0 r hN = -Point.some 0 r hN := by
    rw [Point.add_self_of_Y_ne hy, Point.neg_some]
    congr 1
    · rw [hs]; simp [addX]
    · rw [hs]; simp [addY, negAddY, addX, negY]
  rw [succ_nsmul, two_nsmul, e1, neg_add_cancel]

theorem named_three : ∀ c ∈ namedGroups, 3 < c.p ∧ 3 < c.n := by decide +kernel

theorem Good.no_square {c : Params} [Fact c.p.Prime] (h : Good c) (h3 : 3 < c.p ∧ 3 < c.n) (ha : c.a = 0) :
    ¬ IsSquare (c.b : ZMod c.p) ∧ (3 : ZMod c.p) ≠ 0 := by
  have hz : ∀ k : Nat, 0 < k → k < c.p → (k : ZMod c.p) ≠ 0 := fun k h0 h1 e => by
    have := Nat.le_of_dvd h0 ((ZMod.natCast_eq_zero_iff _ _).1 e); omega
  have h2 : (2 : ZMod c.p) ≠ 0 := by exact_mod_cast hz 2 (by omega) (by omega)
  have h3' : (3 : ZMod c.p) ≠ 0 := by exact_mod_cast hz 3 (by omega) (by omega)
  refine ⟨?_, h3'⟩
  rintro ⟨r, hr⟩
  have hb : (c.b : ZMod c.p) ≠ 0 := by
    intro e
    apply h.disc
    rw [ha]
    apply Int.emod_eq_zero_of_dvd
    have hd : c.p ∣ c.b := (ZMod.natCast_eq_zero_iff _ _).1 e
    have : (c.p : Int) ∣ c.b := by exact_mod_cast hd
    have := (this.mul_right (c.b : Int)).mul_left 27
    simpa [pow_two] using this
  obtain ⟨P, h0, hP⟩ := order_three h2 (r := r) (b := (c.b : ZMod c.p)) (by rintro rfl; apply hb; rw [hr]; simp) hr
  have hc := h.card
  rw [ha, Int.cast_zero] at hc
  have h1 : addOrderOf P ∣ 3 := addOrderOf_dvd_of_nsmul_eq_zero hP
  have h4 : addOrderOf P ∣ c.n := by rw [← hc]; exact addOrderOf_dvd_natCard P
  have h5 : addOrderOf P ≠ 1 := fun e => h0 (AddMonoid.addOrderOf_eq_one_iff.1 e)
  have h6 := (h.n_prime.eq_one_or_self_of_dvd _ h4).resolve_left h5
  have := Nat.le_of_dvd (by omega) h1
  omega

end Verif.Ecp

namespace Verif.Mem
open Verif.Mpi

variable {w : Nat} {K : Ctx} {E : Env} {S d q g : Nat} {s : St}

/-! ### Built-in groups -/

/-- A number whose digits are a constant. -/
def constObj (m : Mpi) : Obj := ⟨some ⟨m.neg, m.digs.length, 0⟩, .mem false (m.digs.map some)⟩

theorem constObj_reads (m : Mpi) : (constObj m).Reads m := ⟨0, rfl, List.prefix_rfl⟩
theorem constObj_shows {m : Mpi} {z : Int} (h : WF (2 ^ w) m) (hz : m.toInt (2 ^ w) = z) : (constObj m).Shows w z := ⟨m, h, hz, constObj_reads m⟩
theorem constObj_owns (m : Mpi) : (constObj m).owns = 0 := rfl

/-- What the objects of a group hold after loading. -/
def grpNums (c : Ecp.Grp) : List Mpi := [c.p, c.a, c.b, c.g.x, c.g.y, c.g.z, c.n]

theorem ecpMpiLoad_run (v : Nat) (m : Mpi) (s : St) : ecpMpiLoad v m s = .ok ((), St.set s v (constObj m)) := rfl

theorem ecpGrpLoad_run (g : Nat) (c : Ecp.Grp) (s : St) :
    ∃ s', ecpGrpLoad g c s = .ok ((), s') ∧ (∀ i m, (grpNums c)[i]? = some m → s'.obj (g + i) = constObj m) ∧
      (∀ v, v < g ∨ g + 6 < v → s'.obj v = s.obj v) ∧ s'.live = s.live ∧ s'.fails = s.fails ∧ s'.tick = s.tick := by
  refine ⟨_, rfl, ?_, fun v hv => ?_, rfl, rfl, rfl⟩
  · intro i m h
    have hi : i < 7 := by
      by_contra hh
      rw [List.getElem?_eq_none (by simp [grpNums]; omega)] at h
      cases h
    have : ∀ (a b : Nat) (o : Obj) (t : St), (St.set t a o).obj b = if b = a then o else t.obj b := fun _ _ _ _ => rfl
    obtain rfl | rfl | rfl | rfl | rfl | rfl | rfl : i = 0 ∨ i = 1 ∨ i = 2 ∨ i = 3 ∨ i = 4 ∨ i = 5 ∨ i = 6 := by omega
    all_goals
      simp only [grpNums, List.getElem?_cons_zero, List.getElem?_cons_succ, Option.some.injEq] at h
      subst h
      simp [this]
      rfl
  · have : ∀ (a b : Nat) (o : Obj) (t : St), (St.set t a o).obj b = if b = a then o else t.obj b := fun _ _ _ _ => rfl
    simp only [this]
    rw [if_neg (by omega), if_neg (by omega), if_neg (by omega), if_neg (by omega), if_neg (by omega), if_neg (by omega), if_neg (by omega)]

/-! ### Making and clearing contexts -/

/-- The objects of a group, in the order of initialisation. -/
def grpList (g : Nat) : List Nat := [g, g + 1, g + 2, g + 6, g + 3, g + 4, g + 5]

theorem mem_grpList {v : Nat} : v ∈ grpList g ↔ g ≤ v ∧ v ≤ g + 6 := by unfold grpList; simp; omega

/-- A freshly initialised group. -/
def GrpNew (w : Nat) (E : Env) (g : Nat) : Env := But8 w (Sets E (grpList g) (V w 0 8)) (g + 3) 1 1 0

theorem GrpNew.ne {v : Nat} (h : v < g ∨ g + 6 < v) : GrpNew w E g v = E v := by
  unfold GrpNew Sets
  rw [But8.ne (by omega), if_neg (by rw [mem_grpList]; omega)]

theorem ecpGrpInit_res (hw : DigitWidth w) (h : At K E S s) (hg : g + 6 < S) (h0 : ∀ v, g ≤ v → v ≤ g + 6 → ∀ o, E v o → o.owns = 0) :
    WP (ecpGrpInit w g) (Res K S (GrpNew w E g) (Sets E (grpList g) fun o => o.owns = 0)) s := by
  have hw0 : 0 < w := by have := hw.pos; omega
  have hr := initListLoop_at (w := w) hw0 (grpList g) [] s (E := E)
    (h.le fun v _ o ho => by unfold Sets; rw [if_neg (by simp)]; exact ho)
    (by intro a ha; rw [List.nil_append, mem_grpList] at ha; omega) (by unfold grpList; simp) (by
      intro a ha o hoa
      rw [mem_grpList] at ha
      exact h0 a ha.1 ha.2 o hoa)
  rw [List.nil_append] at hr
  refine chk_res hr (Le.refl _ _) fun s1 h1 => ?_
  obtain ⟨s2, s3, s4, e2, e3, e4, h4, -⟩ := set3_room hw h1 (q := g + 3) (by omega) (x := 1) (y := 1) (z := 0) (by norm_num) (by norm_num) (by norm_num)
    fun v h1 h2 o ho => ⟨0, by unfold Sets at ho; rwa [if_pos (by rw [mem_grpList]; omega)] at ho⟩
  exact ⟨0, s4, by unfold ecpSetZero; rw [ign_run e2, ign_run e3, ign_run e4]; rfl, Or.inl ⟨rfl, h4⟩⟩

/-- Nothing is owned by the objects of the context. -/
def Gone (E : Env) (d q g : Nat) : Env := fun v =>
  if v = d ∨ (q ≤ v ∧ v ≤ q + 2) ∨ (g ≤ v ∧ v ≤ g + 6) then fun o => o.owns = 0 else E v

theorem ecdsaInitWith_res (hw : DigitWidth w) (h : At K E S s) (hd : d < S) (hq : q + 2 < S) (hdq : d < q ∨ q + 2 < d)
    (hdg : d < g ∨ g + 6 < d) (hqg : q + 2 < g ∨ g + 6 < q)
    (o1 : ∀ o, E d o → o.owns = 0) (o2 : ∀ v, q ≤ v → v ≤ q + 2 → ∀ o, E v o → o.owns = 0) (o3 : ∀ v, g ≤ v → v ≤ g + 6 → ∀ o, E v o → o.owns = 0)
    {grp : M Int} {G B : Env} {U : Prop}
    (hg : ∀ s2, At K (But8 w (Function.update E d (V w 0 8)) q 1 1 0) S s2 → ∃ st s3, grp s2 = .ok (st, s3) ∧
      ((st = 0 ∧ At K G S s3) ∨ (st = -1 ∧ (U ∨ Bad K s3) ∧ At K B S s3)))
    (hB : ∀ v, v < g ∨ g + 6 < v → B v = But8 w (Function.update E d (V w 0 8)) q 1 1 0 v)
    (hB' : ∀ v, g ≤ v → v ≤ g + 6 → ∀ o, B v o → o.owns = 0) :
    ∃ st s', ecdsaInitWith w d q grp s = .ok (st, s') ∧
      ((st = 0 ∧ At K G S s') ∨ (st = -1 ∧ (U ∨ Bad K s') ∧ At K (Gone E d q g) S s')) := by
  have hw0 : 0 < w := by have := hw.pos; omega
  obtain ⟨st, s1, e1, ⟨rfl, h1⟩ | ⟨rfl, b1, h1⟩⟩ := leaf_at h hd (init_run (sp := S) (a := d) hw0 (o1 _ (h.objs d hd)))
  swap
  · refine ⟨-1, s1, by unfold ecdsaInitWith; rw [chk_fail e1 (by decide)], Or.inr ⟨rfl, Or.inr b1, h1.le fun v hv o ho => ?_⟩⟩
    unfold Gone
    by_cases hvd : v = d
    · subst hvd; rw [if_pos (Or.inl rfl)]; rw [Function.update_self] at ho; exact ho.owns
    · rw [Function.update_of_ne hvd] at ho
      split_ifs with hc
      · rcases hc with hc | hc | hc
        · exact absurd hc hvd
        · exact o2 v hc.1 hc.2 o ho
        · exact o3 v hc.1 hc.2 o ho
      · exact ho
  have oq : ∀ v, q ≤ v → v ≤ q + 2 → ∀ o, Function.update E d (V w 0 8) v o → o.owns = 0 := fun v a b o ho => by
    rw [Function.update_of_ne (by omega)] at ho; exact o2 v a b o ho
  -- the end, after a failure
  have fin : ∀ {X : Env} {s2 : St} {c : M Int}, c s1 = .ok (-1, s2) → At K X S s2 → (∀ o, X d o → V w 0 8 o) →
      (∀ v, v ≠ d → ∀ o, X v o → Gone E d q g v o) → (U ∨ Bad K s2) → ∃ s',
      ecdsaInitWith w d q grp s = .ok (-1, s') ∧ (U ∨ Bad K s') ∧ At K (Gone E d q g) S s' ∨ chk (ecpInit w q) (do
        let st ← grp
        if st ≠ 0 then do
          ecpClear q
          pure st
        else pure st) s1 ≠ c s1 := by
    intro X s2 c ec hX hXd hXo hU
    by_cases hne : chk (ecpInit w q) (do
        let st ← grp
        if st ≠ 0 then do
          ecpClear q
          pure st
        else pure st) s1 = c s1
    swap
    · exact ⟨s2, Or.inr hne⟩
    obtain ⟨s3, e3, t3, c3⟩ := clear_run (sp := S) (a := d) (hXd _ (hX.objs d hd)).any.clr
    have h3 := step_at (P := (· = Obj.cleared)) hX hd t3 c3
    refine ⟨s3, Or.inl ⟨?_, hU.imp id ?_, h3.le fun v hv o ho => ?_⟩⟩
    · unfold ecdsaInitWith
      rw [chk_ok e1, bind_ok (hne.trans ec), if_pos (by decide), bind_ok e3]; rfl
    · rintro ⟨k, k1, k2, k3⟩
      exact ⟨k, k1, lt_of_lt_of_le k2 t3.tick, k3⟩
    · by_cases hvd : v = d
      · subst hvd
        rw [Function.update_self] at ho
        unfold Gone
        rw [if_pos (Or.inl rfl), ho]; rfl
      · rw [Function.update_of_ne hvd] at ho
        exact hXo v hvd o ho
  obtain ⟨st, s2, e2, ⟨rfl, h2⟩ | ⟨rfl, b2, h2⟩⟩ := ecpInit_res hw h1 hq oq
  swap
  · obtain ⟨s', ⟨r1, r2, r3⟩ | hne⟩ := fin (c := ecpInit w q) e2 h2
      (fun o ho => by unfold Sets at ho; rwa [if_neg (by simp; omega), Function.update_self] at ho)
      (fun v hv o ho => by
        unfold Sets at ho
        unfold Gone
        by_cases hm : q ≤ v ∧ v ≤ q + 2
        · rw [if_pos (by simp; omega)] at ho
          rw [if_pos (Or.inr (Or.inl hm))]; exact ho
        · rw [if_neg (by simp; omega), Function.update_of_ne hv] at ho
          split_ifs with hc
          · rcases hc with hc | hc | hc
            · exact absurd hc hv
            · exact absurd hc hm
            · exact o3 v hc.1 hc.2 o ho
          · exact ho) (Or.inr b2)
    · exact ⟨-1, s', r1, Or.inr ⟨rfl, r2, r3⟩⟩
    · exact absurd (by rw [chk_fail e2 (by decide), e2]) hne
  obtain ⟨st, s3, e3, ⟨rfl, h3⟩ | ⟨rfl, b3, h3⟩⟩ := hg s2 h2
  · refine ⟨0, s3, ?_, Or.inl ⟨rfl, h3⟩⟩
    unfold ecdsaInitWith
    have : chk (ecpInit w q) (do
        let st ← grp
        if st ≠ 0 then do
          ecpClear q
          pure st
        else pure st) s1 = .ok (0, s3) := by
      rw [chk_ok e2, bind_ok e3, if_neg (by simp)]; rfl
    rw [chk_ok e1, bind_ok this, if_neg (by simp)]; rfl
  · have hP : Pt3 w B q := by
      have hi := But8.inf (w := w) (E := Function.update E d (V w 0 8)) (q := q)
      refine ⟨fun o ho => ?_, fun o ho => ?_, fun o ho => ?_⟩
      · rw [hB _ (by omega)] at ho; exact (hi.x o ho).any
      · rw [hB _ (by omega)] at ho; exact (hi.y o ho).any
      · rw [hB _ (by omega)] at ho; exact (hi.z o ho).any
    obtain ⟨s4, X, e4, h4, x1, x2, t4⟩ := ecpClear_calm h3 hq hP
    have ec : chk (ecpInit w q) (do
        let st ← grp
        if st ≠ 0 then do
          ecpClear q
          pure st
        else pure st) s1 = .ok (-1, s4) := by
      rw [chk_ok e2, bind_ok e3, if_pos (by decide), bind_ok e4]; rfl
    obtain ⟨s', ⟨r1, r2, r3⟩ | hne⟩ := fin ec h4
      (fun o ho => by rw [x2 d hdq, hB d hdg, But8.ne hdq, Function.update_self] at ho; exact ho)
      (fun v hv o ho => by
        unfold Gone
        split_ifs with hc
        · rcases hc with hc | hc | hc
          · exact absurd hc hv
          · exact x1 v hc.1 hc.2 o ho
          · rw [x2 v (by omega)] at ho; exact hB' v hc.1 hc.2 o ho
        · push Not at hc
          rw [x2 v (by omega), hB v (by omega), But8.ne (by omega), Function.update_of_ne hv] at ho
          exact ho) (b3.imp id fun ⟨k, k1, k2, k3⟩ => ⟨k, k1, lt_of_lt_of_le k2 t4, k3⟩)
    · exact ⟨-1, s', r1, Or.inr ⟨rfl, r2, r3⟩⟩
    · exact absurd rfl hne

end Verif.Mem
