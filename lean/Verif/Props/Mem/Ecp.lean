import Verif.Lemmas.Mem.EcpInit
import Verif.Props.Mem.Conv
import Verif.Props.Ecp.Ecp
/-!
# C82, C83: points of elliptic curves in memory

Group operations on point objects in memory: result, aliasing, blocks, and what happens to everything else, when no
allocation fails; initialisation, copying and clearing whichever allocations fail; and what goes wrong when one fails.
-/
namespace Verif.Mem
open Verif.Mpi
open WeierstrassCurve WeierstrassCurve.Affine
open Verif.Ecp (curve)

section
variable {w p : Nat} {a b : ZMod p} {s : St} {q : Nat}

theorem Coords.at3 {x y z : Int} (h : Coords w s q x y z) : At3 w (Now s) q x y z :=
  ⟨fun o ho => by rw [ho]; exact h.1, fun o ho => by rw [ho]; exact h.2.1, fun o ho => by rw [ho]; exact h.2.2⟩
theorem ReadyAt.pt3 (h : ReadyAt w s q) : Pt3 w (Now s) q :=
  ⟨fun o ho => by rw [ho]; exact (h 0 (by omega)).imp fun _ h => V.of_is h, fun o ho => by rw [ho]; exact (h 1 (by omega)).imp fun _ h => V.of_is h,
    fun o ho => by rw [ho]; exact (h 2 (by omega)).imp fun _ h => V.of_is h⟩
theorem GroupAt.grp {g : Nat} (h : GroupAt w p a b s g) : ∃ za, GrpAt w p a b (Now s) g za := by
  obtain ⟨h1, ⟨za, h2, h3⟩ | ⟨h2, h3, h4, h5⟩⟩ := h
  · exact ⟨za, fun o ho => by rw [ho]; exact h1, Or.inl fun o ho => by rw [ho]; exact h2, h3⟩
  · exact ⟨0, fun o ho => by rw [ho]; exact h1, Or.inr ⟨fun o ho => by rw [ho]; exact h2, rfl, h4, h5⟩, by rw [h3, Int.cast_zero]⟩

theorem At.same {K : Ctx} {sp : Nat} {s' : St} (hK : K = ctxOf sp s) (h : At K (Now s) sp s') : (∀ v, v < sp → s'.obj v = s.obj v) ∧ s'.live = s.live := by
  subst hK
  have hf : ∀ v, v < sp → s'.obj v = s.obj v := fun v hv => h.objs v hv
  refine ⟨hf, ?_⟩
  have h1 := h.bal
  have h2 : ∑ v ∈ Finset.range sp, (s'.obj v).owns = ∑ v ∈ Finset.range sp, (s.obj v).owns :=
    Finset.sum_congr rfl fun v hv => by rw [hf v (Finset.mem_range.1 hv)]
  have : (ctxOf sp s).B = s.live - ∑ v ∈ Finset.range sp, (s.obj v).owns := rfl
  rw [h2, this] at h1; omega

theorem sum_change3 {f g : Nat → Int} {sp r : Nat} (hr : r + 2 < sp) (h : ∀ v, v < sp → (v < r ∨ r + 2 < v) → g v = f v) :
    ∑ v ∈ Finset.range sp, g v = ∑ v ∈ Finset.range sp, f v - (f r + f (r + 1) + f (r + 2)) + (g r + g (r + 1) + g (r + 2)) := by
  have e1 := sum_change (f := f) (g := Function.update f r (g r)) (show r < sp by omega) fun v _ hv => by rw [Function.update_of_ne hv]
  have e2 := sum_change (f := Function.update f r (g r)) (g := Function.update (Function.update f r (g r)) (r + 1) (g (r + 1)))
    (show r + 1 < sp by omega) fun v _ hv => by rw [Function.update_of_ne hv]
  have e3 := sum_change (f := Function.update (Function.update f r (g r)) (r + 1) (g (r + 1))) (g := g) (show r + 2 < sp by omega) fun v hv hv' => by
    by_cases h1 : v = r + 1
    · subst h1; rw [Function.update_self]
    rw [Function.update_of_ne h1]
    by_cases h2 : v = r
    · subst h2; rw [Function.update_self]
    rw [Function.update_of_ne h2]
    exact h v hv (by omega)
  rw [e3, e2, e1, Function.update_self, Function.update_self, Function.update_of_ne (by omega), Function.update_of_ne (by omega),
    Function.update_of_ne (by omega)]
  ring

theorem ptEnds_of {sp r : Nat} {c : M Int} {st : Int} {s' : St} {E : Env} {good : St → Prop} (hr : r + 2 < sp) (e : c s = .ok (st, s'))
    (h : At (ctxOf sp s) E sp s') (hE : ∀ v, v < sp → (v < r ∨ r + 2 < v) → E v = Now s v) (hg : good s') : PtEnds sp s r c st good := by
  have hf : ∀ v, v < sp → (v < r ∨ r + 2 < v) → s'.obj v = s.obj v := fun v hv hv' => by
    have := h.objs v hv; rwa [hE v hv hv'] at this
  refine ⟨s', e, hf, ?_, hg⟩
  have h1 := h.bal
  have h2 := sum_change3 (f := fun v => (s.obj v).owns) (g := fun v => (s'.obj v).owns) hr fun v hv hv' => by rw [hf v hv hv']
  have : (ctxOf sp s).B = s.live - ∑ v ∈ Finset.range sp, (s.obj v).owns := rfl
  rw [this] at h1
  rw [h1, h2]; ring

theorem coords_of {K : Ctx} {A : Env} {sp r : Nat} {s' : St} {x y z : Int} (hr : r + 2 < sp) (h : At K (But3 w A r x y z) sp s') :
    Coords w s' r x y z ∧ ReadyAt w s' r := by
  have h0 := h.objs r (by omega); rw [But3.atX] at h0
  have h1 := h.objs (r + 1) (by omega); rw [But3.atY] at h1
  have h2 := h.objs (r + 2) (by omega); rw [But3.atZ] at h2
  refine ⟨⟨h0.shows, h1.shows, h2.shows⟩, fun i hi => ?_⟩
  obtain rfl | rfl | rfl : i = 0 ∨ i = 1 ∨ i = 2 := by omega
  exacts [⟨_, h0.is⟩, ⟨_, h1.is⟩, ⟨_, h2.is⟩]

theorem same_coords {x y z x' y' z' : Int} (h : Coords w s q x y z) (h' : Coords w s q x' y' z') : x = x' ∧ y = y' ∧ z = z' := by
  have key : ∀ {o : Obj} {u v : Int}, o.Shows w u → o.Shows w v → u = v := by
    rintro o u v ⟨m, -, m2, m3⟩ ⟨m', -, n2, n3⟩
    rw [← m2, ← n2, same_num m3 n3]
  exact ⟨key h.1 h'.1, key h.2.1 h'.2.1, key h.2.2 h'.2.2⟩

end

section
variable {w p : Nat} {a b : ZMod p} [Fact p.Prime] {s : St} {sp pr p1 p2 kk g : Nat} {P Q : (curve p a b).Point}

/-- C82.  Full statement: `cry_ecp_dbl` on objects in memory leaves `P + P` in `pr`, which may be `p1`.  Proved, when no
allocation fails, for every point that is not of order two: no undefined behaviour, nothing else changed, no block leaked.
Missing, because false: order two (`mem_ecp_dbl_order_two`) and failing allocations (`mem_ecp_dbl_failure_lost`). -/
theorem mem_ecp_dbl_partial (hw : DigitWidth w) (hf : ∀ k, s.fails k = false) (h1 : p1 + 2 < sp) (hpr : pr + 2 < sp) (hg : g + 1 < sp)
    (hd : SameOrApart pr p1) (hr : ReadyAt w s pr) (hG : GroupAt w p a b s g) (hP : PointAt w s p1 P) (h2 : P = 0 ∨ P + P ≠ 0) :
    PtEnds sp s pr (ecpDbl w sp pr p1 g) 0 fun s' => PointAt w s' pr (P + P) ∧ ReadyAt w s' pr ∧ (StdAt p w s p1 → StdAt p w s' pr) := by
  obtain ⟨x, y, z, hc, hon⟩ := hP
  obtain ⟨za, hG⟩ := hG.grp
  obtain ⟨s', x', y', z', e, e1, e2, e3⟩ := (ecpDbl_calm hw (K := ctxOf sp s) hf (at_now sp s) h1 hg hpr hd hr.pt3 hc.at3 hG hon).1 h2
  obtain ⟨c1, c2⟩ := coords_of hpr e3
  refine ptEnds_of hpr e e3 (fun v _ hv => But3.ne (by omega)) ⟨⟨x', y', z', c1, e1⟩, c2, ?_⟩
  rintro ⟨u, v, t, d1, d2⟩
  obtain ⟨rfl, rfl, rfl⟩ := same_coords hc d1
  exact ⟨x', y', z', c1, e2 d2⟩

/-- C82, where it fails: doubling a point of order two is an error; nothing is changed and nothing leaks. -/
theorem mem_ecp_dbl_order_two (hw : DigitWidth w) (hf : ∀ k, s.fails k = false) (h1 : p1 + 2 < sp) (hpr : pr + 2 < sp) (hg : g + 1 < sp)
    (hd : SameOrApart pr p1) (hr : ReadyAt w s pr) (hG : GroupAt w p a b s g) (hP : PointAt w s p1 P) (h0 : P ≠ 0) (h2 : P + P = 0) :
    EndsSame sp s (ecpDbl w sp pr p1 g) (-1) := by
  obtain ⟨x, y, z, hc, hon⟩ := hP
  obtain ⟨za, hG⟩ := hG.grp
  obtain ⟨s', e, e3⟩ := (ecpDbl_calm hw (K := ctxOf sp s) hf (at_now sp s) h1 hg hpr hd hr.pt3 hc.at3 hG hon).2 ⟨h0, h2⟩
  exact ⟨s', e, e3.same rfl⟩

/-- C82.  Full statement: `cry_ecp_add` on objects in memory leaves `P + Q` in `pr`, which may be either operand.  Proved, when
no allocation fails, except when both are the same point of order two.  Missing, because false: that case
(`mem_ecp_add_order_two`) and failing allocations (`mem_ecp_add_inverse_failure`). -/
theorem mem_ecp_add_partial (hw : DigitWidth w) (hf : ∀ k, s.fails k = false) (h1 : p1 + 2 < sp) (h2 : p2 + 2 < sp) (hpr : pr + 2 < sp)
    (hg : g + 1 < sp) (hd1 : SameOrApart pr p1) (hd2 : SameOrApart pr p2) (hr : ReadyAt w s pr) (hG : GroupAt w p a b s g)
    (hP : PointAt w s p1 P) (hQ : PointAt w s p2 Q) (hPQ : ¬ (P = Q ∧ P ≠ 0 ∧ P + P = 0)) :
    PtEnds sp s pr (ecpAdd w sp pr p1 p2 g) 0 fun s' => PointAt w s' pr (P + Q) ∧ ReadyAt w s' pr ∧
      (StdAt p w s p1 → StdAt p w s p2 → StdAt p w s' pr) := by
  obtain ⟨x, y, z, hc, hon⟩ := hP
  obtain ⟨x2, y2, z2, hc2, hon2⟩ := hQ
  obtain ⟨za, hG⟩ := hG.grp
  obtain ⟨s', x', y', z', e, e1, e2, e3⟩ := (ecpAdd_calm hw (K := ctxOf sp s) hf (at_now sp s) h1 h2 hg hpr hd1 hd2 hr.pt3 hc.at3 hc2.at3 hG
    hon hon2).1 hPQ
  obtain ⟨c1, c2⟩ := coords_of hpr e3
  refine ptEnds_of hpr e e3 (fun v _ hv => But3.ne (by omega)) ⟨⟨x', y', z', c1, e1⟩, c2, ?_⟩
  rintro ⟨u, v, t, d1, d2⟩ ⟨u', v', t', d1', d2'⟩
  obtain ⟨rfl, rfl, rfl⟩ := same_coords hc d1
  obtain ⟨rfl, rfl, rfl⟩ := same_coords hc2 d1'
  exact ⟨x', y', z', c1, e2 d2 d2'⟩

/-- C82, where it fails: adding a point of order two to itself is an error; nothing is changed and nothing leaks. -/
theorem mem_ecp_add_order_two (hw : DigitWidth w) (hf : ∀ k, s.fails k = false) (h1 : p1 + 2 < sp) (h2 : p2 + 2 < sp) (hpr : pr + 2 < sp)
    (hg : g + 1 < sp) (hd1 : SameOrApart pr p1) (hd2 : SameOrApart pr p2) (hr : ReadyAt w s pr) (hG : GroupAt w p a b s g)
    (hP : PointAt w s p1 P) (hQ : PointAt w s p2 P) (h0 : P ≠ 0) (h3 : P + P = 0) :
    EndsSame sp s (ecpAdd w sp pr p1 p2 g) (-1) := by
  obtain ⟨x, y, z, hc, hon⟩ := hP
  obtain ⟨x2, y2, z2, hc2, hon2⟩ := hQ
  obtain ⟨za, hG⟩ := hG.grp
  obtain ⟨s', e, e3⟩ := (ecpAdd_calm hw (K := ctxOf sp s) hf (at_now sp s) h1 h2 hg hpr hd1 hd2 hr.pt3 hc.at3 hc2.at3 hG
    hon hon2).2 ⟨rfl, h0, h3⟩
  exact ⟨s', e, e3.same rfl⟩

theorem mem_ecp_mul_any (hw : DigitWidth w) (hf : ∀ k, s.fails k = false) (h1 : p1 + 2 < sp) (hpr : pr + 2 < sp) (hg : g + 1 < sp) (hk : kk < sp)
    (hd : SameOrApart pr p1) (hr : ReadyAt w s pr) (hG : GroupAt w p a b s g) (hP : PointAt w s p1 P) {k : Int} (hkk : (s.obj kk).Shows w k)
    (F : Prop) (hF : F ∨ ∀ k : Nat, k • P + k • P = 0 → k • P = 0) :
    (F ∧ EndsSame sp s (ecpMul w sp pr p1 kk g) (-1)) ∨
    PtEnds sp s pr (ecpMul w sp pr p1 kk g) 0 fun s' => PointAt w s' pr (k.natAbs • P) ∧ ReadyAt w s' pr ∧
      (StdAt p w s p1 → StdAt p w s' pr) := by
  obtain ⟨x, y, z, hc, hon⟩ := hP
  obtain ⟨za, hG⟩ := hG.grp
  obtain ⟨m, m1, m2, m3⟩ := hkk
  rcases ecpMul_calm hw (K := ctxOf sp s) (A := Now s) (kk := kk) (ds := m.digs) hf hF m1.toNorm.1 (fun o ho => ⟨m.neg, by rw [ho]; exact m3⟩) hk hg hG h1 hpr hd
    hr.pt3 hc.at3 hon (at_now sp s) with ⟨hf, s', e, e3⟩ | ⟨s', x', y', z', e, e3, e1, e2⟩
  · exact Or.inl ⟨hf, s', e, e3.same rfl⟩
  · obtain ⟨c1, c2⟩ := coords_of hpr e3
    rw [← natAbs_toInt, m2] at e1
    refine Or.inr (ptEnds_of hpr e e3 (fun v _ hv => But3.ne (by omega)) ⟨⟨x', y', z', c1, e1⟩, c2, ?_⟩)
    rintro ⟨u, v, t, d1, d2⟩
    obtain ⟨rfl, rfl, rfl⟩ := same_coords hc d1
    exact ⟨x', y', z', c1, e2 d2⟩

/-- C83.  Full statement: `cry_ecp_mul` on objects in memory leaves `k` times `P` in `pr` whenever it reports success.  Proved,
when no allocation fails, for points of odd order and the absolute value of the scalar: the call succeeds, no undefined
behaviour, nothing else changed, the window and the local point are given back.  Missing, because false: failing allocations
(`mem_ecp_mul_no_window`), points of even order (`Verif.Ecp.ecp_mul_even_fails`), negative scalars. -/
theorem mem_ecp_mul_partial (hw : DigitWidth w) (hf : ∀ k, s.fails k = false) (h1 : p1 + 2 < sp) (hpr : pr + 2 < sp) (hg : g + 1 < sp) (hk : kk < sp)
    (hd : SameOrApart pr p1) (hr : ReadyAt w s pr) (hG : GroupAt w p a b s g) (hP : PointAt w s p1 P) {k : Int} (hkk : (s.obj kk).Shows w k)
    (hodd : Odd (addOrderOf P)) :
    PtEnds sp s pr (ecpMul w sp pr p1 kk g) 0 fun s' => PointAt w s' pr (k.natAbs • P) ∧ ReadyAt w s' pr ∧
      (StdAt p w s p1 → StdAt p w s' pr) :=
  (mem_ecp_mul_any hw hf h1 hpr hg hk hd hr hG hP hkk False (Or.inr fun k => Verif.Ecp.nsmul_two_torsion hodd k)).resolve_left fun h => h.1

/-- C83 for points of any order: success means the right result; otherwise −1 and nothing has changed. -/
theorem mem_ecp_mul_sound (hw : DigitWidth w) (hf : ∀ k, s.fails k = false) (h1 : p1 + 2 < sp) (hpr : pr + 2 < sp) (hg : g + 1 < sp) (hk : kk < sp)
    (hd : SameOrApart pr p1) (hr : ReadyAt w s pr) (hG : GroupAt w p a b s g) (hP : PointAt w s p1 P) {k : Int} (hkk : (s.obj kk).Shows w k) :
    EndsSame sp s (ecpMul w sp pr p1 kk g) (-1) ∨
    PtEnds sp s pr (ecpMul w sp pr p1 kk g) 0 fun s' => PointAt w s' pr (k.natAbs • P) ∧ ReadyAt w s' pr ∧
      (StdAt p w s p1 → StdAt p w s' pr) :=
  (mem_ecp_mul_any hw hf h1 hpr hg hk hd hr hG hP hkk True (Or.inl trivial)).imp (fun h => h.2) id

/-- C83, where it fails: if the block for the window cannot be allocated (the fourth request), `cry_ecp_mul` reports success
and has changed nothing, whatever the point (other than infinity), the scalar and the group. -/
theorem mem_ecp_mul_no_window (hw : DigitWidth w) (h1 : p1 + 2 < sp) (hP : PointAt w s p1 P) (h0 : P ≠ 0)
    (hf : ∀ k, k < 3 → s.fails (s.tick + k) = false) (hf3 : s.fails (s.tick + 3) = true) :
    EndsSame sp s (ecpMul w sp pr p1 kk g) 0 := by
  obtain ⟨x, y, z, hc, hon⟩ := hP
  obtain ⟨s', e, h⟩ := ecpMul_no_window hw (K := ctxOf sp s) (A := Now s) (pr := pr) (kk := kk) (g := g) (at_now sp s) h1
    (fun o ho => by rw [ho]; exact hc.2.2) (fun hz => h0 ((onPt_zero hon).1 hz)) hf hf3
  exact ⟨s', e, h.same rfl⟩

/-- C83, where it fails, as seen by a caller: success, and `pr` does not hold the multiple. -/
theorem mem_ecp_mul_false_success (hw : DigitWidth w) (h1 : p1 + 2 < sp) (hpr : pr + 2 < sp) (hP : PointAt w s p1 P) (h0 : P ≠ 0)
    (hQ : PointAt w s pr Q) (k : Nat) (hk : Q ≠ k • P) (hf : ∀ k, k < 3 → s.fails (s.tick + k) = false) (hf3 : s.fails (s.tick + 3) = true) :
    ∃ s', ecpMul w sp pr p1 kk g s = .ok (0, s') ∧ ¬ PointAt w s' pr (k • P) := by
  obtain ⟨s', e, f, -⟩ := mem_ecp_mul_no_window (pr := pr) (kk := kk) (g := g) hw h1 hP h0 hf hf3
  refine ⟨s', e, ?_⟩
  rintro ⟨x, y, z, ⟨c1, c2, c3⟩, hon⟩
  rw [f _ (by omega)] at c1 c2 c3
  obtain ⟨x', y', z', d, hon'⟩ := hQ
  obtain ⟨rfl, rfl, rfl⟩ := same_coords ⟨c1, c2, c3⟩ d
  apply hk
  revert hon hon'
  cases k • P with
  | zero =>
    intro h h'
    exact (onPt_zero h').1 h
  | some X Y hn =>
    rintro ⟨h1, h2, h3⟩ h'
    cases Q with
    | zero => exact absurd h' h1
    | some X' Y' hn' =>
      obtain ⟨-, h4, h5⟩ := h'
      congr 1
      · rw [← h4, h2]
      · rw [← h5, h3]

end

/-! ### Runs -/

/-- A one-digit number in an array of one digit. -/
def exNum (n : Nat) : Obj := ⟨some ⟨false, 1, 1⟩, .mem true [some n]⟩

/-- `P` = (5, 1) at 0, `2 P` = (6, 3) at 3, the group y² = x³ + 2x + 2 modulo 17 at 6 (its base point at 9, its order at
12), the scalar 7 at 13. -/
def exEcp (f : Nat → Bool) : St :=
  ⟨fun v => match [5, 1, 1, 6, 3, 1, 17, 2, 2, 5, 1, 1, 19, 7][v]? with
    | some n => exNum n
    | none => ⟨some ⟨false, 0, 0⟩, .null⟩, f, 0, 14⟩

theorem exNum_is {n : Nat} (h0 : n ≠ 0) (h : n < 2 ^ 8) : (exNum n).Is 8 n :=
  ⟨⟨false, [n]⟩, wf1 h0 h, by simp [Mpi.toInt, val], rfl, ⟨[], rfl⟩, Or.inr ⟨[some n], by simp, rfl⟩⟩

section
variable (f : Nat → Bool)

theorem exEcp_p : PointAt 8 (exEcp f) 0 Verif.Ecp.toyPt :=
  ⟨5, 1, 1, ⟨(exNum_is (n := 5) (by decide) (by decide)).shows, (exNum_is (n := 1) (by decide) (by decide)).shows,
    (exNum_is (n := 1) (by decide) (by decide)).shows⟩, by decide, by decide, by decide⟩
theorem exEcp_2p_coords : Coords 8 (exEcp f) 3 6 3 1 :=
  ⟨(exNum_is (n := 6) (by decide) (by decide)).shows, (exNum_is (n := 3) (by decide) (by decide)).shows,
    (exNum_is (n := 1) (by decide) (by decide)).shows⟩
theorem exEcp_ready : ReadyAt 8 (exEcp f) 3 := fun i hi => by
  obtain rfl | rfl | rfl : i = 0 ∨ i = 1 ∨ i = 2 := by omega
  exacts [⟨6, exNum_is (n := 6) (by decide) (by decide)⟩, ⟨3, exNum_is (n := 3) (by decide) (by decide)⟩,
    ⟨1, exNum_is (n := 1) (by decide) (by decide)⟩]
theorem exEcp_grp : GroupAt 8 17 2 2 (exEcp f) 6 :=
  ⟨(exNum_is (n := 17) (by decide) (by decide)).shows, Or.inl ⟨2, (exNum_is (n := 2) (by decide) (by decide)).shows, by decide⟩⟩

theorem exEcp_2p_ns : (curve 17 2 2).Nonsingular 6 3 := by
  rw [nonsingular_iff, equation_iff]
  decide
/-- (6, 3) as an element of the group. -/
def exEcp2 : (curve 17 2 2).Point := .some 6 3 exEcp_2p_ns
theorem exEcp_2p : PointAt 8 (exEcp f) 3 exEcp2 := ⟨6, 3, 1, exEcp_2p_coords f, by decide, by decide, by decide⟩

theorem exEcp_std : StdAt 17 8 (exEcp f) 0 :=
  ⟨5, 1, 1, ⟨(exNum_is (n := 5) (by decide) (by decide)).shows, (exNum_is (n := 1) (by decide) (by decide)).shows,
    (exNum_is (n := 1) (by decide) (by decide)).shows⟩, Or.inr (by decide)⟩

end

/-- The hypotheses of `mem_ecp_dbl_partial`, `mem_ecp_add_partial`, `mem_ecp_mul_partial` and `mem_ecp_mul_sound` are met: the
double of `P` over (6, 3), the sum of both over the second, and 7 `P` over the second. -/
example : PtEnds 14 (exEcp fun _ => false) 3 (ecpDbl 8 14 3 0 6) 0 (fun s' => PointAt 8 s' 3 (Verif.Ecp.toyPt + Verif.Ecp.toyPt) ∧ ReadyAt 8 s' 3 ∧
      (StdAt 17 8 (exEcp fun _ => false) 0 → StdAt 17 8 s' 3)) ∧
    PtEnds 14 (exEcp fun _ => false) 3 (ecpAdd 8 14 3 0 3 6) 0 (fun s' => PointAt 8 s' 3 (Verif.Ecp.toyPt + exEcp2) ∧ ReadyAt 8 s' 3 ∧
      (StdAt 17 8 (exEcp fun _ => false) 0 → StdAt 17 8 (exEcp fun _ => false) 3 → StdAt 17 8 s' 3)) ∧
    PtEnds 14 (exEcp fun _ => false) 3 (ecpMul 8 14 3 0 13 6) 0 (fun s' => PointAt 8 s' 3 ((7 : Int).natAbs • Verif.Ecp.toyPt) ∧ ReadyAt 8 s' 3 ∧
      (StdAt 17 8 (exEcp fun _ => false) 0 → StdAt 17 8 s' 3)) :=
  ⟨mem_ecp_dbl_partial (Or.inl rfl) (fun _ => rfl) (by decide) (by decide) (by decide) (Or.inr (by decide)) (exEcp_ready _) (exEcp_grp _) (exEcp_p _)
      (Or.inr (by rw [Ne, Verif.Ecp.toyPt, Verif.Ecp.point_add_self_zero]; decide)),
    mem_ecp_add_partial (Or.inl rfl) (fun _ => rfl) (by decide) (by decide) (by decide) (by decide) (Or.inr (by decide)) (Or.inl rfl) (exEcp_ready _)
      (exEcp_grp _) (exEcp_p _) (exEcp_2p _) (fun h => by
        have := h.2.2
        rw [Verif.Ecp.toyPt, Verif.Ecp.point_add_self_zero] at this
        exact absurd this (by decide)),
    mem_ecp_mul_partial (Or.inl rfl) (fun _ => rfl) (by decide) (by decide) (by decide) (by decide) (Or.inr (by decide)) (exEcp_ready _) (exEcp_grp _)
      (exEcp_p _) (exNum_is (n := 7) (by decide) (by decide)).shows (by rw [Verif.Ecp.toyPt_order]; decide)⟩

/-- The three results, computed: (6, 3), (10, 6) and (0, 6). -/
example : (∃ s', ecpDbl 8 14 3 0 6 (exEcp fun _ => false) = .ok (0, s') ∧ decide ([3, 4, 5].map (fun v => (s'.obj v).hdr.map Hdr.used) = [some 1, some 1, some 1] ∧
      [3, 4, 5].map (fun v => (s'.obj v).cells[0]?) = [some (some 6), some (some 3), some (some 1)] ∧ s'.live = 14) = true) ∧
    (∃ s', ecpAdd 8 14 3 0 3 6 (exEcp fun _ => false) = .ok (0, s') ∧ decide ([3, 4, 5].map (fun v => (s'.obj v).hdr.map Hdr.used) = [some 1, some 1, some 1] ∧
      [3, 4, 5].map (fun v => (s'.obj v).cells[0]?) = [some (some 10), some (some 6), some (some 1)] ∧ s'.live = 14) = true) ∧
    ∃ s', ecpMul 8 14 3 0 13 6 (exEcp fun _ => false) = .ok (0, s') ∧ decide ([3, 4, 5].map (fun v => (s'.obj v).hdr.map Hdr.used) = [some 0, some 1, some 1] ∧
      [4, 5].map (fun v => (s'.obj v).cells[0]?) = [some (some 6), some (some 1)] ∧ s'.live = 14) = true :=
  ⟨endsIn_ok (by decide +kernel), endsIn_ok (by decide +kernel), endsIn_ok (by decide +kernel)⟩

/-- The hypotheses of `mem_ecp_mul_false_success` are met: the fourth request fails, and 7 `P` is reported to be (6, 3). -/
example : ∃ s', ecpMul 8 14 3 0 13 6 (exEcp fun k => k == 3) = .ok (0, s') ∧ ¬ PointAt 8 s' 3 (7 • Verif.Ecp.toyPt) := by
  refine mem_ecp_mul_false_success (Or.inl rfl) (by decide) (by decide) (exEcp_p _) (Point.some_ne_zero _) (exEcp_2p _) 7 ?_ ?_ rfl
  · intro h
    obtain ⟨s', e, h1⟩ := endsIn_ok (c := ecpMul 8 14 3 0 13 6 (exEcp fun _ => false)) (st := 0)
      (p := fun s' => decide ((s'.obj 3).hdr.map Hdr.used = some 0)) (by decide +kernel)
    obtain ⟨s2, e2, -, -, ⟨x, y, z, ⟨⟨m, m1, m2, a, m3, -⟩, -, -⟩, hx⟩, -⟩ := mem_ecp_mul_partial (sp := 14) (pr := 3) (p1 := 0) (kk := 13) (g := 6) (Or.inl rfl)
      (s := exEcp fun _ => false) (fun _ => rfl) (by decide) (by decide)
      (by decide) (by decide) (Or.inr (by decide)) (exEcp_ready _) (exEcp_grp _) (exEcp_p _) (exNum_is (n := 7) (by decide) (by decide)).shows
      (by rw [Verif.Ecp.toyPt_order]; decide)
    rw [e] at e2; cases e2
    rw [show ((7 : Nat) : Int).natAbs • Verif.Ecp.toyPt = exEcp2 from h.symm] at hx
    have hm : m.digs = [] := by
      have h1 := of_decide_eq_true h1
      rw [m3] at h1; simpa using h1
    have : x = 0 := by rw [← m2, Mpi.toInt, hm]; simp [val]
    subst this
    exact absurd hx.2.1 (by decide)
  · intro k hk
    show (0 + k == 3) = false
    rw [beq_eq_false_iff_ne]; omega

/-- The curve y² = x³ + 2x modulo 17, its point (0, 0) of order two at 0, (6, 3) at 3 as before. -/
def exOrd2 (f : Nat → Bool) : St :=
  { exEcp f with obj := fun v => if v ≤ 1 then ⟨some ⟨false, 0, 0⟩, .null⟩ else (exEcp f).obj v, live := 12 }

/-- The hypotheses of `mem_ecp_dbl_order_two` and `mem_ecp_add_order_two` are met. -/
example : EndsSame 14 (exOrd2 fun _ => false) (ecpDbl 8 14 3 0 6) (-1) ∧ EndsSame 14 (exOrd2 fun _ => false) (ecpAdd 8 14 3 0 0 6) (-1) := by
  have hn : (curve 17 2 0).Nonsingular 0 0 := by
    rw [nonsingular_iff, equation_iff]
    decide
  have h0 : (⟨some ⟨false, 0, 0⟩, .null⟩ : Obj).Shows 8 0 := ⟨⟨false, []⟩, wf0, by decide, 0, rfl, List.nil_prefix⟩
  have hP : PointAt 8 (exOrd2 fun _ => false) 0 (Point.some 0 0 hn : (curve 17 2 0).Point) :=
    ⟨0, 0, 1, ⟨h0, h0, (exNum_is (n := 1) (by decide) (by decide)).shows⟩, by decide, by decide, by decide⟩
  have hG : GroupAt 8 17 2 0 (exOrd2 fun _ => false) 6 :=
    ⟨(exNum_is (n := 17) (by decide) (by decide)).shows, Or.inl ⟨2, (exNum_is (n := 2) (by decide) (by decide)).shows, by decide⟩⟩
  have hR : ReadyAt 8 (exOrd2 fun _ => false) 3 := fun i hi => by
    show ∃ z, (if 3 + i ≤ 1 then _ else (exEcp fun _ => false).obj (3 + i)).Is 8 z
    rw [if_neg (by omega)]; exact exEcp_ready _ i hi
  have h2 : (Point.some 0 0 hn : (curve 17 2 0).Point) + Point.some 0 0 hn = 0 := by
    rw [Verif.Ecp.point_add_self_zero]; decide
  exact ⟨mem_ecp_dbl_order_two (Or.inl rfl) (fun _ => rfl) (by decide) (by decide) (by decide) (Or.inr (by decide)) hR hG hP (Point.some_ne_zero _) h2,
    mem_ecp_add_order_two (Or.inl rfl) (fun _ => rfl) (by decide) (by decide) (by decide) (by decide) (Or.inr (by decide)) (Or.inr (by decide)) hR hG hP hP
      (Point.some_ne_zero _) h2⟩

theorem coords_of_run {s' : St} {x y z : Nat} (hx : x ≠ 0 ∧ x < 2 ^ 8) (hy : y ≠ 0 ∧ y < 2 ^ 8) (hz : z ≠ 0 ∧ z < 2 ^ 8) {q : Nat}
    (h : decide ([q, q + 1, q + 2].map (fun v => (s'.obj v).hdr.map fun h => (h.neg, h.used)) = [some (false, 1), some (false, 1), some (false, 1)] ∧
      [q, q + 1, q + 2].map (fun v => (s'.obj v).cells.take 1) = [[some x], [some y], [some z]]) = true) : Coords 8 s' q x y z := by
  have key : ∀ {o : Obj} {n : Nat}, n ≠ 0 ∧ n < 2 ^ 8 → o.hdr.map (fun h => (h.neg, h.used)) = some (false, 1) → o.cells.take 1 = [some n] → o.Shows 8 n := by
    intro o n hn h1 h2
    obtain ⟨⟨a, b, c⟩, e, e2⟩ := Option.map_eq_some_iff.1 h1
    cases e2
    exact ⟨⟨false, [n]⟩, wf1 hn.1 hn.2, by simp [Mpi.toInt, val], c, e, by
      show [some n] <+: o.cells
      rw [← h2]; exact List.take_prefix _ _⟩
  have h := of_decide_eq_true h
  simp only [List.map_cons, List.map_nil, List.cons.injEq, and_true] at h
  obtain ⟨⟨a, b, c⟩, d, e, f⟩ := h
  exact ⟨key hx a d, key hy b e, key hz c f⟩

/-- C82, where it fails: if one allocation request inside the inversion fails, doubling (6, 3) reports success with (5, 14),
which is not even on the curve. -/
theorem mem_ecp_dbl_failure_lost :
    ∃ s', ecpDbl 8 14 0 3 6 (exEcp fun k => k == 32) = .ok (0, s') ∧ Coords 8 s' 0 5 14 1 ∧ ¬ (curve 17 2 2).Equation 5 14 := by
  obtain ⟨s', e, h⟩ := endsIn_ok (c := ecpDbl 8 14 0 3 6 (exEcp fun k => k == 32)) (st := 0)
    (p := fun s' => decide ([0, 0 + 1, 0 + 2].map (fun v => (s'.obj v).hdr.map fun h => (h.neg, h.used)) = [some (false, 1), some (false, 1), some (false, 1)] ∧
      [0, 0 + 1, 0 + 2].map (fun v => (s'.obj v).cells.take 1) = [[some 5], [some 14], [some 1]])) (by decide +kernel)
  refine ⟨s', e, coords_of_run (x := 5) (y := 14) (z := 1) (by decide) (by decide) (by decide) h, ?_⟩
  rw [equation_iff]
  decide

/-- (5, 1) at 0 and its opposite (5, 16) at 3, the group as before. -/
def exOpp (f : Nat → Bool) : St :=
  { exEcp f with obj := fun v => if v = 3 then exNum 5 else if v = 4 then exNum 16 else (exEcp f).obj v }

/-- C82, where it fails: the sum of opposite points, written over the first, is reported to be a success although no memory was to
be had for any coordinate of the result, which is the first point as before rather than infinity. -/
theorem mem_ecp_add_inverse_failure :
    (∃ s', ecpAdd 8 14 0 0 3 6 (exOpp fun _ => false) = .ok (0, s') ∧ decide ((s'.obj 2).hdr.map Hdr.used = some 0) = true) ∧
    ∃ s', ecpAdd 8 14 0 0 3 6 (exOpp fun k => 2 ≤ k) = .ok (0, s') ∧ Coords 8 s' 0 5 1 1 := by
  refine ⟨endsIn_ok (by decide +kernel), ?_⟩
  obtain ⟨s', e, h⟩ := endsIn_ok (c := ecpAdd 8 14 0 0 3 6 (exOpp fun k => 2 ≤ k)) (st := 0)
    (p := fun s' => decide ([0, 0 + 1, 0 + 2].map (fun v => (s'.obj v).hdr.map fun h => (h.neg, h.used)) = [some (false, 1), some (false, 1), some (false, 1)] ∧
      [0, 0 + 1, 0 + 2].map (fun v => (s'.obj v).cells.take 1) = [[some 5], [some 1], [some 1]])) (by decide +kernel)
  exact ⟨s', e, coords_of_run (x := 5) (y := 1) (z := 1) (by decide) (by decide) (by decide) h⟩

end Verif.Mem
