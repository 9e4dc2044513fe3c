import Verif.Lemmas.Mem.Contexts
import Verif.Props.Mem.Ecdsa
import Verif.Props.Ecp.Curves
/-!
# C88: contexts of ECDSA and ECDH, and the built-in groups, in memory
-/
namespace Verif.Mem
open Verif.Mpi
open WeierstrassCurve WeierstrassCurve.Affine
open Verif.Ecp (namedGroups Params)

variable {w sp d q z g : Nat} {s : St}

theorem balanced_of {E : Env} {s' : St} (h : At (ctxOf sp s) E sp s') : Balanced sp s s' := by
  have := h.bal
  have e : (ctxOf sp s).B = s.live - ∑ v ∈ Finset.range sp, (s.obj v).owns := rfl
  unfold Balanced
  rw [this, e]; ring

/-! ### Built-in groups -/

/-- C88: `cry_ecp_grp_load` of a number from 0 to 10 leaves the published domain parameters in the group, on which the theorems on
ECDSA and ECDH in memory apply; it allocates nothing and touches nothing else.  (Digits of 32 and 64 bits.) -/
theorem mem_grp_load (hw : w = 32 ∨ w = 64) (g : Nat) {id : Int} (h : 0 ≤ id ∧ id < 11) (s : St) :
    ∃ c s', namedGroups[id.toNat]? = some c ∧ ecpGrpLoadId w g id s = .ok (0, s') ∧ (∀ v, v < g ∨ g + 6 < v → s'.obj v = s.obj v) ∧
      s'.live = s.live ∧ s'.fails = s.fails ∧ s'.tick = s.tick ∧ (∀ i, i ≤ 6 → (s'.obj (g + i)).owns = 0) ∧
      ∃ (_ : Fact c.p.Prime) (hn : c.curve.Nonsingular c.gx c.gy),
        DomainAt w c.p (c.a : ZMod c.p) (c.b : ZMod c.p) s' g (Point.some (c.gx : ZMod c.p) c.gy hn) c.n ∧
        ∀ P : c.curve.Point, Odd (addOrderOf P) := by
  obtain ⟨h1, h2⟩ := Ecp.grpLoad_iff hw id
  obtain ⟨G, hG⟩ := h1.2 h
  obtain ⟨c, hc, hr⟩ := h2 G hG
  have hg := Ecp.good_named c (List.mem_of_getElem? hc)
  have hf : Fact c.p.Prime := ⟨hg.p_prime⟩
  obtain ⟨hn, ho⟩ := hg.order
  obtain ⟨s', e, hnum, hfr, hl, hfa, ht⟩ := ecpGrpLoad_run g G s
  have n0 := hnum 0 _ rfl; have n1 := hnum 1 _ rfl; have n2 := hnum 2 _ rfl; have n3 := hnum 3 _ rfl
  have n4 := hnum 4 _ rfl; have n5 := hnum 5 _ rfl; have n6 := hnum 6 _ rfl
  rw [Nat.add_zero] at n0
  have hbase : Coords w s' (g + 3) c.gx c.gy 1 :=
    ⟨by rw [n3]; exact constObj_shows hr.gx.wf hr.gx.toInt, by show (s'.obj (g + 4)).Shows w _; rw [n4]; exact constObj_shows hr.gy.wf hr.gy.toInt,
      by show (s'.obj (g + 5)).Shows w _; rw [n5]; exact constObj_shows hr.gz.wf hr.gz.toInt⟩
  refine ⟨c, s', hc, by unfold ecpGrpLoadId; rw [hG]; exact bind_ok e, hfr, hl, hfa, ht, fun i hi => ?_, hf, hn, ⟨⟨?_, ?_⟩, ⟨_, _, _, hbase, ?_⟩, ⟨_, _, _, hbase, ?_⟩, ?_, hg.n_prime, ?_, ho⟩, hg.odd⟩
  · have hi' : i < (grpNums G).length := by show i < 7; omega
    rw [hnum i _ (List.getElem?_eq_getElem hi')]; rfl
  · rw [n0]; exact constObj_shows hr.p.wf hr.p.toInt
  · rcases hr.a_wf with ha | ha
    · exact Or.inl ⟨c.a, by rw [n1]; exact constObj_shows ha hr.a, rfl⟩
    · have ha0 : c.a = 0 := by rw [← hr.a, ha]; simp [Mpi.toInt]
      refine Or.inr ⟨?_, by rw [ha0]; simp, hg.no_square (Ecp.named_three c (List.mem_of_getElem? hc)) ha0⟩
      rw [n1, ha]; exact constObj_reads _
  · exact ⟨by decide, by simp, by simp⟩
  · have := hg.num
    exact Or.inr ⟨by omega, by omega, by omega, by omega, rfl⟩
  · rw [n6]; exact constObj_shows hr.n.wf hr.n.toInt
  · have := hg.num; omega

/-- C88: other numbers are refused and nothing is changed. -/
theorem mem_grp_load_unknown (hw : w = 32 ∨ w = 64) (g : Nat) {id : Int} (h : ¬ (0 ≤ id ∧ id < 11)) (s : St) :
    ecpGrpLoadId w g id s = .ok (-1, s) := by
  have : Ecp.grpLoad w id = none := by
    cases e : Ecp.grpLoad w id with
    | none => rfl
    | some G => exact absurd ((Ecp.grpLoad_iff hw id).1.1 ⟨G, e⟩) h
  unfold ecpGrpLoadId; rw [this]; rfl

theorem sum_range7 {f f' : Nat → Int} (hg : g + 6 < sp) (h : ∀ v, v < sp → v < g ∨ g + 6 < v → f' v = f v) (h0 : ∀ i, i ≤ 6 → f' (g + i) = 0) :
    ∑ v ∈ Finset.range sp, f' v = ∑ v ∈ Finset.range sp, f v - ∑ i ∈ Finset.range 7, f (g + i) := by
  obtain ⟨m, rfl⟩ : ∃ m, sp = g + 7 + m := ⟨sp - (g + 7), by omega⟩
  rw [Finset.sum_range_add, Finset.sum_range_add, Finset.sum_range_add, Finset.sum_range_add]
  have e1 : ∑ v ∈ Finset.range g, f' v = ∑ v ∈ Finset.range g, f v := Finset.sum_congr rfl fun v hv => by
    rw [Finset.mem_range] at hv; exact h v (by omega) (Or.inl hv)
  have e2 : ∑ i ∈ Finset.range m, f' (g + 7 + i) = ∑ i ∈ Finset.range m, f (g + 7 + i) := Finset.sum_congr rfl fun v hv => by
    rw [Finset.mem_range] at hv; exact h _ (by omega) (Or.inr (by omega))
  have e3 : ∑ i ∈ Finset.range 7, f' (g + i) = 0 := Finset.sum_eq_zero fun i hi => by
    rw [Finset.mem_range] at hi; exact h0 i (by omega)
  rw [e1, e2, e3]; ring

/-- C88, where it fails: loading a group into an initialised one loses the blocks its seven numbers owned. -/
theorem mem_grp_load_leak (hw : w = 32 ∨ w = 64) (hg : g + 6 < sp) {id : Int} (h : 0 ≤ id ∧ id < 11) (s : St) :
    ∃ s', ecpGrpLoadId w g id s = .ok (0, s') ∧ s'.live - ∑ v ∈ Finset.range sp, (s'.obj v).owns =
      s.live - ∑ v ∈ Finset.range sp, (s.obj v).owns + ∑ i ∈ Finset.range 7, (s.obj (g + i)).owns := by
  obtain ⟨c, s', -, e, f, hl, -, -, h0, -⟩ := mem_grp_load hw g h s
  refine ⟨s', e, ?_⟩
  rw [sum_range7 (f := fun v => (s.obj v).owns) hg (fun v _ hv => by rw [f v hv]) h0, hl]; ring

/-! ### ECDSA -/

/-- The members of a context and the addresses of its three parts. -/
def CtxApart (sp d q g : Nat) : Prop :=
  d < sp ∧ q + 2 < sp ∧ g + 6 < sp ∧ (d < q ∨ q + 2 < d) ∧ (d < g ∨ g + 6 < d) ∧ (q + 2 < g ∨ g + 6 < q)

/-- The address belongs to none of the three parts. -/
def Outside (d q g v : Nat) : Prop := v ≠ d ∧ (v < q ∨ q + 2 < v) ∧ (v < g ∨ g + 6 < v)

/-- No member owns a block. -/
def CtxEmpty (s : St) (d q g : Nat) : Prop := (s.obj d).owns = 0 ∧ EmptyAt s q ∧ ∀ i, i ≤ 6 → (s.obj (g + i)).owns = 0

theorem gone_ends {s' : St} (ha : CtxApart sp d q g) (h : At (ctxOf sp s) (Gone (Now s) d q g) sp s') :
    (∀ v, v < sp → Outside d q g v → s'.obj v = s.obj v) ∧ Balanced sp s s' ∧ CtxEmpty s' d q g := by
  obtain ⟨a1, a2, a3, -⟩ := ha
  have get : ∀ v, v < sp → (v = d ∨ (q ≤ v ∧ v ≤ q + 2) ∨ (g ≤ v ∧ v ≤ g + 6)) → (s'.obj v).owns = 0 := fun v hv hc => by
    have := h.objs v hv; unfold Gone at this; rwa [if_pos hc] at this
  refine ⟨fun v hv ho => ?_, balanced_of h, get d a1 (Or.inl rfl), fun i hi => get _ (by omega) (Or.inr (Or.inl ⟨by omega, by omega⟩)),
    fun i hi => get _ (by omega) (Or.inr (Or.inr ⟨by omega, by omega⟩))⟩
  have := h.objs v hv
  unfold Gone at this
  obtain ⟨b1, b2, b3⟩ := ho
  rwa [if_neg (by omega)] at this

/-- C88: `cry_ecdsa_init` without a group: everything 0 and both points infinity, or failure is reported and nothing is owned; whichever
allocations fail. -/
theorem mem_ecdsa_init (hw : DigitWidth w) (ha : CtxApart sp d q g) (h0 : CtxEmpty s d q g) :
    ∃ st s', ecdsaInit w d q g (-1) s = .ok (st, s') ∧ (∀ v, v < sp → Outside d q g v → s'.obj v = s.obj v) ∧ Balanced sp s s' ∧
      ((st = 0 ∧ (s'.obj d).Is w 0 ∧ (Coords w s' q 1 1 0 ∧ ReadyAt w s' q) ∧ (∀ i ∈ [0, 1, 2, 6], (s'.obj (g + i)).Is w 0) ∧
          Coords w s' (g + 3) 1 1 0 ∧ ReadyAt w s' (g + 3)) ∨
        (st = -1 ∧ Failed s s' ∧ CtxEmpty s' d q g)) := by
  have ha' := ha
  obtain ⟨a1, a2, a3, a4, a5, a6⟩ := ha
  have o3 : ∀ v, g ≤ v → v ≤ g + 6 → ∀ o, Now s v o → o.owns = 0 := fun v h1 h2 o ho => by
    obtain ⟨i, rfl⟩ := Nat.exists_eq_add_of_le h1
    rw [show o = s.obj (g + i) from ho]; exact h0.2.2 i (by omega)
  obtain ⟨st, s', e, h⟩ := ecdsaInitWith_res (U := False) hw (at_now sp s) a1 a2 a4 a5 a6 (fun o ho => by rw [show o = s.obj d from ho]; exact h0.1)
    (fun v h1 h2 => h0.2.1.at h1 h2) o3
    (grp := ecpGrpInit w g) (fun s2 h2 => by
      obtain ⟨st, s3, e3, h3⟩ := ecpGrpInit_res hw h2 a3 (fun v h1 h2 o ho => by
        rw [But8.ne (by omega), Function.update_of_ne (by omega)] at ho; exact o3 v h1 h2 o ho)
      exact ⟨st, s3, e3, h3.imp id fun ⟨x, y, z⟩ => ⟨x, Or.inr y, z⟩⟩)
    (fun v hv => by unfold Sets; rw [if_neg (by rw [mem_grpList]; omega)])
    (fun v h1 h2 o ho => by unfold Sets at ho; rwa [if_pos (by rw [mem_grpList]; omega)] at ho)
  have e : ecdsaInit w d q g (-1) s = .ok (st, s') := by unfold ecdsaInit; rw [if_neg (by simp)]; exact e
  rcases h with ⟨rfl, h⟩ | ⟨rfl, hb, h⟩
  · refine ⟨0, s', e, fun v hv ho => ?_, balanced_of h, Or.inl ⟨rfl, ?_, ?_, ?_, ?_⟩⟩
    · obtain ⟨b1, b2, b3⟩ := ho
      have := h.objs v hv
      rwa [GrpNew.ne b3, But8.ne b2, Function.update_of_ne b1] at this
    · have := h.objs d a1
      rw [GrpNew.ne a5, But8.ne a4, Function.update_self] at this
      exact this.is
    · have hi := But8.inf (w := w) (E := Function.update (Now s) d (V w 0 8)) (q := q)
      have v0 := hi.x _ (by have := h.objs q (by omega); rwa [GrpNew.ne (by omega)] at this)
      have v1 := hi.y _ (by have := h.objs (q + 1) (by omega); rwa [GrpNew.ne (by omega)] at this)
      have v2 := hi.z _ (by have := h.objs (q + 2) (by omega); rwa [GrpNew.ne (by omega)] at this)
      refine ⟨⟨v0.shows, v1.shows, v2.shows⟩, fun i hi => ?_⟩
      obtain rfl | rfl | rfl : i = 0 ∨ i = 1 ∨ i = 2 := by omega
      exacts [⟨_, v0.is⟩, ⟨_, v1.is⟩, ⟨_, v2.is⟩]
    · intro i hi
      simp only [List.mem_cons, List.not_mem_nil, or_false] at hi
      have := h.objs (g + i) (by omega)
      unfold GrpNew at this
      rw [But8.ne (by omega)] at this
      unfold Sets at this
      rw [if_pos (by rw [mem_grpList]; omega)] at this
      exact this.is
    · exact coords_of (by omega) (h.le But8.le)
  · obtain ⟨g1, g2, g3⟩ := gone_ends ha' h
    exact ⟨-1, s', e, g1, g2, Or.inr ⟨rfl, hb.resolve_left fun h => h, g3⟩⟩

/-- C88: `cry_ecdsa_init` with the number of a built-in group: key 0, public key infinity and the published domain parameters, or failure
is reported and nothing is owned. -/
theorem mem_ecdsa_init_load (hw : w = 32 ∨ w = 64) (ha : CtxApart sp d q g) (h0 : CtxEmpty s d q g) {id : Int} (hid : 0 ≤ id ∧ id < 11) :
    ∃ st s', ecdsaInit w d q g id s = .ok (st, s') ∧ (∀ v, v < sp → Outside d q g v → s'.obj v = s.obj v) ∧ Balanced sp s s' ∧ s'.fails = s.fails ∧
      ((st = 0 ∧ (s'.obj d).Is w 0 ∧ (Coords w s' q 1 1 0 ∧ ReadyAt w s' q) ∧ ∃ c, namedGroups[id.toNat]? = some c ∧
          ∃ (_ : Fact c.p.Prime) (hn : c.curve.Nonsingular c.gx c.gy),
            DomainAt w c.p (c.a : ZMod c.p) (c.b : ZMod c.p) s' g (Point.some (c.gx : ZMod c.p) c.gy hn) c.n) ∨
        (st = -1 ∧ Failed s s' ∧ CtxEmpty s' d q g)) := by
  have hw' : DigitWidth w := by rcases hw with rfl | rfl <;> simp [DigitWidth]
  have ha' := ha
  obtain ⟨a1, a2, a3, a4, a5, a6⟩ := ha
  have o3 : ∀ v, g ≤ v → v ≤ g + 6 → ∀ o, Now s v o → o.owns = 0 := fun v h1 h2 o ho => by
    obtain ⟨i, rfl⟩ := Nat.exists_eq_add_of_le h1
    rw [show o = s.obj (g + i) from ho]; exact h0.2.2 i (by omega)
  obtain ⟨G, hG⟩ := (Ecp.grpLoad_iff hw id).1.2 hid
  let X : Env := But8 w (Function.update (Now s) d (V w 0 8)) q 1 1 0
  let Y : Env := fun v => if g ≤ v ∧ v ≤ g + 6 then (fun o => ∀ i m, v = g + i → (grpNums G)[i]? = some m → o = constObj m) else X v
  have hYo : ∀ v, g ≤ v → v ≤ g + 6 → ∀ o, Y v o → o.owns = 0 := fun v h1 h2 o ho => by
    have ho : (if g ≤ v ∧ v ≤ g + 6 then (fun o => ∀ i m, v = g + i → (grpNums G)[i]? = some m → o = constObj m) else X v) o := ho
    rw [if_pos ⟨h1, h2⟩] at ho
    obtain ⟨i, rfl⟩ := Nat.exists_eq_add_of_le h1
    have hi' : i < (grpNums G).length := by show i < 7; omega
    rw [ho i _ rfl (List.getElem?_eq_getElem hi')]; rfl
  have hYn : ∀ v, v < g ∨ g + 6 < v → Y v = X v := fun v hv => by
    show (if _ then _ else _) = _
    rw [if_neg (by omega)]
  have hload : ∀ s2, At (ctxOf sp s) X sp s2 → ∃ s3, ecpGrpLoadId w g id s2 = .ok (0, s3) ∧ At (ctxOf sp s) Y sp s3 := by
    intro s2 h2
    obtain ⟨s3, e3, n3, f3, l3, fa3, t3⟩ := ecpGrpLoad_run g G s2
    have hz : ∀ i, i ≤ 6 → (s3.obj (g + i)).owns = 0 := fun i hi => by
      have hi' : i < (grpNums G).length := by show i < 7; omega
      rw [n3 i _ (List.getElem?_eq_getElem hi')]; rfl
    refine ⟨s3, by unfold ecpGrpLoadId; rw [hG]; exact bind_ok e3, fun v hv => ?_, ?_, fa3.trans h2.orc, by rw [t3]; exact h2.tick⟩
    · show (if g ≤ v ∧ v ≤ g + 6 then (fun o => ∀ i m, v = g + i → (grpNums G)[i]? = some m → o = constObj m) else X v) _
      split_ifs with hc
      · rintro i m rfl hm; exact n3 i m hm
      · rw [f3 v (by omega)]; exact h2.objs v hv
    · rw [sum_range7 (f := fun v => (s2.obj v).owns) a3 (fun v _ hv => by rw [f3 v hv]) hz, l3, h2.bal]
      have : ∑ i ∈ Finset.range 7, (s2.obj (g + i)).owns = 0 := Finset.sum_eq_zero fun i hi => by
        rw [Finset.mem_range] at hi
        have := h2.objs (g + i) (by omega)
        have hx : X (g + i) = Now s (g + i) := by
          show But8 w _ q 1 1 0 (g + i) = _
          rw [But8.ne (by omega), Function.update_of_ne (by omega)]
        rw [hx] at this
        exact o3 _ (by omega) (by omega) _ this
      rw [this]; ring
  obtain ⟨st, s', e, h⟩ := ecdsaInitWith_res (U := False) (G := Y) (B := Y) hw' (at_now sp s) a1 a2 a4 a5 a6 (fun o ho => by rw [show o = s.obj d from ho]; exact h0.1)
    (fun v h1 h2 => h0.2.1.at h1 h2) o3
    (grp := ecpGrpLoadId w g id) (fun s2 h2 => by
      obtain ⟨s3, e3, h3⟩ := hload s2 h2
      exact ⟨0, s3, e3, Or.inl ⟨rfl, h3⟩⟩)
    hYn hYo
  have e : ecdsaInit w d q g id s = .ok (st, s') := by unfold ecdsaInit; rw [if_pos (by omega)]; exact e
  rcases h with ⟨rfl, h⟩ | ⟨rfl, hb, h⟩
  · refine ⟨0, s', e, fun v hv ho => ?_, balanced_of h, h.orc, Or.inl ⟨rfl, ?_, ?_, ?_⟩⟩
    · obtain ⟨b1, b2, b3⟩ := ho
      have := h.objs v hv
      rw [hYn v b3] at this
      rwa [show X v = Now s v from by show But8 w _ q 1 1 0 v = _; rw [But8.ne b2, Function.update_of_ne b1]] at this
    · have := h.objs d a1
      rw [hYn d a5, show X d = V w 0 8 from by show But8 w _ q 1 1 0 d = _; rw [But8.ne a4, Function.update_self]] at this
      exact this.is
    · have hi := But8.inf (w := w) (E := Function.update (Now s) d (V w 0 8)) (q := q)
      have v0 := hi.x _ (by have := h.objs q (by omega); rwa [hYn _ (by omega)] at this)
      have v1 := hi.y _ (by have := h.objs (q + 1) (by omega); rwa [hYn _ (by omega)] at this)
      have v2 := hi.z _ (by have := h.objs (q + 2) (by omega); rwa [hYn _ (by omega)] at this)
      refine ⟨⟨v0.shows, v1.shows, v2.shows⟩, fun i hi => ?_⟩
      obtain rfl | rfl | rfl : i = 0 ∨ i = 1 ∨ i = 2 := by omega
      exacts [⟨_, v0.is⟩, ⟨_, v1.is⟩, ⟨_, v2.is⟩]
    · -- the group is what loading it once more would give
      obtain ⟨c, s2, hc, e2, -, -, -, -, -, hf, hn, hD, -⟩ := mem_grp_load hw g hid s'
      obtain ⟨s3, e3, n3, -⟩ := ecpGrpLoad_run g G s'
      have e3' : ecpGrpLoadId w g id s' = .ok (0, s3) := by unfold ecpGrpLoadId; rw [hG]; exact bind_ok e3
      rw [e3'] at e2
      cases e2
      have same : ∀ i, i ≤ 6 → s'.obj (g + i) = s2.obj (g + i) := fun i hi => by
        have hi' : i < (grpNums G).length := by show i < 7; omega
        have hm := List.getElem?_eq_getElem hi'
        have := h.objs (g + i) (by omega)
        have this : (if g ≤ g + i ∧ g + i ≤ g + 6 then (fun o => ∀ j m, g + i = g + j → (grpNums G)[j]? = some m → o = constObj m) else X (g + i)) _ := this
        rw [if_pos (by omega)] at this
        rw [this i _ rfl hm, n3 i _ hm]
      refine ⟨c, hc, hf, hn, ?_⟩
      have s0 := same 0 (by omega); have s1 := same 1 (by omega); have s4 := same 3 (by omega)
      have s5 := same 4 (by omega); have s6 := same 5 (by omega); have s7 := same 6 (by omega)
      rw [Nat.add_zero] at s0
      have hcd : ∀ {x y z : Int}, Coords w s2 (g + 3) x y z → Coords w s' (g + 3) x y z := fun h =>
        ⟨by rw [s4]; exact h.1, by show (s'.obj (g + 4)).Shows w _; rw [s5]; exact h.2.1, by show (s'.obj (g + 5)).Shows w _; rw [s6]; exact h.2.2⟩
      obtain ⟨x, y, z, k1, k2⟩ := hD.base
      obtain ⟨x', y', z', k3, k4⟩ := hD.red
      exact ⟨⟨by rw [s0]; exact hD.grp.1, by rw [s1]; exact hD.grp.2⟩, ⟨x, y, z, hcd k1, k2⟩, ⟨x', y', z', hcd k3, k4⟩, by rw [s7]; exact hD.ord, hD.prime, hD.odd, hD.order⟩
  · obtain ⟨g1, g2, g3⟩ := gone_ends ha' h
    exact ⟨-1, s', e, g1, g2, h.orc, Or.inr ⟨rfl, hb.resolve_left fun h => h, g3⟩⟩

/-- C88: `cry_ecdsa_init` with any other number reports failure, and nothing is owned. -/
theorem mem_ecdsa_init_unknown (hw : w = 32 ∨ w = 64) (ha : CtxApart sp d q g) (h0 : CtxEmpty s d q g) {id : Int} (hid : ¬ (0 ≤ id ∧ id < 11)) (hid' : id ≠ -1) :
    ∃ s', ecdsaInit w d q g id s = .ok (-1, s') ∧ (∀ v, v < sp → Outside d q g v → s'.obj v = s.obj v) ∧ Balanced sp s s' ∧ CtxEmpty s' d q g := by
  have hw' : DigitWidth w := by rcases hw with rfl | rfl <;> simp [DigitWidth]
  have ha' := ha
  obtain ⟨a1, a2, a3, a4, a5, a6⟩ := ha
  have o3 : ∀ v, g ≤ v → v ≤ g + 6 → ∀ o, Now s v o → o.owns = 0 := fun v h1 h2 o ho => by
    obtain ⟨i, rfl⟩ := Nat.exists_eq_add_of_le h1
    rw [show o = s.obj (g + i) from ho]; exact h0.2.2 i (by omega)
  obtain ⟨st, s', e, h⟩ := ecdsaInitWith_res (U := True) (G := fun _ _ => False) hw' (at_now sp s) a1 a2 a4 a5 a6 (fun o ho => by rw [show o = s.obj d from ho]; exact h0.1)
    (fun v h1 h2 => h0.2.1.at h1 h2) o3
    (grp := ecpGrpLoadId w g id) (fun s2 h2 => ⟨-1, s2, mem_grp_load_unknown hw g hid s2, Or.inr ⟨rfl, Or.inl trivial, h2⟩⟩)
    (fun v hv => rfl) (fun v h1 h2 o ho => by
      rw [But8.ne (by omega), Function.update_of_ne (by omega)] at ho; exact o3 v h1 h2 o ho)
  have e : ecdsaInit w d q g id s = .ok (st, s') := by unfold ecdsaInit; rw [if_pos hid']; exact e
  rcases h with ⟨rfl, h⟩ | ⟨rfl, -, h⟩
  · exact (h.objs d a1).elim
  · obtain ⟨g1, g2, g3⟩ := gone_ends ha' h
    exact ⟨s', e, g1, g2, g3⟩

/-- A number that may be cleared: initialised, or a constant of a built-in group. -/
def Clearable (w : Nat) (o : Obj) : Prop := (∃ z, o.Is w z) ∨ ∃ m : Mpi, o = ⟨some ⟨m.neg, m.digs.length, 0⟩, .mem false (m.digs.map some)⟩

theorem clear_able {E : Env} {K : Ctx} {a : Nat} (h : At K E sp s) (ha : a < sp) (hc : Clearable w (s.obj a)) :
    ∃ s', clear a s = .ok ((), s') ∧ At K (Function.update E a (· = Obj.cleared)) sp s' ∧ ∀ v, v ≠ a → s'.obj v = s.obj v := by
  have hf : ∀ {s'}, clear a s = .ok ((), s') → ∀ v, v ≠ a → s'.obj v = s.obj v := fun {s'} e v hv => by
    rcases clear_cases a s with e' | ⟨-, s2, e', h2⟩
    · rw [e] at e'; cases e'
    · rw [e] at e'; cases e'; exact h2 v hv
  rcases hc with ⟨z, m, -, -, hm⟩ | ⟨m, hm⟩
  · obtain ⟨s', e, t, c⟩ := clear_run (sp := sp) (a := a) (Or.inr ⟨m, hm⟩)
    exact ⟨s', e, step_at h ha t c, hf e⟩
  · have e : clear a s = .ok ((), St.set s a Obj.cleared) := by
      unfold clear
      rw [bind_ok (show getObj a s = .ok (s.obj a, s) from rfl), hm]
      dsimp only
      rw [bind_ok (hdr_ok (show (s.obj a).hdr = some ⟨m.neg, m.digs.length, 0⟩ by rw [hm])), if_neg (by simp)]
      rfl
    refine ⟨_, e, step_at (P := (· = Obj.cleared)) h ha ⟨fun v _ hv => set_obj_ne _ _ hv, ?_, rfl, Nat.le_refl _⟩ (by simp [St.set]), hf e⟩
    rw [hm]; simp [St.set, Obj.owns, Obj.cleared]

theorem clearList_able {K : Ctx} : ∀ (as : List Nat) (E : Env) (s : St), At K E sp s → (∀ a ∈ as, a < sp ∧ Clearable w (s.obj a)) → as.Nodup →
    ∃ s', clearList as s = .ok ((), s') ∧ At K (Sets E as (· = Obj.cleared)) sp s' ∧ ∀ v, v ∉ as → s'.obj v = s.obj v
  | [], E, s, h, _, _ => ⟨s, rfl, h.le fun v _ o ho => by unfold Sets; rw [if_neg (by simp)]; exact ho, fun _ _ => rfl⟩
  | a :: as, E, s, h, hs, hn => by
    obtain ⟨s1, e1, h1, f1⟩ := clear_able h (hs a (by simp)).1 (hs a (by simp)).2
    have hn' := List.nodup_cons.1 hn
    obtain ⟨s2, e2, h2, f2⟩ := clearList_able as _ s1 h1 (fun b hb => ⟨(hs b (by simp [hb])).1, by
      rw [f1 b (by rintro rfl; exact hn'.1 hb)]; exact (hs b (by simp [hb])).2⟩) hn'.2
    refine ⟨s2, by unfold clearList; rw [bind_ok e1]; exact e2, h2.le fun v _ o ho => ?_, fun v hv => ?_⟩
    · unfold Sets at ho ⊢
      by_cases hva : v = a
      · subst hva
        rw [if_neg hn'.1, Function.update_self] at ho
        rw [if_pos (by simp)]; exact ho
      · rw [Function.update_of_ne hva] at ho
        by_cases hm : v ∈ as
        · rw [if_pos hm] at ho; rw [if_pos (by simp [hm])]; exact ho
        · rw [if_neg hm] at ho; rw [if_neg (by simp [hva, hm])]; exact ho
    · rw [List.mem_cons, not_or] at hv
      rw [f2 v hv.2, f1 v hv.1]

theorem clearList_append (as bs : List Nat) (s : St) : clearList (as ++ bs) s = (do clearList as; clearList bs : M Unit) s := by
  induction as generalizing s with
  | nil => rfl
  | cons a as ih =>
    show (do clear a; clearList (as ++ bs) : M Unit) s = (do (do clear a; clearList as : M Unit); clearList bs : M Unit) s
    simp only [bind_apply]
    cases clear a s with
    | ok p => obtain ⟨-, s1⟩ := p; simp only; rw [ih]; simp only [bind_apply]
    | ub => rfl
    | hang => rfl

/-- C88: `cry_ecdsa_clear` gives every block of the context back, whether the group was initialised or loaded. -/
theorem mem_ecdsa_clear (ha : CtxApart sp d q g) (hd : Clearable w (s.obj d)) (hq : ∀ i, i ≤ 2 → Clearable w (s.obj (q + i)))
    (hg : ∀ i, i ≤ 6 → Clearable w (s.obj (g + i))) :
    ∃ s', ecdsaClear d q g s = .ok ((), s') ∧ (∀ v, v < sp → Outside d q g v → s'.obj v = s.obj v) ∧ Balanced sp s s' ∧ CtxEmpty s' d q g := by
  have ha' := ha
  obtain ⟨a1, a2, a3, a4, a5, a6⟩ := ha
  have hm : ∀ v, v ∈ d :: ([q, q + 1, q + 2] ++ grpList g) ↔ v = d ∨ (q ≤ v ∧ v ≤ q + 2) ∨ (g ≤ v ∧ v ≤ g + 6) := by
    intro v; rw [List.mem_cons, List.mem_append, mem_grpList]; simp; omega
  obtain ⟨s', e, h, -⟩ := clearList_able (w := w) (d :: ([q, q + 1, q + 2] ++ grpList g)) (Now s) s (at_now sp s) (fun v hv => by
      rw [hm] at hv
      rcases hv with rfl | hv | hv
      · exact ⟨a1, hd⟩
      · obtain ⟨i, rfl⟩ := Nat.exists_eq_add_of_le hv.1
        exact ⟨by omega, hq i (by omega)⟩
      · obtain ⟨i, rfl⟩ := Nat.exists_eq_add_of_le hv.1
        exact ⟨by omega, hg i (by omega)⟩) (by unfold grpList; simp; omega)
  have e : ecdsaClear d q g s = .ok ((), s') := by
    rw [← e]
    show (do clear d; ecpClear q; ecpGrpClear g : M Unit) s = (do clear d; clearList ([q, q + 1, q + 2] ++ grpList g) : M Unit) s
    simp only [bind_apply]
    cases clear d s with
    | ok p => obtain ⟨-, s1⟩ := p; simp only; rw [clearList_append]; rfl
    | ub => rfl
    | hang => rfl
  obtain ⟨g1, g2, g3⟩ := gone_ends ha' (h.le fun v hv o ho => by
    unfold Sets at ho
    unfold Gone
    by_cases hc : v = d ∨ (q ≤ v ∧ v ≤ q + 2) ∨ (g ≤ v ∧ v ≤ g + 6)
    · rw [if_pos ((hm v).2 hc)] at ho
      rw [if_pos hc, ho]; rfl
    · rw [if_neg fun h => hc ((hm v).1 h)] at ho
      rw [if_neg hc]; exact ho)
  exact ⟨s', e, g1, g2, g3⟩

/-! ### ECDH -/

theorem res_step {K : Ctx} {E G B : Env} {c : M Int} {R : Nat → Prop} (h : At K E sp s) (hr : ∀ K, At K E sp s → WP c (Res K sp G B) s)
    (hG : ∀ v, ¬ R v → G v = E v) (hB : ∀ v, ¬ R v → B v = E v) :
    ∃ st s' E', c s = .ok (st, s') ∧ At K E' sp s' ∧ s.tick ≤ s'.tick ∧ (∀ v, ¬ R v → E' v = E v) ∧ (E' = G ∨ Bad K s') := by
  obtain ⟨st, s', e, ⟨rfl, h1⟩ | ⟨rfl, ⟨k, k1, k2, k3⟩, h1⟩⟩ := hr ⟨K.F, s.tick, K.B⟩ ⟨h.objs, h.bal, h.orc, Nat.le_refl _⟩
  · exact ⟨0, s', G, e, ⟨h1.objs, h1.bal, h1.orc, h.tick.trans h1.tick⟩, h1.tick, hG, Or.inl rfl⟩
  · exact ⟨-1, s', B, e, ⟨h1.objs, h1.bal, h1.orc, h.tick.trans h1.tick⟩, h1.tick, hB, Or.inr ⟨k, h.tick.trans k1, k2, k3⟩⟩

/-- The four parts of an ECDH context. -/
def EcdhApart (sp g d q z : Nat) : Prop := CtxApart sp d q g ∧ CtxApart sp d z g ∧ (q + 2 < z ∨ z + 2 < q)

/-- C88, partial.  Full statement: `cry_ecdh_init` reports whether it could initialise the context.  Proved: it ends, with status 0,
touches nothing else and loses no block, and either everything is initialised or an allocation failed.  Missing, because false: the
failure is not reported, and the context cannot be cleared then (`mem_ecdh_init_lost`). -/
theorem mem_ecdh_init_partial (hw : DigitWidth w) (ha : EcdhApart sp g d q z) (h0 : CtxEmpty s d q g) (hz : EmptyAt s z) :
    ∃ s', ecdhInit w g d q z s = .ok (0, s') ∧ (∀ v, v < sp → Outside d q g v → (v < z ∨ z + 2 < v) → s'.obj v = s.obj v) ∧ Balanced sp s s' ∧
      (((∀ i ∈ [0, 1, 2, 6], (s'.obj (g + i)).Is w 0) ∧ (Coords w s' (g + 3) 1 1 0 ∧ ReadyAt w s' (g + 3)) ∧ (s'.obj d).Is w 0 ∧
          (Coords w s' q 1 1 0 ∧ ReadyAt w s' q) ∧ Coords w s' z 1 1 0 ∧ ReadyAt w s' z) ∨ Failed s s') := by
  have hw0 : 0 < w := by have := hw.pos; omega
  obtain ⟨⟨a1, a2, a3, a4, a5, a6⟩, ⟨-, b2, -, b4, -, b6⟩, hqz⟩ := ha
  have og : ∀ v, g ≤ v → v ≤ g + 6 → ∀ o, Now s v o → o.owns = 0 := fun v h1 h2 o ho => by
    obtain ⟨i, rfl⟩ := Nat.exists_eq_add_of_le h1
    rw [show o = s.obj (g + i) from ho]; exact h0.2.2 i (by omega)
  obtain ⟨st1, s1, E1, e1, h1, t1, f1, r1⟩ := res_step (R := fun v => g ≤ v ∧ v ≤ g + 6) (at_now sp s) (fun K h => ecpGrpInit_res hw h a3 og)
    (fun v hv => GrpNew.ne (by omega)) (fun v hv => by unfold Sets; rw [if_neg (by rw [mem_grpList]; exact hv)])
  have od : ∀ o, E1 d o → o.owns = 0 := fun o ho => by
    rw [f1 d (by omega)] at ho; rw [show o = s.obj d from ho]; exact h0.1
  obtain ⟨st2, s2, E2, e2, h2, t2, f2, r2⟩ := res_step (R := fun v => v = d) h1 (fun K h => leaf_at h a1 (init_run (sp := sp) (a := d) hw0 (od _ (h.objs d a1))))
    (fun v hv => Function.update_of_ne hv _ _) (fun v hv => Function.update_of_ne hv _ _)
  have oq : ∀ v, q ≤ v → v ≤ q + 2 → ∀ o, E2 v o → o.owns = 0 := fun v k1 k2 o ho => by
    rw [f2 v (by omega), f1 v (by omega)] at ho; exact h0.2.1.at k1 k2 o ho
  obtain ⟨st3, s3, E3, e3, h3, t3, f3, r3⟩ := res_step (R := fun v => q ≤ v ∧ v ≤ q + 2) h2 (fun K h => ecpInit_res hw h a2 oq)
    (fun v hv => But8.ne (by omega)) (fun v hv => sets3_ne (by omega))
  have oz : ∀ v, z ≤ v → v ≤ z + 2 → ∀ o, E3 v o → o.owns = 0 := fun v k1 k2 o ho => by
    rw [f3 v (by omega), f2 v (by omega), f1 v (by omega)] at ho; exact hz.at k1 k2 o ho
  obtain ⟨st4, s4, E4, e4, h4, t4, f4, r4⟩ := res_step (R := fun v => z ≤ v ∧ v ≤ z + 2) h3 (fun K h => ecpInit_res hw h b2 oz)
    (fun v hv => But8.ne (by omega)) (fun v hv => sets3_ne (by omega))
  refine ⟨s4, ?_, fun v hv ho hz' => ?_, balanced_of h4, ?_⟩
  · unfold ecdhInit
    rw [ign_run e1, ign_run e2, ign_run e3, ign_run e4]; rfl
  · obtain ⟨o1, o2, o3⟩ := ho
    have := h4.objs v hv
    rwa [f4 v (by omega), f3 v (by omega), f2 v o1, f1 v (by omega)] at this
  · have up : ∀ {x y : St}, x.tick ≤ y.tick → Bad (ctxOf sp s) x → Bad (ctxOf sp s) y := fun ht ⟨k, k1, k2, k3⟩ => ⟨k, k1, lt_of_lt_of_le k2 ht, k3⟩
    rcases r1 with rfl | r1
    swap
    · exact Or.inr (up (t2.trans (t3.trans t4)) r1)
    rcases r2 with rfl | r2
    swap
    · exact Or.inr (up (t3.trans t4) r2)
    rcases r3 with rfl | r3
    swap
    · exact Or.inr (up t4 r3)
    rcases r4 with rfl | r4
    swap
    · exact Or.inr r4
    left
    have vg : ∀ v, g ≤ v → v ≤ g + 6 → GrpNew w (Now s) g v (s4.obj v) := fun v k1 k2 => by
      have := h4.objs v (by omega)
      rwa [f4 v (by omega), f3 v (by omega), f2 v (by omega)] at this
    refine ⟨fun i hi => ?_, ?_, ?_, ?_, coords_of b2 (h4.le But8.le)⟩
    · simp only [List.mem_cons, List.not_mem_nil, or_false] at hi
      have := vg (g + i) (by omega) (by omega)
      unfold GrpNew at this
      rw [But8.ne (by omega)] at this
      unfold Sets at this
      rw [if_pos (by rw [mem_grpList]; omega)] at this
      exact this.is
    · have hi := But8.inf (w := w) (E := Sets (Now s) (grpList g) (V w 0 8)) (q := g + 3)
      have v0 := hi.x _ (vg (g + 3) (by omega) (by omega))
      have v1 := hi.y _ (vg (g + 3 + 1) (by omega) (by omega))
      have v2 := hi.z _ (vg (g + 3 + 2) (by omega) (by omega))
      refine ⟨⟨v0.shows, v1.shows, v2.shows⟩, fun i hi => ?_⟩
      obtain rfl | rfl | rfl : i = 0 ∨ i = 1 ∨ i = 2 := by omega
      exacts [⟨_, v0.is⟩, ⟨_, v1.is⟩, ⟨_, v2.is⟩]
    · have := h4.objs d a1
      rw [f4 d (by omega), f3 d (by omega), Function.update_self] at this
      exact this.is
    · have vq : ∀ v, q ≤ v → v ≤ q + 2 → But8 w _ q 1 1 0 v (s4.obj v) := fun v k1 k2 => by
        have := h4.objs v (by omega)
        rwa [f4 v (by omega)] at this
      have hi := But8.inf (w := w) (E := Function.update (GrpNew w (Now s) g) d (V w 0 8)) (q := q)
      have v0 := hi.x _ (vq q (by omega) (by omega))
      have v1 := hi.y _ (vq (q + 1) (by omega) (by omega))
      have v2 := hi.z _ (vq (q + 2) (by omega) (by omega))
      refine ⟨⟨v0.shows, v1.shows, v2.shows⟩, fun i hi => ?_⟩
      obtain rfl | rfl | rfl : i = 0 ∨ i = 1 ∨ i = 2 := by omega
      exacts [⟨_, v0.is⟩, ⟨_, v1.is⟩, ⟨_, v2.is⟩]

/-- C88: when no allocation fails the context is initialised. -/
theorem mem_ecdh_init_plenty (hw : DigitWidth w) (hs : Plenty s) (ha : EcdhApart sp g d q z) (h0 : CtxEmpty s d q g) (hz : EmptyAt s z) :
    ∃ s', ecdhInit w g d q z s = .ok (0, s') ∧ (∀ i ∈ [0, 1, 2, 6], (s'.obj (g + i)).Is w 0) ∧ (Coords w s' (g + 3) 1 1 0 ∧ ReadyAt w s' (g + 3)) ∧
      (s'.obj d).Is w 0 ∧ (Coords w s' q 1 1 0 ∧ ReadyAt w s' q) ∧ Coords w s' z 1 1 0 ∧ ReadyAt w s' z := by
  obtain ⟨s', e, -, -, h | ⟨k, -, -, h⟩⟩ := mem_ecdh_init_partial hw ha h0 hz
  · exact ⟨s', e, h⟩
  · rw [hs k] at h; cases h

/-- C88, where it fails: when the first request fails, `cry_ecdh_init` on a fresh context reports success, and clearing the context is
undefined behaviour. -/
theorem mem_ecdh_init_lost (hw : DigitWidth w) (ha : EcdhApart sp g d q z) (h0 : CtxEmpty s d q g) (hz : EmptyAt s z)
    (hfresh : (s.obj (g + 1)).data = .indet) (hf : s.fails s.tick = true) :
    ∃ s', ecdhInit w g d q z s = .ok (0, s') ∧ ecdhClear g d q z s' = .ub := by
  have hw0 : 0 < w := by have := hw.pos; omega
  obtain ⟨⟨a1, a2, a3, a4, a5, a6⟩, ⟨-, b2, -, b4, -, b6⟩, hqz⟩ := ha
  have hr : request 1 s = .ok (false, { s with tick := s.tick + 1 }) := if_pos hf
  let s1 : St := St.set { s with tick := s.tick + 1 } g { s.obj g with data := .null }
  have e0 : init g s = .ok (-1, s1) := by
    unfold init
    rw [bind_ok hr]; rfl
  have e1 : initList (grpList g) s = .ok (-1, s1) := by
    unfold initList grpList initListLoop
    rw [bind_ok e0]; rfl
  have e1 : ecpGrpInit w g s = .ok (-1, s1) := by unfold ecpGrpInit; exact chk_fail e1 (by decide)
  have n1 : ∀ v, v ≠ g → s1.obj v = s.obj v := fun v hv => by
    show (if v = g then _ else s.obj v) = _
    rw [if_neg hv]
  obtain ⟨st2, s2, E2, e2, h2, t2, f2, r2⟩ := res_step (R := fun v => v = d) (at_now sp s1)
    (fun K h => leaf_at h a1 (init_run (sp := sp) (a := d) hw0 (by rw [n1 d (by omega)]; exact h0.1)))
    (fun v hv => Function.update_of_ne hv _ _) (fun v hv => Function.update_of_ne hv _ _)
  have oq : ∀ v, q ≤ v → v ≤ q + 2 → ∀ o, E2 v o → o.owns = 0 := fun v k1 k2 o ho => by
    rw [f2 v (by omega)] at ho
    rw [show o = s1.obj v from ho, n1 v (by omega)]
    exact h0.2.1.at k1 k2 _ rfl
  obtain ⟨st3, s3, E3, e3, h3, t3, f3, r3⟩ := res_step (R := fun v => q ≤ v ∧ v ≤ q + 2) h2 (fun K h => ecpInit_res hw h a2 oq)
    (fun v hv => But8.ne (by omega)) (fun v hv => sets3_ne (by omega))
  have oz : ∀ v, z ≤ v → v ≤ z + 2 → ∀ o, E3 v o → o.owns = 0 := fun v k1 k2 o ho => by
    rw [f3 v (by omega), f2 v (by omega)] at ho
    rw [show o = s1.obj v from ho, n1 v (by omega)]
    exact hz.at k1 k2 _ rfl
  obtain ⟨st4, s4, E4, e4, h4, t4, f4, r4⟩ := res_step (R := fun v => z ≤ v ∧ v ≤ z + 2) h3 (fun K h => ecpInit_res hw h b2 oz)
    (fun v hv => But8.ne (by omega)) (fun v hv => sets3_ne (by omega))
  refine ⟨s4, ?_, ?_⟩
  · unfold ecdhInit
    rw [ign_run e1, ign_run e2, ign_run e3, ign_run e4]; rfl
  · have hi : (s4.obj (g + 1)).data = .indet := by
      have := h4.objs (g + 1) (by omega)
      rw [f4 _ (by omega), f3 _ (by omega), f2 _ (by omega)] at this
      rw [show s4.obj (g + 1) = s1.obj (g + 1) from this, n1 _ (by omega)]; exact hfresh
    have : ecpGrpClear g s4 = .ub := clearList_ub (v := g + 1) _ _ (by simp) hi
    unfold ecdhClear
    rw [bind_apply, this]

/-- C88: `cry_ecdh_clear` gives every block of the context back. -/
theorem mem_ecdh_clear (ha : EcdhApart sp g d q z) (hd : Clearable w (s.obj d)) (hq : ∀ i, i ≤ 2 → Clearable w (s.obj (q + i)))
    (hz : ∀ i, i ≤ 2 → Clearable w (s.obj (z + i))) (hg : ∀ i, i ≤ 6 → Clearable w (s.obj (g + i))) :
    ∃ s', ecdhClear g d q z s = .ok ((), s') ∧ (∀ v, v < sp → Outside d q g v → (v < z ∨ z + 2 < v) → s'.obj v = s.obj v) ∧ Balanced sp s s' ∧
      CtxEmpty s' d q g ∧ EmptyAt s' z := by
  obtain ⟨⟨a1, a2, a3, a4, a5, a6⟩, ⟨-, b2, -, b4, -, b6⟩, hqz⟩ := ha
  have hm : ∀ v, v ∈ grpList g ++ d :: ([q, q + 1, q + 2] ++ [z, z + 1, z + 2]) ↔
      v = d ∨ (q ≤ v ∧ v ≤ q + 2) ∨ (g ≤ v ∧ v ≤ g + 6) ∨ (z ≤ v ∧ v ≤ z + 2) := by
    intro v; rw [List.mem_append, mem_grpList]; simp; omega
  obtain ⟨s', e, h, -⟩ := clearList_able (w := w) (grpList g ++ d :: ([q, q + 1, q + 2] ++ [z, z + 1, z + 2])) (Now s) s (at_now sp s) (fun v hv => by
      rw [hm] at hv
      rcases hv with rfl | hv | hv | hv
      · exact ⟨a1, hd⟩
      · obtain ⟨i, rfl⟩ := Nat.exists_eq_add_of_le hv.1
        exact ⟨by omega, hq i (by omega)⟩
      · obtain ⟨i, rfl⟩ := Nat.exists_eq_add_of_le hv.1
        exact ⟨by omega, hg i (by omega)⟩
      · obtain ⟨i, rfl⟩ := Nat.exists_eq_add_of_le hv.1
        exact ⟨by omega, hz i (by omega)⟩) (by unfold grpList; simp; omega)
  have e : ecdhClear g d q z s = .ok ((), s') := by
    rw [← e, clearList_append]
    show (do ecpGrpClear g; clear d; ecpClear q; ecpClear z : M Unit) s =
      (do clearList (grpList g); clear d; clearList ([q, q + 1, q + 2] ++ [z, z + 1, z + 2]) : M Unit) s
    simp only [bind_apply]
    rw [show ecpGrpClear g s = clearList (grpList g) s from rfl]
    cases clearList (grpList g) s with
    | ok p =>
      obtain ⟨-, s1⟩ := p
      simp only
      cases clear d s1 with
      | ok p => obtain ⟨-, s2⟩ := p; simp only; rw [clearList_append]; rfl
      | ub => rfl
      | hang => rfl
    | ub => rfl
    | hang => rfl
  have get : ∀ v, v < sp → (v = d ∨ (q ≤ v ∧ v ≤ q + 2) ∨ (g ≤ v ∧ v ≤ g + 6) ∨ (z ≤ v ∧ v ≤ z + 2)) → (s'.obj v).owns = 0 := fun v hv hc => by
    have := h.objs v hv
    unfold Sets at this
    rw [if_pos ((hm v).2 hc)] at this
    rw [this]; rfl
  refine ⟨s', e, fun v hv ho hz' => ?_, balanced_of h, ⟨get d a1 (Or.inl rfl), fun i hi => get _ (by omega) (by omega), fun i hi => get _ (by omega) (by omega)⟩,
    fun i hi => get _ (by omega) (by omega)⟩
  obtain ⟨o1, o2, o3⟩ := ho
  have := h.objs v hv
  unfold Sets at this
  rwa [if_neg fun hc => by have := (hm v).1 hc; omega] at this

/-! ### Concrete cases -/

/-- No object was ever written. -/
def exFresh (f : Nat → Bool) : St := ⟨fun _ => Obj.fresh, f, 0, 0⟩

theorem exFresh_empty (f : Nat → Bool) (d q g : Nat) : CtxEmpty (exFresh f) d q g := ⟨rfl, fun _ _ => rfl, fun _ _ => rfl⟩

/-- The context of ECDSA with the curve secp256r1: group at 0, private key at 7, public key at 8. -/
example (f : Nat → Bool) : ∃ st s', ecdsaInit 64 7 8 0 2 (exFresh f) = .ok (st, s') ∧
    ((st = 0 ∧ ∃ (_ : Fact Ecp.secp256r1P.p.Prime) (hn : Ecp.secp256r1P.curve.Nonsingular Ecp.secp256r1P.gx Ecp.secp256r1P.gy),
      DomainAt 64 Ecp.secp256r1P.p (Ecp.secp256r1P.a : ZMod Ecp.secp256r1P.p) (Ecp.secp256r1P.b : ZMod Ecp.secp256r1P.p) s' 0
        (Point.some (Ecp.secp256r1P.gx : ZMod Ecp.secp256r1P.p) Ecp.secp256r1P.gy hn) Ecp.secp256r1P.n) ∨ (st = -1 ∧ Failed (exFresh f) s')) := by
  obtain ⟨st, s', e, -, -, -, ⟨h, -, -, c, hc, hf, hn, hD⟩ | ⟨h, h', -⟩⟩ := mem_ecdsa_init_load (w := 64) (sp := 11) (d := 7) (q := 8) (g := 0) (id := 2) (Or.inr rfl)
    ⟨by decide, by decide, by decide, by decide, by decide, by decide⟩ (exFresh_empty f 7 8 0) (by decide)
  · have : c = Ecp.secp256r1P := by
      have h2 : namedGroups[(2 : Int).toNat]? = some Ecp.secp256r1P := rfl
      rw [h2] at hc; exact (Option.some.inj hc).symm
    subst this
    exact ⟨st, s', e, Or.inl ⟨h, hf, hn, hD⟩⟩
  · exact ⟨st, s', e, Or.inr ⟨h, h'⟩⟩

/-- Without a group; and an unknown number. -/
example (f : Nat → Bool) : (∃ st s', ecdsaInit 8 7 8 0 (-1) (exFresh f) = .ok (st, s') ∧ Balanced 11 (exFresh f) s') ∧
    ∃ s', ecdsaInit 64 7 8 0 11 (exFresh f) = .ok (-1, s') ∧ CtxEmpty s' 7 8 0 := by
  have ha : CtxApart 11 7 8 0 := ⟨by decide, by decide, by decide, by decide, by decide, by decide⟩
  obtain ⟨st, s', e, -, b, -⟩ := mem_ecdsa_init (w := 8) (Or.inl rfl) ha (exFresh_empty f 7 8 0)
  obtain ⟨s2, e2, -, -, b2⟩ := mem_ecdsa_init_unknown (id := 11) (Or.inr rfl) ha (exFresh_empty f 7 8 0) (by decide) (by decide)
  exact ⟨⟨st, s', e, b⟩, s2, e2, b2⟩

/-- When the first request fails and when none does. -/
example : (∃ s', ecdhInit 8 0 7 8 11 (exFresh fun k => k == 0) = .ok (0, s') ∧ ecdhClear 0 7 8 11 s' = .ub) ∧
    ∃ s', ecdhInit 8 0 7 8 11 (exFresh fun _ => false) = .ok (0, s') ∧ ∃ s'', ecdhClear 0 7 8 11 s' = .ok ((), s'') ∧ EmptyAt s'' 11 := by
  have ha : EcdhApart 14 0 7 8 11 := ⟨⟨by decide, by decide, by decide, by decide, by decide, by decide⟩, ⟨by decide, by decide, by decide, by decide, by decide, by decide⟩, by decide⟩
  refine ⟨mem_ecdh_init_lost (Or.inl rfl) ha (exFresh_empty _ _ _ _) (fun _ _ => rfl) rfl rfl, ?_⟩
  obtain ⟨s', e, h1, h2, h3, h4, h5⟩ := mem_ecdh_init_plenty (w := 8) (s := exFresh fun _ => false) (Or.inl rfl) (fun _ => rfl) ha (exFresh_empty _ _ _ _) (fun _ _ => rfl)
  obtain ⟨s2, e2, -, -, -, h6⟩ := mem_ecdh_clear (w := 8) (s := s') ha (Or.inl ⟨_, h3⟩) (fun i hi => Or.inl (h4.2 i hi)) (fun i hi => Or.inl (h5.2 i hi)) (fun i hi => by
    obtain rfl | rfl | rfl | h | rfl : i = 0 ∨ i = 1 ∨ i = 2 ∨ (3 ≤ i ∧ i ≤ 5) ∨ i = 6 := by omega
    · exact Or.inl ⟨_, h1 0 (by simp)⟩
    · exact Or.inl ⟨_, h1 1 (by simp)⟩
    · exact Or.inl ⟨_, h1 2 (by simp)⟩
    · obtain ⟨j, rfl⟩ := Nat.exists_eq_add_of_le h.1
      have := h2.2 j (by omega)
      rw [← Nat.add_assoc]; exact Or.inl this
    · exact Or.inl ⟨_, h1 6 (by simp)⟩)
  exact ⟨s', e, s2, e2, h6⟩

/-- Loading a curve over an initialised group: seven blocks are lost. -/
theorem mem_ecdh_load_leak : ∃ s' s'', ecdhInit 64 0 7 8 11 (exFresh fun _ => false) = .ok (0, s') ∧ ecpGrpLoadId 64 0 2 s' = .ok (0, s'') ∧
    s''.live - ∑ v ∈ Finset.range 14, (s''.obj v).owns = 7 := by
  obtain ⟨s', e, h⟩ : ∃ s', ecdhInit 64 0 7 8 11 (exFresh fun _ => false) = .ok (0, s') ∧
      decide (s'.live = 14 ∧ ∑ v ∈ Finset.range 14, (s'.obj v).owns = 14 ∧ ∑ i ∈ Finset.range 7, (s'.obj (0 + i)).owns = 7) = true :=
    endsIn_ok (by decide +kernel)
  obtain ⟨h1, h2, h3⟩ := of_decide_eq_true h
  obtain ⟨s'', e', hl⟩ := mem_grp_load_leak (w := 64) (g := 0) (sp := 14) (id := 2) (Or.inr rfl) (by decide) (by decide) s'
  exact ⟨s', s'', e, e', by rw [hl, h1, h2, h3]; rfl⟩

end Verif.Mem
