import Verif.Lemmas.Ecp.Field
import Verif.Lemmas.Ecp.Curve
import Verif.Model.Ecp.Ecp
/-! `cry_ecp_dbl` and `cry_ecp_add` against the group of the curve. -/
namespace Verif.Ecp
open Verif.Mpi WeierstrassCurve WeierstrassCurve.Affine

/-- The object `q` denotes a point of the curve: infinity when its `z` is zero, else the point with these coordinates. -/
def PtRep (w : Nat) {p : Nat} {a b : ZMod p} (q : Pt) : (curve p a b).Point → Prop
  | .zero => q.z.digs = []
  | .some X Y _ => q.z.digs ≠ [] ∧ ZRep w p q.x X ∧ ZRep w p q.y Y

/-- The object is in standard form: `(1, 1, 0)`, or coordinates between 0 and `p - 1` and `z = 1`. -/
def PtRed (w p : Nat) (q : Pt) : Prop :=
  (NatRep w q.x 1 ∧ NatRep w q.y 1 ∧ NatRep w q.z 0) ∨
  (∃ m n, NatRep w q.x m ∧ m < p ∧ NatRep w q.y n ∧ n < p ∧ NatRep w q.z 1)

/-- The group object carries the modulus and the coefficient `a`; `b` is not used by the code. -/
structure GrpRep (w p : Nat) (a : ZMod p) (g : Grp) : Prop where
  modulus : NatRep w g.p p
  coef : CoefRep w p g.a a

/-- One step of a computation that may fail. -/
theorem bindS {α β : Type} {x : Option α} {v : α} {f : α → Option β} {r : Option β} (h : x = some v) (h' : f v = r) :
    (x >>= f) = r := by
  subst h; exact h'

variable {w p : Nat} {a b : ZMod p} [Fact p.Prime] {g : Grp}

theorem ptRep_isZero {q : Pt} {P : (curve p a b).Point} (h : PtRep w q P) : isZeroPt q = true ↔ P = 0 := by
  unfold isZeroPt isZero
  cases P with
  | zero => simp only [PtRep] at h; simp [h, Point.zero_def]
  | some X Y hP => simp only [PtRep] at h; simp [h.1, Point.some_ne_zero]

theorem setZero_spec (hw : DigitWidth w) :
    ∃ r, setZero w = some r ∧ PtRep w r (0 : (curve p a b).Point) ∧ PtRed w p r := by
  obtain ⟨x, h1, -, h2⟩ := zrep_setInt hw p 1 (by norm_num)
  obtain ⟨z, h3, -, h4⟩ := zrep_setInt hw p 0 (by norm_num)
  refine ⟨⟨x, x, z⟩, ?_, ?_, ?_⟩
  · simp only [Nat.cast_one, Nat.cast_zero] at h1 h3
    simp [setZero, h1, h3]
  · exact h4.digs_nil_iff.2 rfl
  · exact Or.inl ⟨h2, h2, h4⟩

/-- The common end of both functions: from the slope to the third point. -/
theorem third_spec (hw : DigitWidth w) (hg : GrpRep w p a g) {lam px py qx : Mpi} {l x1 y1 x2 : ZMod p}
    (hl : ZRep w p lam l) (h1 : ZRep w p px x1) (h2 : ZRep w p py y1) (h3 : ZRep w p qx x2) :
    ∃ r, (do
      let x ← sqr w false lam
      let x ← mod w .none x g.p
      let x ← sub (2 ^ w) x px
      let x ← sub (2 ^ w) x qx
      let x ← mod w .none x g.p
      let y ← sub (2 ^ w) px x
      let y ← mul w false y lam
      let y ← mod w .none y g.p
      let y ← sub (2 ^ w) y py
      let y ← mod w .none y g.p
      let z ← setInt w 1
      some (⟨x, y, z⟩ : Pt)) = some r ∧ ZRed w p r.x (l * l - x1 - x2) ∧
      ZRed w p r.y ((x1 - (l * l - x1 - x2)) * l - y1) ∧ NatRep w r.z 1 := by
  have hp0 : 0 < p := (Fact.out : p.Prime).pos
  obtain ⟨a1, e1, r1⟩ := hl.sqr hw
  obtain ⟨a2, e2, r2⟩ := r1.mod hw hg.modulus hp0
  obtain ⟨a3, e3, r3⟩ := r2.toZRep.sub hw h1
  obtain ⟨a4, e4, r4⟩ := r3.sub hw h3
  obtain ⟨a5, e5, r5⟩ := r4.mod hw hg.modulus hp0
  obtain ⟨a6, e6, r6⟩ := h1.sub hw r5.toZRep
  obtain ⟨a7, e7, r7⟩ := r6.mul hw false hl
  obtain ⟨a8, e8, r8⟩ := r7.mod hw hg.modulus hp0
  obtain ⟨a9, e9, r9⟩ := r8.toZRep.sub hw h2
  obtain ⟨a10, e10, r10⟩ := r9.mod hw hg.modulus hp0
  obtain ⟨z, ez, -, rz⟩ := zrep_setInt hw p 1 (by norm_num)
  rw [Nat.cast_one] at ez
  refine ⟨⟨a5, a10, z⟩, ?_, r5, r10, rz⟩
  exact bindS e1 (bindS e2 (bindS e3 (bindS e4 (bindS e5 (bindS e6 (bindS e7 (bindS e8 (bindS e9 (bindS e10 (bindS ez (rfl)))))))))))

theorem ptRed_of {q : Pt} {u v : ZMod p} (h1 : ZRed w p q.x u) (h2 : ZRed w p q.y v) (h3 : NatRep w q.z 1) : PtRed w p q := by
  obtain ⟨m, m1, m2, -⟩ := h1.rep
  obtain ⟨n, n1, n2, -⟩ := h2.rep
  exact Or.inr ⟨m, n, m1, m2, n1, n2, h3⟩

/-- The tangent formulas of `cry_ecp_dbl`. -/
theorem dbl_field (hw : DigitWidth w) (hg : GrpRep w p a g) {q : Pt} {X Y : ZMod p} (hz : isZeroPt q = false)
    (hX : ZRep w p q.x X) (hY : ZRep w p q.y Y) :
    (2 * Y ≠ 0 → ∃ r l x3, dbl w q g = some r ∧ l = (3 * X * X + a) * (2 * Y)⁻¹ ∧ x3 = l * l - X - X ∧
      ZRed w p r.x x3 ∧ ZRed w p r.y ((X - x3) * l - Y) ∧ NatRep w r.z 1) ∧
    (2 * Y = 0 → dbl w q g = none) := by
  have hp0 : 0 < p := (Fact.out : p.Prime).pos
  obtain ⟨c3, e3, r3, -⟩ := zrep_setInt hw p 3 (by norm_num)
  rw [Nat.cast_ofNat] at r3 e3
  obtain ⟨n1, f1, s1⟩ := r3.mul hw false hX
  obtain ⟨n2, f2, s2⟩ := s1.mul hw false hX
  obtain ⟨n3, f3, s3⟩ := s2.mod hw hg.modulus hp0
  obtain ⟨n4, n5, f4, f5, s5⟩ := coef_add_mod hw s3 hg.coef hg.modulus hp0
  obtain ⟨c2, e2, r2, -⟩ := zrep_setInt hw p 2 (by norm_num)
  rw [Nat.cast_ofNat] at r2 e2
  obtain ⟨d1, g1, t1⟩ := r2.mul hw false hY
  obtain ⟨i1, i2⟩ := t1.inv hw hg.modulus
  constructor
  · intro hy
    obtain ⟨d2, g2, t2⟩ := i1 hy
    obtain ⟨d3, g3, t3⟩ := t2.toZRep.mod hw hg.modulus hp0
    obtain ⟨l, gl, tl⟩ := coef_mul hw s5 t3.toZRep
    obtain ⟨d4, g4, -⟩ := t3.toZRep.mod hw hg.modulus hp0
    obtain ⟨r, er, x1, x2, x3⟩ := third_spec hw hg tl hX hY hX
    refine ⟨r, _, _, ?_, rfl, rfl, x1, x2, x3⟩
    rw [dbl, hz]
    exact bindS e3 (bindS f1 (bindS f2 (bindS f3 (bindS f4 (bindS f5 (bindS e2 (bindS
      g1 (bindS g2 (bindS g3 (bindS gl (bindS g4 (er))))))))))))
  · intro hy
    rw [dbl, hz]
    exact bindS e3 (bindS f1 (bindS f2 (bindS f3 (bindS f4 (bindS f5 (bindS e2 (bindS g1 (by rw [i2 hy]; rfl))))))))

/-- The chord formulas of `cry_ecp_add`. -/
theorem add_field (hw : DigitWidth w) (hg : GrpRep w p a g) {q1 q2 : Pt} {X1 Y1 X2 Y2 : ZMod p} (hz1 : isZeroPt q1 = false)
    (hz2 : isZeroPt q2 = false) (hX1 : ZRep w p q1.x X1) (hY1 : ZRep w p q1.y Y1) (hX2 : ZRep w p q2.x X2)
    (hY2 : ZRep w p q2.y Y2) :
    (X2 - X1 = 0 → Y2 - Y1 = 0 → add w q1 q2 g = dbl w q1 g) ∧
    (X2 - X1 = 0 → Y2 - Y1 ≠ 0 → add w q1 q2 g = setZero w) ∧
    (X2 - X1 ≠ 0 → ∃ r l x3, add w q1 q2 g = some r ∧ l = (Y2 - Y1) * (X2 - X1)⁻¹ ∧ x3 = l * l - X1 - X2 ∧
      ZRed w p r.x x3 ∧ ZRed w p r.y ((X1 - x3) * l - Y1) ∧ NatRep w r.z 1) := by
  have hp0 : 0 < p := (Fact.out : p.Prime).pos
  obtain ⟨a1, e1, r1⟩ := hY2.sub hw hY1
  obtain ⟨a2, e2, r2⟩ := r1.mod hw hg.modulus hp0
  obtain ⟨a3, e3, r3⟩ := hX2.sub hw hX1
  obtain ⟨a4, e4, r4⟩ := r3.mod hw hg.modulus hp0
  refine ⟨fun hx hy => ?_, fun hx hy => ?_, fun hx => ?_⟩
  · rw [add, hz1, hz2]
    refine bindS e1 (bindS e2 (bindS e3 (bindS e4 (?_))))
    rw [if_pos (r4.isZero_iff.2 hx), if_pos (r2.isZero_iff.2 hy)]
  · rw [add, hz1, hz2]
    refine bindS e1 (bindS e2 (bindS e3 (bindS e4 (?_))))
    rw [if_pos (r4.isZero_iff.2 hx), if_neg (by rw [r2.isZero_iff]; exact hy)]
  · obtain ⟨a5, e5, r5⟩ := (r4.toZRep.inv hw hg.modulus).1 hx
    obtain ⟨a6, e6, r6⟩ := r2.toZRep.mul hw false r5.toZRep
    obtain ⟨a7, e7, r7⟩ := r6.mod hw hg.modulus hp0
    obtain ⟨r, er, x1, x2, x3⟩ := third_spec hw hg r7.toZRep hX1 hY1 hX2
    refine ⟨r, _, _, ?_, rfl, rfl, x1, x2, x3⟩
    rw [add, hz1, hz2]
    refine bindS e1 (bindS e2 (bindS e3 (bindS e4 (?_))))
    rw [if_neg (by rw [r4.isZero_iff]; exact hx)]
    exact bindS e5 (bindS e6 (bindS e7 (er)))

theorem ptRep_some {q : Pt} {X Y : ZMod p} (h : (curve p a b).Nonsingular X Y) (h1 : ZRed w p q.x X) (h2 : ZRed w p q.y Y)
    (h3 : NatRep w q.z 1) : PtRep w q (Point.some X Y h) :=
  ⟨fun e => by rw [h3.digs_nil_iff] at e; omega, h1.toZRep, h2.toZRep⟩

/-- Doubling: correct unless the point has order two, and then an error. -/
theorem dbl_spec (hw : DigitWidth w) (hg : GrpRep w p a g) {q : Pt} {P : (curve p a b).Point} (h : PtRep w q P) :
    ((P = 0 ∨ P + P ≠ 0) → ∃ r, dbl w q g = some r ∧ PtRep w r (P + P) ∧ (P = 0 ∧ r = q ∨ PtRed w p r)) ∧
    ((P ≠ 0 ∧ P + P = 0) → dbl w q g = none) := by
  have hp0 : 0 < p := (Fact.out : p.Prime).pos
  have hz := ptRep_isZero h
  cases P with
  | zero =>
    have e0 : (Point.zero : (curve p a b).Point) = 0 := rfl
    rw [e0] at h hz ⊢
    refine ⟨fun _ => ⟨q, ?_, by rwa [add_zero], Or.inl ⟨rfl, rfl⟩⟩, fun h => absurd rfl h.1⟩
    rw [dbl, if_pos (hz.2 rfl)]
  | some X Y hP =>
    have hne := Point.some_ne_zero hP
    have hz' : isZeroPt q = false := by
      rw [← Bool.not_eq_true, hz]; exact hne
    obtain ⟨-, hX, hY⟩ := h
    obtain ⟨d1, d2⟩ := dbl_field hw hg hz' hX hY
    have h2 := point_add_self_zero hP
    constructor
    · intro hy
      have hy : (2 : ZMod p) * Y ≠ 0 := fun e => (hy.resolve_left hne) (h2.2 e)
      obtain ⟨r, l, x3, er, hl, hx, x1, x2, hz3⟩ := d1 hy
      obtain ⟨hh, eq⟩ := point_add_tangent hP hy l x3 _ hl hx rfl
      refine ⟨r, er, ?_, Or.inr (ptRed_of x1 x2 hz3)⟩
      rw [eq]
      exact ptRep_some hh x1 x2 hz3
    · intro hy
      exact d2 (h2.1 hy.2)

/-- Addition: correct unless both operands are the same point of order two, and then an error. -/
theorem add_spec (hw : DigitWidth w) (hg : GrpRep w p a g) {q1 q2 : Pt} {P Q : (curve p a b).Point} (h1 : PtRep w q1 P)
    (h2 : PtRep w q2 Q) :
    (¬ (P = Q ∧ P ≠ 0 ∧ P + P = 0) → ∃ r, add w q1 q2 g = some r ∧ PtRep w r (P + Q) ∧
      (P = 0 ∧ r = q2 ∨ Q = 0 ∧ r = q1 ∨ PtRed w p r)) ∧
    (P = Q ∧ P ≠ 0 ∧ P + P = 0 → add w q1 q2 g = none) := by
  have hp0 : 0 < p := (Fact.out : p.Prime).pos
  have hz1 := ptRep_isZero h1
  have hz2 := ptRep_isZero h2
  by_cases hP : P = 0
  · rw [add, if_pos (hz1.2 hP)]
    exact ⟨fun _ => ⟨q2, rfl, by rwa [hP, zero_add], Or.inl ⟨hP, rfl⟩⟩, fun h => absurd hP h.2.1⟩
  by_cases hQ : Q = 0
  · rw [add, if_neg (by rw [hz1]; exact hP), if_pos (hz2.2 hQ)]
    exact ⟨fun _ => ⟨q1, rfl, by rwa [hQ, add_zero], Or.inr (Or.inl ⟨hQ, rfl⟩)⟩, fun h => absurd (h.1.trans hQ) h.2.1⟩
  have hz1' : isZeroPt q1 = false := by
    rw [← Bool.not_eq_true, hz1]; exact hP
  have hz2' : isZeroPt q2 = false := by
    rw [← Bool.not_eq_true, hz2]; exact hQ
  have hd := dbl_spec (b := b) hw hg h1
  cases P with
  | zero => exact absurd rfl hP
  | some x1 y1 n1 =>
  cases Q with
  | zero => exact absurd rfl hQ
  | some x2 y2 n2 =>
    obtain ⟨-, hX1, hY1⟩ := h1
    obtain ⟨-, hX2, hY2⟩ := h2
    obtain ⟨c1, c2, c3⟩ := add_field hw hg hz1' hz2' hX1 hY1 hX2 hY2
    by_cases hx : x2 - x1 = 0
    · have hx' : x2 = x1 := sub_eq_zero.1 hx
      subst hx'
      by_cases hy : y2 - y1 = 0
      · rw [c1 hx hy]
        have hy' : y2 = y1 := sub_eq_zero.1 hy
        subst hy'
        constructor
        · intro hne
          obtain ⟨r, d1, d2, d3⟩ := hd.1 (Or.inr fun h => hne ⟨rfl, hP, h⟩)
          exact ⟨r, d1, d2, Or.inr (Or.inr (d3.resolve_left fun h => hP h.1))⟩
        · intro hne
          exact hd.2 ⟨hP, hne.2.2⟩
      · have hy' : y1 ≠ y2 := fun e => hy (by rw [e, sub_self])
        rw [c2 hx hy]
        constructor
        · intro _
          obtain ⟨r, d1, d2, d3⟩ := setZero_spec (p := p) (a := a) (b := b) hw
          exact ⟨r, d1, by rwa [point_add_opp n1 n2 rfl hy'], Or.inr (Or.inr d3)⟩
        · intro h
          have := h.1
          injection this with _ e
          exact absurd e hy'
    · constructor
      · intro _
        obtain ⟨r, l, x3, er, hl, hx3, e1, e2, e3⟩ := c3 hx
        obtain ⟨hh, eq⟩ := point_add_chord n1 n2 hx l x3 _ hl hx3 rfl
        refine ⟨r, er, ?_, Or.inr (Or.inr (ptRed_of e1 e2 e3))⟩
        rw [eq]
        exact ptRep_some hh e1 e2 e3
      · intro h
        have := h.1
        injection this with e _
        exact absurd (by rw [e, sub_self]) hx

end Verif.Ecp
