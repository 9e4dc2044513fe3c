import Verif.Lemmas.Ecp.Group
/-! Objects in standard form that denote the same point are the same. -/
namespace Verif.Ecp
open Verif.Mpi WeierstrassCurve WeierstrassCurve.Affine

variable {w p : Nat} {a b : ZMod p}

/-- Infinity in standard form, and finite points in standard form. -/
theorem ptRed_zero {q : Pt} (h : PtRep w q (0 : (curve p a b).Point)) (hr : PtRed w p q) :
    NatRep w q.x 1 ∧ NatRep w q.y 1 ∧ NatRep w q.z 0 := by
  rcases hr with h1 | ⟨m, n, -, -, -, -, h5⟩
  · exact h1
  · have : q.z.digs = [] := h
    rw [h5.digs_nil_iff] at this; omega

theorem val_of_natRep {x : Mpi} {u : ZMod p} {m : Nat} (h : ZRep w p x u) (h' : NatRep w x m) (hm : m < p) : m = u.val := by
  have : (m : ZMod p) = u := by rw [← h.val, h'.toInt, Int.cast_natCast]
  rw [← this, ZMod.val_natCast, Nat.mod_eq_of_lt hm]

theorem ptRed_some {q : Pt} {X Y : ZMod p} {hP : (curve p a b).Nonsingular X Y}
    (h : PtRep w q (Point.some X Y hP)) (hr : PtRed w p q) : NatRep w q.x X.val ∧ NatRep w q.y Y.val ∧ NatRep w q.z 1 := by
  obtain ⟨hz, hx, hy⟩ := h
  rcases hr with ⟨-, -, h3⟩ | ⟨m, n, h1, h2, h3, h4, h5⟩
  · exact absurd (h3.digs_nil_iff.2 rfl) hz
  · refine ⟨?_, ?_, h5⟩
    · rwa [← val_of_natRep hx h1 h2]
    · rwa [← val_of_natRep hy h3 h4]

theorem ptRed_x {q : Pt} {P : (curve p a b).Point} (h : PtRep w q P) (hr : PtRed w p q) : NatRep w q.x (ptX P) := by
  cases P with
  | zero => exact (ptRed_zero h hr).1
  | some X Y hP => exact (ptRed_some h hr).1

theorem ptRed_unique (hw : 0 < w) {q q' : Pt} {P : (curve p a b).Point} (h : PtRep w q P) (hr : PtRed w p q) (h' : PtRep w q' P)
    (hr' : PtRed w p q') : q = q' := by
  obtain ⟨x, y, z⟩ := q
  obtain ⟨x', y', z'⟩ := q'
  cases P with
  | zero =>
    obtain ⟨a1, a2, a3⟩ := ptRed_zero h hr
    obtain ⟨b1, b2, b3⟩ := ptRed_zero h' hr'
    rw [Pt.mk.injEq]
    exact ⟨a1.unique b1, a2.unique b2, a3.unique b3⟩
  | some X Y hP =>
    obtain ⟨a1, a2, a3⟩ := ptRed_some h hr
    obtain ⟨b1, b2, b3⟩ := ptRed_some h' hr'
    rw [Pt.mk.injEq]
    exact ⟨a1.unique b1, a2.unique b2, a3.unique b3⟩

end Verif.Ecp
