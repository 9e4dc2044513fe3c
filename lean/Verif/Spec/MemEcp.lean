import Verif.Spec.Mem
import Verif.Spec.Ecp
/-!
# What it means for a point of an elliptic curve in memory to be in order

A point at address `q` consists of three numbers at `q`, `q + 1`, `q + 2`.  Only the types of the memory model are used.
-/
namespace Verif.Mem
open WeierstrassCurve WeierstrassCurve.Affine
open Verif.Ecp (curve)

/-- The numbers are coordinates of the point; `z` is zero for the point at infinity only. -/
def OnPt {p : Nat} {a b : ZMod p} (x y z : Int) : (curve p a b).Point → Prop
  | .zero => z = 0
  | .some X Y _ => z ≠ 0 ∧ (x : ZMod p) = X ∧ (y : ZMod p) = Y

/-- Coordinates in standard form. -/
def RedPt (p : Nat) (x y z : Int) : Prop := (x = 1 ∧ y = 1 ∧ z = 0) ∨ (0 ≤ x ∧ x < p ∧ 0 ≤ y ∧ y < p ∧ z = 1)

/-- The three numbers at `q` can be read as `x`, `y`, `z`. -/
def Coords (w : Nat) (s : St) (q : Nat) (x y z : Int) : Prop :=
  (s.obj q).Shows w x ∧ (s.obj (q + 1)).Shows w y ∧ (s.obj (q + 2)).Shows w z

/-- The object at `q` can be read as the point `P`. -/
def PointAt {p : Nat} {a b : ZMod p} (w : Nat) (s : St) (q : Nat) (P : (curve p a b).Point) : Prop :=
  ∃ x y z, Coords w s q x y z ∧ OnPt x y z P

/-- The object at `q` is in standard form. -/
def StdAt (p w : Nat) (s : St) (q : Nat) : Prop := ∃ x y z, Coords w s q x y z ∧ RedPt p x y z

/-- The three numbers at `q` are initialised and may be written to. -/
def ReadyAt (w : Nat) (s : St) (q : Nat) : Prop := ∀ i, i ≤ 2 → ∃ z, (s.obj (q + i)).Is w z

/-- The group at `g` has modulus `p` and coefficient `a`.  Three of the built-in groups have `a = 0` as a constant of one zero
digit, which is not normalised; this does no harm when the curve has no point with abscissa 0. -/
def GroupAt (w p : Nat) (a b : ZMod p) (s : St) (g : Nat) : Prop :=
  (s.obj g).Shows w p ∧ ((∃ za : Int, (s.obj (g + 1)).Shows w za ∧ (za : ZMod p) = a) ∨
    ((s.obj (g + 1)).Reads ⟨false, [0]⟩ ∧ a = 0 ∧ ¬ IsSquare b ∧ (3 : ZMod p) ≠ 0))

/-- The objects at `d` and `q` are the same point, or have no number in common. -/
def SameOrApart (d q : Nat) : Prop := d = q ∨ d + 2 < q ∨ q + 2 < d

/-- How a call that writes to the point at `r` must end: it ends, with status `st`; no other object of the caller (those below
`sp`) is touched; the number of allocated blocks changes by what the point itself owns; and `good` holds afterwards. -/
def PtEnds (sp : Nat) (s : St) (r : Nat) (c : M Int) (st : Int) (good : St → Prop) : Prop :=
  ∃ s', c s = .ok (st, s') ∧ (∀ v, v < sp → (v < r ∨ r + 2 < v) → s'.obj v = s.obj v) ∧
    s'.live - ((s'.obj r).owns + (s'.obj (r + 1)).owns + (s'.obj (r + 2)).owns) =
      s.live - ((s.obj r).owns + (s.obj (r + 1)).owns + (s.obj (r + 2)).owns) ∧ good s'

/-- A call that changes nothing but ends with status `st`. -/
def EndsSame (sp : Nat) (s : St) (c : M Int) (st : Int) : Prop :=
  ∃ s', c s = .ok (st, s') ∧ (∀ v, v < sp → s'.obj v = s.obj v) ∧ s'.live = s.live

/-- The number of allocated blocks has changed by what the objects of the caller own. -/
def Balanced (sp : Nat) (s s' : St) : Prop :=
  s'.live - ∑ v ∈ Finset.range sp, (s'.obj v).owns = s.live - ∑ v ∈ Finset.range sp, (s.obj v).owns

/-- The object can be read as a number. -/
def Readable (w : Nat) (o : Obj) : Prop := ∃ z, o.Shows w z

/-- The object can be read as the coefficient `a` of a group: as a number, or as the constant of one zero digit that three of the built-in
groups have, which is not normalised. -/
def ReadableCoef (w : Nat) (o : Obj) : Prop := Readable w o ∨ o.Reads ⟨false, [0]⟩

/-- The three numbers at `q` can be read. -/
def ReadableAt (w : Nat) (s : St) (q : Nat) : Prop := ∀ i, i ≤ 2 → Readable w (s.obj (q + i))

/-- How a call must end even if memory runs out.  Undefined behaviour is excluded.  If the call ends, its status is 0 or -1, the
caller's objects (those below `sp`) are untouched except those of the list `ws`, which satisfy `P`, and the number of allocated
blocks has changed by what the objects of the caller own: nothing is lost, nothing is released twice. -/
def SafeEnd (sp : Nat) (s : St) (ws : List Nat) (P : Obj → Prop) (c : M Int) : Prop :=
  c s = .hang ∨ ∃ st s', c s = .ok (st, s') ∧ (st = 0 ∨ st = -1) ∧ (∀ v, v < sp → v ∉ ws → s'.obj v = s.obj v) ∧
    (∀ v, v < sp → v ∈ ws → P (s'.obj v)) ∧ Balanced sp s s'

end Verif.Mem
