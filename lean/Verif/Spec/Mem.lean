import Verif.Model.Mem.Core
import Mathlib.Algebra.BigOperators.Group.Finset.Basic
/-!
# What it means for a struct in memory to be in order

Vocabulary for the statements about the memory model: which number a struct holds, and who owns which
allocated block.  Only the types of the memory model are used, none of its functions.
-/
namespace Verif.Mem
open Verif.Mpi (Mpi)

/-- The digit array of an object. -/
def Data.cells : Data → List (Option Nat)
  | .mem _ c => c
  | _ => []
def Obj.cells (o : Obj) : List (Option Nat) := o.data.cells

/-- Blocks of the allocator an object owns. -/
def Obj.owns (o : Obj) : Int :=
  match o.data with
  | .mem true _ => 1
  | _ => 0

/-- The object can be read as the number `m`: its members are written, so are its `used` digits. -/
def Obj.Reads (o : Obj) (m : Mpi) : Prop :=
  ∃ a, o.hdr = some ⟨m.neg, m.digs.length, a⟩ ∧ m.digs.map some <+: o.cells

/-- The object is an initialised number `m` that functions may write to: `alloc` is the size of its array,
which comes from the allocator (or is `NULL`, of size 0). -/
def Obj.Holds (o : Obj) (m : Mpi) : Prop :=
  o.hdr = some ⟨m.neg, m.digs.length, o.cells.length⟩ ∧ m.digs.map some <+: o.cells ∧
    (o.data = .null ∨ ∃ c, c ≠ [] ∧ o.data = .mem true c)

/-- The object can be read as the integer `z` (digits of `w` bits, no leading zero digit, zero not negative). -/
def Obj.Shows (w : Nat) (z : Int) (o : Obj) : Prop :=
  ∃ m, Verif.Mpi.WF (2 ^ w) m ∧ m.toInt (2 ^ w) = z ∧ o.Reads m

/-- The object is an initialised number with value `z`, ready to be read or written by any function. -/
def Obj.Is (w : Nat) (z : Int) (o : Obj) : Prop :=
  ∃ m, Verif.Mpi.WF (2 ^ w) m ∧ m.toInt (2 ^ w) = z ∧ o.Holds m

/-- A normalised number with value `z`, except that zero may carry the negative sign. -/
def Obj.IsUpToSign (w : Nat) (z : Int) (o : Obj) : Prop :=
  ∃ m, Verif.Mpi.Norm (2 ^ w) m ∧ m.toInt (2 ^ w) = z ∧ o.Holds m

/-- An allocation request failed between two states. -/
def Failed (s s' : St) : Prop := ∃ k, s.tick ≤ k ∧ k < s'.tick ∧ s.fails k = true

/-- How a call that writes to object `r` must end.  It must end: neither undefined behaviour nor an endless
loop.  Objects of the caller (those below `sp`) other than `r` are not touched.  The number of allocated
blocks changes by what `r` itself owns, so nothing leaks and nothing is freed twice.  Either the call reports
success and `r` is as promised by `good`, or it reports failure, an allocation request made during the call
has indeed failed, and `r` satisfies `bad`. -/
def Outcome (sp : Nat) (s : St) (r : Nat) (c : M Int) (good bad : Obj → Prop) : Prop :=
  ∃ st s', c s = .ok (st, s') ∧ (∀ v, v < sp → v ≠ r → s'.obj v = s.obj v) ∧
    s'.live - (s'.obj r).owns = s.live - (s.obj r).owns ∧
    ((st = 0 ∧ good (s'.obj r)) ∨ (st = -1 ∧ Failed s s' ∧ bad (s'.obj r)))

/-- The same for a call that writes to the distinct objects `ds`. -/
def Outcomes (sp : Nat) (s : St) (ds : List Nat) (c : M Int) (good bad : Nat → Obj → Prop) : Prop :=
  ∃ st s', c s = .ok (st, s') ∧ (∀ v, v < sp → v ∉ ds → s'.obj v = s.obj v) ∧
    s'.live - (ds.map fun v => (s'.obj v).owns).sum = s.live - (ds.map fun v => (s.obj v).owns).sum ∧
    ((st = 0 ∧ ∀ v ∈ ds, good v (s'.obj v)) ∨ (st = -1 ∧ Failed s s' ∧ ∀ v ∈ ds, bad v (s'.obj v)))

end Verif.Mem
