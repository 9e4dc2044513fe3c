/-!
# Model of list initialisation and clearing (src/misc.c, src/mpi/mpi_list.c, src/ecp/ecp_list.c)

The heap is a set of live blocks; `malloc` call number `n` fails when `fails n`.  A big integer object is
represented by its address, and of its members only `data` matters (`alloc` is non-zero exactly when
`data` was obtained from `malloc`).  `none` stands for undefined behaviour (freeing a dead block).
-/
namespace Verif.ListInit

structure Mem where
  /-- `data` member of each object; arbitrary before initialisation -/
  data : Nat → Option Nat
  /-- live heap blocks -/
  live : Nat → Bool
  /-- next fresh block -/
  next : Nat
  /-- number of `malloc` calls so far -/
  calls : Nat

/-- `cry_mpi_init` (src/mpi/mpi_core.c:26-38). -/
def mpiInit (fails : Nat → Bool) (o : Nat) (m : Mem) : Option (Bool × Mem) :=
  if fails m.calls then
    some (false, { m with data := fun k => if k = o then none else m.data k, calls := m.calls + 1 })
  else
    some (true, { data := fun k => if k = o then some m.next else m.data k,
                  live := fun b => if b = m.next then true else m.live b,
                  next := m.next + 1, calls := m.calls + 1 })

/-- `cry_mpi_clear` (src/mpi/mpi_core.c:120-131). -/
def mpiClear (o : Nat) (m : Mem) : Option Mem :=
  match m.data o with
  | none => some m
  | some b =>
    if m.live b then
      some { m with data := fun k => if k = o then none else m.data k,
                    live := fun c => if c = b then false else m.live c }
    else none

/-- The undo loop of `cry_list_init` (src/misc.c:46-50): clear the first `n` listed objects. -/
def clearN {α : Type} (clear : α → Mem → Option Mem) : Nat → List α → Mem → Option Mem
  | 0, _, m => some m
  | _ + 1, [], m => some m
  | n + 1, o :: os, m => do
    let m ← clear o m
    clearN clear n os m

/-- The loop of `cry_list_init` (src/misc.c:39-53); `rest` are the arguments not yet read, `n` the number
of initialised objects. -/
def initLoop {α : Type} (init : α → Mem → Option (Bool × Mem)) (clear : α → Mem → Option Mem)
    (objs : List α) : List α → Nat → Mem → Option (Bool × Mem)
  | [], _, m => some (true, m)
  | o :: rest, n, m => do
    let (ok, m) ← init o m
    if ok then initLoop init clear objs rest (n + 1) m
    else
      let m ← clearN clear n objs m
      some (false, m)

/-- `cry_list_init` (src/misc.c:31-56); the variable arguments up to the `NULL` are a list. -/
def listInit {α : Type} (init : α → Mem → Option (Bool × Mem)) (clear : α → Mem → Option Mem)
    (objs : List α) (m : Mem) : Option (Bool × Mem) := initLoop init clear objs objs 0 m

/-- `cry_list_clear` (src/misc.c:58-67). -/
def listClear {α : Type} (clear : α → Mem → Option Mem) : List α → Mem → Option Mem
  | [], m => some m
  | o :: os, m => do
    let m ← clear o m
    listClear clear os m

/-- `cry_mpi_init_list` (src/mpi/mpi_list.c:4-14). -/
def mpiInitList (fails : Nat → Bool) (objs : List Nat) (m : Mem) : Option (Bool × Mem) :=
  listInit (mpiInit fails) mpiClear objs m

/-- `cry_mpi_clear_list` (src/mpi/mpi_list.c:16-23). -/
def mpiClearList (objs : List Nat) (m : Mem) : Option Mem := listClear mpiClear objs m

/-- A point object: addresses of its three coordinates. -/
structure Ecp where
  x : Nat
  y : Nat
  z : Nat

/-- `cry_ecp_init` (src/ecp/ecp_core.c:3-11). -/
def ecpInit (fails : Nat → Bool) (p : Ecp) (m : Mem) : Option (Bool × Mem) :=
  mpiInitList fails [p.x, p.y, p.z] m

/-- `cry_ecp_clear` (src/ecp/ecp_core.c:13-16). -/
def ecpClear (p : Ecp) (m : Mem) : Option Mem := mpiClearList [p.x, p.y, p.z] m

/-- `cry_ecp_init_list` (src/ecp/ecp_list.c:6-16). -/
def ecpInitList (fails : Nat → Bool) (objs : List Ecp) (m : Mem) : Option (Bool × Mem) :=
  listInit (ecpInit fails) ecpClear objs m

end Verif.ListInit
