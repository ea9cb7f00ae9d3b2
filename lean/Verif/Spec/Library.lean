import Verif.Model.Library
import Mathlib.Logic.Relation

/-!
Specification vocabulary for libraries, cell graphs and histories of operations.
-/

namespace Gdspy.Spec

/-- Every cell of the library is filed under its own name, and no name occurs twice. -/
def KeysMatch (st : LState) : Prop :=
  (st.cells.map Prod.fst).Nodup ∧ ∀ p ∈ st.cells, st.heap.name p.2 = p.1

/-- `a` holds a reference to the object `b`. -/
def Edge (h : Heap) (a b : Nat) : Prop := ∃ r ∈ h.refs a, h.target r = .obj b

/-- `b` is reached from `a` by one or more references. -/
def Reach (h : Heap) : Nat → Nat → Prop := Relation.TransGen (Edge h)

/-- A possible iteration order of Python sets: every element once. -/
def IterOk (iter : List Nat → List Nat) : Prop :=
  ∀ l, (iter l).Nodup ∧ ∀ x, x ∈ iter l ↔ x ∈ l

/-- The objects that are in use have been created. -/
def Allocated (st : LState) : Prop :=
  (∀ p ∈ st.cells, p.2 < st.heap.ncells) ∧
    ∀ r c, st.heap.target r = .obj c → c < st.heap.ncells

/-- The cells that `add(cells, include_dependencies=deps)` is asked to add. -/
def ToAdd (h : Heap) (cells : List Nat) (deps : Bool) (x : Nat) : Prop :=
  x ∈ cells ∨ (deps = true ∧ ∃ c ∈ cells, Reach h c x)

/-- A different cell is filed under the name of `c`. -/
def Clash (st : LState) (c : Nat) : Prop :=
  ∃ d, st.cells.lookup (st.heap.name c) = some d ∧ d ≠ c

/-- The reference `r` refers to something called `s`: a cell with this name or the name itself. -/
def RefersTo (h : Heap) (r : Nat) (s : Str) : Prop :=
  h.target r = .str s ∨ ∃ d, h.target r = .obj d ∧ h.name d = s

/-- The reference `r` belongs to a cell of the library. -/
def InLibrary (st : LState) (r : Nat) : Prop := ∃ p ∈ st.cells, r ∈ st.heap.refs p.2

/-- What a program can do with a library and its cells. -/
inductive Op where
  | newCell (name : Str) (ow upd : Bool)
  | add (iter : List Nat → List Nat) (fuel : Nat) (cells : List Nat) (deps ow upd : Bool)
  | remove (name : Str) (removeRefs : Bool)
  | rename (cell : CellArg) (name : Str) (upd : Bool)
  | replaceReferences (old : Str) (new : Tgt)
  | readGds (cells : List (Str × List Str)) (endlib : Bool)
  /-- `Cell(name)` outside of the library -/
  | makeCell (name : Str)
  /-- `cell.add(CellReference(...))` -/
  | addRef (c : Nat) (t : Tgt)
  /-- `cell.add(reference)` with an existing reference object -/
  | shareRef (c r : Nat)

/-- The arguments are objects that exist. -/
def Op.Valid (h : Heap) : Op → Prop
  | .add iter _ cells _ _ _ => IterOk iter ∧ ∀ c ∈ cells, c < h.ncells
  | .rename (.obj c) _ _ => c < h.ncells
  | .replaceReferences _ (.obj c) => c < h.ncells
  | .addRef c (.obj d) => c < h.ncells ∧ d < h.ncells
  | .addRef c (.str _) => c < h.ncells
  | .shareRef c r => c < h.ncells ∧ r < h.nrefs
  | _ => True

/-- The state after the operation, whether or not it raised. -/
def Op.run (st : LState) : Op → LState
  | .newCell name ow upd => (st.newCell name ow upd).1
  | .add iter fuel cells deps ow upd => match st.add iter fuel cells deps ow upd with
    | some r => r.1
    | none => st
  | .remove name rr => (st.remove name rr).1
  | .rename cell name upd => (st.rename cell name upd).1
  | .replaceReferences old new => (st.replaceReferences old new).1
  | .readGds cells endlib => (st.importFile cells endlib).1
  | .makeCell name => { st with heap := (st.heap.newCell name).1 }
  | .addRef c t => { st with heap := st.heap.newRef c t }
  | .shareRef c r => { st with heap := st.heap.setRefs c (st.heap.refs c ++ [r]) }

/-- The states reachable by a history of operations. -/
inductive History (st : LState) : LState → Prop
  | start : History st st
  | step {s : LState} (op : Op) : History st s → op.Valid s.heap → History st (op.run s)

end Gdspy.Spec
