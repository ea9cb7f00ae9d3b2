import Verif.Model.Py
import Mathlib.Logic.Function.Basic

/-!
# Library bookkeeping

Model of `GdsLibrary.new_cell`, `add`, `remove`, `top_level`, `rename_cell`,
`replace_references` (library.py:2299-2425, 2789-2891), of `Cell.get_dependencies`
(library.py:780-800), and of the effect of `read_gds` on the set of cells.

Cells and references are mutable Python objects with identity: they live in a heap and are
named by numbers. Several cells can hold the same reference object, and several libraries the
same cell. Only what these functions look at is modelled: names, reference lists, and what the
references point to.

Python sets are represented by lists; where the code iterates over a set, the order is a
parameter (`iter`), universally quantified in the theorems.
-/

namespace Gdspy

/-- `ref.ref_cell`: a `Cell` object or a string. -/
inductive Tgt where
  | obj (c : Nat)
  | str (s : Str)
  deriving DecidableEq, Repr

/-- The objects: `ncells` cells with attributes `name` and `references`, and `nrefs` references
with attribute `ref_cell`. -/
structure Heap where
  ncells : Nat
  nrefs : Nat
  name : Nat → Str
  refs : Nat → List Nat
  target : Nat → Tgt

/-- The name of the referenced cell (library.py:2415-2420, 2883-2889): the name of the
object, or the string. -/
def Heap.targetName (h : Heap) : Tgt → Str
  | .obj c => h.name c
  | .str s => s

def Heap.setTarget (h : Heap) (r : Nat) (t : Tgt) : Heap :=
  { h with target := Function.update h.target r t }

def Heap.setName (h : Heap) (c : Nat) (s : Str) : Heap :=
  { h with name := Function.update h.name c s }

def Heap.setRefs (h : Heap) (c : Nat) (l : List Nat) : Heap :=
  { h with refs := Function.update h.refs c l }

/-- library.py:104-112 `Cell.__init__` (with `use_current_library` false or
`exclude_from_current`): a new object without elements. -/
def Heap.newCell (h : Heap) (name : Str) : Heap × Nat :=
  ({ h with ncells := h.ncells + 1, name := Function.update h.name h.ncells name,
            refs := Function.update h.refs h.ncells [] }, h.ncells)

/-- library.py:1096-1115, 1623-1652, and `Cell.add` of the result: a new reference object,
appended to a cell. -/
def Heap.newRef (h : Heap) (c : Nat) (t : Tgt) : Heap :=
  { h with nrefs := h.nrefs + 1, target := Function.update h.target h.nrefs t,
           refs := Function.update h.refs c (h.refs c ++ [h.nrefs]) }

/-- `self.cells`: a dictionary, in insertion order. -/
abbrev CellDict := List (Str × Nat)

/-- `d[k] = v`. -/
def dictPut (d : CellDict) (k : Str) (v : Nat) : CellDict :=
  match d with
  | [] => [(k, v)]
  | (k', v') :: r => if k' = k then (k, v) :: r else (k', v') :: dictPut r k v

/-- `del d[k]`. -/
def dictDel (d : CellDict) (k : Str) : CellDict := d.filter fun p => p.1 ≠ k

/-- A library together with the objects of the program. -/
structure LState where
  heap : Heap
  cells : CellDict

/-! ## References -/

/-- library.py:2877-2889: one step of the loop in `replace_references`. -/
def replaceStep (old : Str) (new : Tgt) (s : Heap × Nat) (r : Nat) : Heap × Nat :=
  if s.1.targetName (s.1.target r) = old then (s.1.setTarget r new, s.2 + 1) else s

/-- All the references of the cells in the library, in the order of the loops in
library.py:2879-2880. -/
def LState.allRefs (st : LState) : List Nat := st.cells.flatMap fun p => st.heap.refs p.2

/-- library.py:2875-2876: a name that is in the library stands for the cell. -/
def LState.resolve (st : LState) : Tgt → Tgt
  | .obj c => .obj c
  | .str s => match st.cells.lookup s with
    | some c => .obj c
    | none => .str s

/-- library.py:2854-2891 `replace_references`, with `old_cell` given by its name. -/
def LState.replaceReferences (st : LState) (old : Str) (new : Tgt) : LState × Nat :=
  let r := st.allRefs.foldl (replaceStep old (st.resolve new)) (st.heap, 0)
  ({ st with heap := r.1 }, r.2)

/-! ## Dependencies -/

/-- library.py:795-800 with `recursive=False`. -/
def Heap.directDeps (h : Heap) (c : Nat) : List Nat :=
  (h.refs c).filterMap fun r => match h.target r with
    | .obj d => some d
    | .str _ => none

/-- Run a computation that may not terminate on every element of a list. -/
def collectAll (f : Nat → Option (List Nat)) : List Nat → Option (List Nat)
  | [] => some []
  | d :: l => do
      let a ← f d
      let b ← collectAll f l
      pure (a ++ d :: b)

/-- library.py:780-800 `get_dependencies(True)`. The recursion of the code is unbounded (on a
cyclic graph Python's recursion limit ends it with an exception); the first argument bounds
its depth, and `none` means that the bound was too small. -/
def Heap.deps (h : Heap) : Nat → Nat → Option (List Nat)
  | 0, _ => none
  | n + 1, c => collectAll (h.deps n) (h.directDeps c)

/-! ## Library operations -/

/-- `c.name in self.cells and self.cells[c.name] is not c` (library.py:2369-2370, 2378-2379). -/
def LState.clashes (st : LState) (c : Nat) : Bool :=
  match st.cells.lookup (st.heap.name c) with
  | some d => decide (d ≠ c)
  | none => false

/-- library.py:2366-2384: the body of the loop in `add`. -/
def addStep (ow upd : Bool) (st : LState) (c : Nat) : LState × Option PyErr :=
  if !ow && st.clashes c then (st, some .valueError)
  else
    let st' := if ow && upd && st.clashes c then (st.replaceReferences (st.heap.name c) (.obj c)).1
      else st
    ({ st' with cells := dictPut st'.cells (st.heap.name c) c }, none)

/-- The loop in `add` (library.py:2366-2384), over the cells in the given order. -/
def addLoop (ow upd : Bool) : LState → List Nat → LState × Option PyErr
  | st, [] => (st, none)
  | st, c :: l =>
    match addStep ow upd st c with
    | (st', some e) => (st', some e)
    | (st', none) => addLoop ow upd st' l

/-- library.py:2357-2365: the set of cells to be added. `fuel` bounds the depth of the search for
dependencies. -/
def cellSet (h : Heap) (fuel : Nat) (cells : List Nat) (deps : Bool) : Option (List Nat) :=
  if deps then do
    let l ← cells.mapM (h.deps fuel)
    pure (cells ++ l.flatten)
  else some cells

/-- library.py:2330-2385 `add`. `iter` is the iteration order of the set. The result is `none`
when `fuel` is too small. -/
def LState.add (iter : List Nat → List Nat) (fuel : Nat) (st : LState) (cells : List Nat)
    (deps ow upd : Bool) : Option (LState × Option PyErr) := do
  let s ← cellSet st.heap fuel cells deps
  pure (addLoop ow upd st (iter s))

/-- library.py:2299-2328 `new_cell`. -/
def LState.newCell (st : LState) (name : Str) (ow upd : Bool) : LState × Option PyErr :=
  let (h, c) := st.heap.newCell name
  addLoop ow upd { st with heap := h } [c]

/-- library.py:2408-2424: one cell of the loop in `remove`. -/
def removeStep (name : Str) (s : Heap × Nat) (c : Nat) : Heap × Nat :=
  let kept := (s.1.refs c).filter fun r => name ≠ s.1.targetName (s.1.target r)
  (s.1.setRefs c kept, s.2 + (s.1.refs c).length - kept.length)

/-- library.py:2387-2425 `remove`, with the cell given by its name. -/
def LState.remove (st : LState) (name : Str) (removeRefs : Bool) : LState × Nat :=
  let cells := dictDel st.cells name
  if removeRefs then
    let r := (cells.map Prod.snd).foldl (removeStep name) (st.heap, 0)
    (⟨r.1, cells⟩, r.2)
  else (⟨st.heap, cells⟩, 0)

/-- How `rename_cell` is told the cell. -/
inductive CellArg where
  | obj (c : Nat)
  | str (s : Str)

/-- library.py:2825-2840: find the cell in the library. -/
def LState.findArg (st : LState) : CellArg → Option (Str × Nat)
  | .obj c => match st.cells.lookup (st.heap.name c) with
    | some d => if d = c then some (st.heap.name c, c) else none
    | none => none
  | .str s => (st.cells.lookup s).map fun c => (s, c)

/-- library.py:2806-2852 `rename_cell`: the new state and the number of updated references, or the
exception. -/
def LState.rename (st : LState) (cell : CellArg) (name : Str) (upd : Bool) : LState × Except PyErr Nat :=
  match st.findArg cell with
  | none => (st, .error .valueError)
  | some (old, c) =>
    if (st.cells.lookup name).isSome then (st, .error .valueError)
    else
      let st' : LState := ⟨st.heap.setName c name, dictPut (dictDel st.cells old) name c⟩
      if upd then
        let r := st'.replaceReferences old (.obj c)
        (r.1, .ok r.2)
      else (st', .ok 0)

/-- library.py:2789-2804 `top_level`, in the order of the dictionary (the code returns the elements
of a set in any order). -/
def LState.topLevel (st : LState) : List Nat :=
  (st.cells.map Prod.snd).filter fun c =>
    !(st.cells.any fun p => (st.heap.directDeps p.2).contains c)

/-! ## Reading -/

/-- The effect of STRNAME and SREF/AREF records in `read_gds` (library.py:2654-2662, 2632-2637,
2752-2787): a cell is created and filed under its name unless the name is taken, then its
references are created, pointing to names. Returns the references created. -/
def importCells : LState → List (Str × List Str) → List Nat → LState × List Nat × Option PyErr
  | st, [], made => (st, made, none)
  | st, (name, names) :: l, made =>
    if (st.cells.lookup name).isSome then (st, made, some .valueError)
    else
      let (h, c) := st.heap.newCell name
      let h' := names.foldl (fun h s => h.newRef c (.str s)) h
      importCells ⟨h', dictPut st.cells name c⟩ l
        (made ++ (List.range names.length).map fun i => h.nrefs + i)

/-- library.py:2702-2705: ENDLIB, the names are replaced by the cells of the library. -/
def resolveStep (cells : CellDict) (h : Heap) (r : Nat) : Heap :=
  match h.target r with
  | .obj _ => h
  | .str s => match cells.lookup s with
    | some c => h.setTarget r (.obj c)
    | none => h

/-- `read_gds` as far as the set of cells is concerned. `endlib` tells whether the file has an
ENDLIB record. -/
def LState.importFile (st : LState) (cells : List (Str × List Str)) (endlib : Bool) :
    LState × Option PyErr :=
  match importCells st cells [] with
  | (st', _, some e) => (st', some e)
  | (st', made, none) =>
    if endlib then ({ st' with heap := made.foldl (resolveStep st'.cells) st'.heap }, none)
    else (st', none)

end Gdspy
