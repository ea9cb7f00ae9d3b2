import Verif.Model.Library

/-!
# The global library

Model of the deprecated `gdspy.current_library` (`gdspy/__init__.py:96`) and of the module variable
`use_current_library` (library.py:60, `True` by default): which cells are registered there by
`Cell.__init__` (library.py:104-115), `GdsLibrary.new_cell` (library.py:2299-2328) and
`GdsLibrary.extract` (library.py:2893-2931).

The libraries are numbered; library 0 is `gdspy.current_library`. The variables
`use_current_library` and `current_library` are not assigned while the operations run.
-/

namespace Gdspy

/-- The objects of the program and all its libraries. -/
structure World where
  heap : Heap
  libs : Nat → CellDict

/-- The library `i` as seen by the operations on one library. -/
def World.view (w : World) (i : Nat) : LState := ⟨w.heap, w.libs i⟩

/-- The world after an operation on library `i`. -/
def World.put (w : World) (i : Nat) (st : LState) : World :=
  ⟨st.heap, Function.update w.libs i st.cells⟩

/-- library.py:104-115 `Cell(name, exclude_from_current)`. The object exists also when its
registration raises, but the caller does not get it. -/
def World.createCell (use : Bool) (w : World) (name : Str) (exclude : Bool) : World × Py Nat :=
  let (h, c) := w.heap.newCell name
  let w' : World := { w with heap := h }
  if use && !exclude then
    match addLoop false true (w'.view 0) [c] with
    | (st, none) => (w'.put 0 st, .ok c)
    | (st, some e) => (w'.put 0 st, .error e)
  else (w', .ok c)

/-- library.py:2299-2328 `libs[i].new_cell(name, overwrite_duplicate, update_references)`. -/
def World.newCell (use : Bool) (w : World) (i : Nat) (name : Str) (ow upd : Bool) :
    World × Py Nat :=
  match w.createCell use name false with
  | (w', .error e) => (w', .error e)
  | (w', .ok c) =>
    match addLoop ow upd (w'.view i) [c] with
    | (st, none) => (w'.put i st, .ok c)
    | (st, some e) => (w'.put i st, .error e)

/-- What `extract` hands to `add` (library.py:2927): a cell object, or a string that is not the name
of a cell. -/
def LState.getCell (st : LState) : CellArg → CellArg
  | .obj c => .obj c
  | .str s => match st.cells.lookup s with
    | some c => .obj c
    | none => .str s

/-- library.py:2893-2931 `libs[i].extract(cell, overwrite_duplicate)`, with the returned object.
`iter` and `fuel` are those of `LState.add`. With a string that is not the name of a cell, `add`
(library.py:2361-2365) runs over its characters, which have no `get_dependencies`; the empty string
has none. -/
def World.extract (iter : List Nat → List Nat) (fuel : Nat) (w : World) (i : Nat) (cell : CellArg)
    (ow : Bool) : Option (World × Py CellArg) :=
  match (w.view i).getCell cell with
  | .obj c => match (w.view 0).add iter fuel [c] true ow true with
    | none => none
    | some (st, none) => some (w.put 0 st, .ok (.obj c))
    | some (st, some e) => some (w.put 0 st, .error e)
  | .str [] => some (w, .ok (.str []))
  | .str (_ :: _) => some (w, .error .attributeError)

/-- A call of `new_cell`: the library, the name, `overwrite_duplicate` and `update_references`. -/
structure NewCall where
  lib : Nat
  name : Str
  ow : Bool
  upd : Bool

/-- A program that calls `new_cell` again and again; an exception ends it. -/
def World.newCells (use : Bool) : World → List NewCall → World × Option PyErr
  | w, [] => (w, none)
  | w, k :: l =>
    match w.newCell use k.lib k.name k.ow k.upd with
    | (w', .ok _) => World.newCells use w' l
    | (w', .error e) => (w', some e)

end Gdspy
