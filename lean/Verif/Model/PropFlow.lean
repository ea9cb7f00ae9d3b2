import Verif.Model.Element

/-!
# Properties of elements in queries and in `flatten`

Model of what `get_polygonsets`, `get_paths`, `get_labels` and `flatten` do with the dictionaries of properties of elements and
of references.

Simplified: everything but the properties and what decides which elements are returned (the kind of element, the cells
that are referenced, the numbers of columns and rows) is left out; the geometry is modelled in `Model/Hier.lean`, labels and
paths that can not be moved in `Model/Removed.lean`, objects that are in a cell more than once in `Model/Twice.lean`. Cells
form a tree: a cell that is referenced several times occurs several times. Elements have a dictionary of properties
(`properties = None`, which the writers allow, is left out).
-/

namespace Gdspy

mutual
/-- library.py:104-112 `Cell`: the properties of the elements, and the references. -/
inductive PCell : Type
  | mk (polygons paths labels : List Properties) (references : PRefs)

/-- `Cell.references`: `CellReference` (library.py:1095-1112) and `CellArray` (library.py:1614-1637), with the numbers of
columns and rows of an array and the properties of the reference. `ref_cell` is a cell or a string. -/
inductive PRefs : Type
  | nil
  | cell (array : Option (Int × Int)) (properties : Properties) (c : PCell) (rest : PRefs)
  | name (array : Option (Int × Int)) (properties : Properties) (s : Str) (rest : PRefs)
end

/-- The three lists of elements that the queries return. -/
inductive ElKind where
  | polygon
  | path
  | label
  deriving DecidableEq

/-- `self.polygons`, `self.paths`, `self.labels`. -/
def PCell.own (k : ElKind) : PCell → List Properties
  | .mk a b c _ => match k with
    | .polygon => a
    | .path => b
    | .label => c

/-- library.py:1398-1410, 1437-1440, 1472-1495 for `CellReference`: the elements of the cell are changed in place. library.py:
2007-2028, 2055-2066, 2097-2130 for `CellArray`: one deep copy of each for every column and row. -/
def placedProps (array : Option (Int × Int)) (l : List Properties) : List Properties :=
  match array with
  | none => l
  | some (columns, rows) =>
    (List.range columns.toNat).flatMap fun _ => (List.range rows.toNat).flatMap fun _ => l

/-- `depth is None or depth > 0`. -/
def deeper : Option Int → Bool
  | none => true
  | some d => 0 < d

mutual
/-- library.py:716-725, 742-750, 770-779: `Cell.get_polygonsets`, `get_paths` and `get_labels`. -/
def PCell.get (k : ElKind) (depth : Option Int) : PCell → List Properties
  | .mk a b c refs =>
    PCell.own k (.mk a b c refs) ++ if deeper depth then PRefs.get k (depth.map fun d => d - 1) refs else []

/-- The loop over the references, with library.py:1386-1387, 1427-1428, 1460-1461, 1996-1997, 2045-2046, 2086-2087 for
references to names. -/
def PRefs.get (k : ElKind) (depth : Option Int) : PRefs → List Properties
  | .nil => []
  | .cell array _ c rest => placedProps array (PCell.get k depth c) ++ PRefs.get k depth rest
  | .name _ _ _ rest => PRefs.get k depth rest
end

/-- library.py:821-854 `Cell.flatten`. Layers, datatypes and texttypes, which it can change, are left out. -/
def PCell.flatten (c : PCell) : PCell :=
  .mk (c.get .polygon none) (c.get .path none) (c.get .label none) .nil

end Gdspy
