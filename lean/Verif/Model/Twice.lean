import Verif.Model.Hier

/-!
# Elements with identity

`get_polygonsets`, `get_paths`, `get_labels`, `flatten` and `Cell.copy` copy lists of elements with `copy.deepcopy` and change
the copies in place. `deepcopy` of a list copies every object once: an element that is in the list twice gives one new
object, twice in the new list. `Model/Hier.lean` has elements as values; here they have an identity.

A list of objects is a list of pairs of a number, the identity, and the value. Simplified: two elements have no part in
common (a list of polygons, or an array); the numbers of new objects do not mean anything.
-/

namespace Gdspy

variable {K P E : Type}

/-- The elements that exist, by their numbers. -/
structure Objs (K P : Type) where
  poly : Nat → PolySet K
  path : Nat → P
  label : Nat → HLabel K

mutual
/-- library.py:104-112: the attributes of `Cell`, with lists of elements by number. -/
inductive NCell (K : Type) : Type
  | mk (name : Str) (polygons paths labels : List Nat) (references : NRefs K)

inductive NRefs (K : Type) : Type
  | nil
  | cell (r : RefData K) (c : NCell K) (rest : NRefs K)
  | name (r : RefData K) (s : Str) (rest : NRefs K)
end

def NCell.name : NCell K → Str | .mk n _ _ _ _ => n
def NCell.polygons : NCell K → List Nat | .mk _ p _ _ _ => p
def NCell.paths : NCell K → List Nat | .mk _ _ p _ _ => p
def NCell.labels : NCell K → List Nat | .mk _ _ _ l _ => l
def NCell.references : NCell K → NRefs K | .mk _ _ _ _ r => r

mutual
/-- The hierarchy with values in the place of objects. -/
def NCell.values (o : Objs K P) : NCell K → HCell K P
  | .mk name polys paths labels refs =>
    .mk name (polys.map o.poly) (paths.map o.path) (labels.map o.label) (NRefs.values o refs)

def NRefs.values (o : Objs K P) : NRefs K → HRefs K P
  | .nil => .nil
  | .cell r c rest => .cell r (NCell.values o c) (NRefs.values o rest)
  | .name r s rest => .name r s (NRefs.values o rest)
end

/-! ## Lists of objects -/

/-- A list of objects. -/
abbrev ObjList (E : Type) := List (Nat × E)

/-- `copy.deepcopy` of a list of elements. -/
def deepCopyList (look : Nat → E) (l : List Nat) : ObjList E := l.map fun n => (n, look n)

/-- Change an object in place: this shows wherever the object is in the list. -/
def ObjList.change (f : E → E) (n : Nat) (l : ObjList E) : ObjList E :=
  l.map fun p => if p.1 = n then (p.1, f p.2) else p

/-- `for x in l: ` change `x` in place. -/
def ObjList.forEach (f : E → E) (l : ObjList E) : ObjList E := (l.map Prod.fst).foldl (fun l n => l.change f n) l

/-- A number above those of the list. -/
def ObjList.bound (l : ObjList E) : Nat := (l.map Prod.fst).foldr max 0 + 1

/-- `a.extend(b)`, where no object of `b` is in `a`. -/
def ObjList.extend (a b : ObjList E) : ObjList E := a ++ b.map fun p => (p.1 + a.bound, p.2)

/-- A list of new objects. -/
def newObjs (l : List E) : ObjList E := l.zipIdx.map fun p => (p.2, p.1)

/-- library.py:2009-2013, 2055-2063, 2099-2103: for every column, row and element, a copy of the element of its own is
changed and appended. -/
def ObjList.copies (gs : List (E → E)) (l : ObjList E) : ObjList E :=
  newObjs (gs.flatMap fun g => l.map fun p => g p.2)

/-! ## Queries -/

section Queries

variable [Field K]

mutual
/-- The common part of library.py:717-725, 742-750, 770-778: the elements of the cell (`own` selects the list), then those
of the references. `place` changes one element in a reference, `placeIn` in an array. -/
def NCell.gather (own : NCell K → List Nat) (look : Nat → E) (place : RefData K → E → E)
    (placeIn : RefData K → Pt K → E → E) (depth : Option Int) : NCell K → ObjList E
  | .mk name polys paths labels refs =>
    let l := deepCopyList look (own (.mk name polys paths labels refs))
    if descends depth then NRefs.gather own look place placeIn (nextDepth depth) l refs else l

/-- The loop over the references: library.py:1394-1410, 1432-1440, 1470-1494 for references,
1998-2028, 2051-2066, 2092-2128 for arrays. -/
def NRefs.gather (own : NCell K → List Nat) (look : Nat → E) (place : RefData K → E → E)
    (placeIn : RefData K → Pt K → E → E) (depth : Option Int) (l : ObjList E) : NRefs K → ObjList E
  | .nil => l
  | .cell r c rest =>
    let got := NCell.gather own look place placeIn depth c
    let got := match r.array with
      | none => got.forEach (place r)
      | some (cols, rows, spacing) => got.copies ((lattice cols rows spacing).map (placeIn r))
    NRefs.gather own look place placeIn depth (l.extend got) rest
  | .name _ _ rest => NRefs.gather own look place placeIn depth l rest
end

/-- library.py:701-725 `Cell.get_polygonsets`. -/
def NCell.polysets (o : Objs K P) (t : Trig K) (depth : Option Int) (c : NCell K) : ObjList (PolySet K) :=
  c.gather NCell.polygons o.poly (fun r => PolySet.mapPts (refPt t r)) (fun r spc => PolySet.mapPts (arrPt t r spc)) depth

/-- library.py:727-750 `Cell.get_paths`; `transform` returns the path itself. -/
def NCell.getPaths (o : Objs K P) (ops : PathOps K P) (depth : Option Int) (c : NCell K) : ObjList P :=
  c.gather NCell.paths o.path (fun r => ops.transform r.origin r.rotation r.magnification r.xrefl none)
    (fun r spc => ops.transform r.origin r.rotation r.magnification r.xrefl (some spc)) depth

/-- library.py:752-778 `Cell.get_labels`. -/
def NCell.getLabels (o : Objs K P) (t : Trig K) (depth : Option Int) (st : Bool) (c : NCell K) : ObjList (HLabel K) :=
  c.gather NCell.labels o.label (fun r => placeLabel r st (refPt t r)) (fun r spc => placeLabel r st (arrPt t r spc)) depth

def ObjList.vals (l : ObjList E) : List E := l.map Prod.snd

/-- library.py:802-854 `flatten()` without arguments: the values that the cell has then. -/
def NCell.flatten (o : Objs K P) (ops : PathOps K P) (t : Trig K) (c : NCell K) : HCell K P :=
  .mk c.name (c.polysets o t none).vals (c.getPaths o ops none).vals (c.getLabels o t none false).vals .nil

/-- library.py:180-294 `Cell.copy` with a transformation: the values of the new cell. The references are copied one by one
(237). -/
def NCell.copy [LinearOrder K] (o : Objs K P) (ops : PathOps K P) (t : Trig K) (name : Str) (a : CopyArgs K) (c : NCell K) :
    Py (HCell K P) := do
  let refs ← (c.references.values o).mapData (copyRef t a)
  pure (.mk name ((deepCopyList o.poly c.polygons).forEach (PolySet.mapPts (copyPt t a))).vals
    ((deepCopyList o.path c.paths).forEach (ops.transform a.translation a.rotation a.scale (some a.xrefl) none)).vals
    ((deepCopyList o.label c.labels).forEach (copyLabel t a)).vals refs)

end Queries

end Gdspy
