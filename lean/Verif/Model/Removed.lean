import Verif.Model.Fillet

/-!
# Polygon sets after `remove_polygons`

`Cell.remove_polygons` (library.py:338-383) assigns *tuples* to the attributes `polygons`, `layers` and `datatypes` of the
elements that it keeps (`polys, layers, dts = zip(*pld)`), where the constructors of all elements assign lists. It changes
the elements themselves, which other cells may hold as well. Here the attributes are lists or tuples, and elements are
objects in a heap. The rest of the model has lists for all of them: `SetObj.view`.
-/

namespace Gdspy

/-- A Python list or a Python tuple. -/
inductive PySeq (α : Type) where
  | list (l : List α)
  | tuple (l : List α)
  deriving DecidableEq

def PySeq.items {α : Type} : PySeq α → List α
  | .list l => l
  | .tuple l => l

/-- `s[i] = x`: tuples do not support it. -/
def PySeq.setItem {α : Type} (s : PySeq α) (i : Nat) (x : α) : Py (PySeq α) :=
  match s with
  | .list l => if i < l.length then .ok (.list (l.set i x)) else .error .indexError
  | .tuple _ => .error .typeError

/-- `s.pop(i)`: tuples have no such method. -/
def PySeq.pop {α : Type} (s : PySeq α) (i : Nat) : Py (α × PySeq α) :=
  match s with
  | .list l => match l[i]? with
    | some a => .ok (a, .list (l.eraseIdx i))
    | none => .error .indexError
  | .tuple _ => .error .attributeError

/-- `s.extend(l)`: tuples have no such method. -/
def PySeq.extend {α : Type} (s : PySeq α) (l : List α) : Py (PySeq α) :=
  match s with
  | .list l' => .ok (.list (l' ++ l))
  | .tuple _ => .error .attributeError

/-- polygon.py:83-87: the attributes of a `PolygonSet`. -/
structure SetObj (K : Type) where
  polygons : PySeq (Pgon K)
  layers : PySeq Int
  datatypes : PySeq Int
  deriving DecidableEq

variable {K P : Type}

/-- The contents of the attributes. All methods that only read them (`to_gds`, `to_svg`, `area`, `get_bounding_box`, the
functions of operation.py) treat lists and tuples alike. -/
def SetObj.view (s : SetObj K) : PolySet K := ⟨s.polygons.items, s.layers.items, s.datatypes.items⟩

/-- What a constructor makes. -/
def SetObj.ofPolySet (ps : PolySet K) : SetObj K := ⟨.list ps.polygons, .list ps.layers, .list ps.datatypes⟩

/-- library.py:372-373: the polygons of an element that stay, with layer and datatype. -/
def SetObj.kept (test : Pgon K → Int → Int → Bool) (s : SetObj K) : List (Pgon K × Int × Int) :=
  (s.polygons.items.zip (s.layers.items.zip s.datatypes.items)).filter fun q => !test q.1 q.2.1 q.2.2

/-- library.py:377-380: `polys, layers, dts = zip(*pld)` and the assignments to the element. -/
def SetObj.ofKept (pld : List (Pgon K × Int × Int)) : SetObj K :=
  ⟨.tuple (pld.map Prod.fst), .tuple (pld.map fun q => q.2.1), .tuple (pld.map fun q => q.2.2)⟩

/-- The objects of polygon sets. -/
abbrev SetHeap (K : Type) := Nat → SetObj K

/-- library.py:370-383 `remove_polygons`: the elements of the cell are given by their places in the heap. Returns the heap
and the new elements. -/
def removeLoop [DecidableEq K] (test : Pgon K → Int → Int → Bool) : List Nat → SetHeap K → SetHeap K × List Nat
  | [], h => (h, [])
  | i :: ids, h =>
    let pld := (h i).kept test
    if pld = [] then removeLoop test ids h
    else
      let r := removeLoop test ids (Function.update h i (SetObj.ofKept pld))
      (r.1, i :: r.2)

/-- library.py:221-225 `Cell.copy(deep_copy=False)`: `list(self.polygons)`, the same objects. -/
def shallowCopy (ids : List Nat) : List Nat := ids

/-! ## Methods of polygon sets -/

section Methods

variable [Field K]

/-- polygon.py:511-529 `translate`: a list is assigned to `polygons`. -/
def SetObj.translate (dx dy : K) (s : SetObj K) : SetObj K :=
  { s with polygons := .list (s.polygons.items.map (List.map fun p => (p.1 + dx, p.2 + dy))) }

/-- polygon.py:124-148 `rotate`. -/
def SetObj.rotate (t : Trig K) (angle : K) (center : Pt K) (s : SetObj K) : SetObj K :=
  { s with polygons := .list (s.polygons.items.map (List.map (spinPt (t.cos angle) (t.sin angle) center))) }

/-- polygon.py:150-172 `scale`. -/
def SetObj.scale (sx : K) (sy : Option K) (center : Pt K) (s : SetObj K) : SetObj K :=
  { s with polygons := .list (s.polygons.items.map (List.map (scaleAbout sx sy center))) }

/-- polygon.py:531-554 `mirror`. -/
def SetObj.mirror (p1 p2 : Pt K) (s : SetObj K) : SetObj K :=
  { s with polygons := .list (s.polygons.items.map (List.map (mirrorPt p1 p2))) }

/-- `for ii in range(len(s.polygons)): s.polygons[ii] = f(s.polygons[ii])` from index `i` on. -/
def assignLoop (f : Pgon K → Pgon K) : Nat → Nat → PySeq (Pgon K) → Py (PySeq (Pgon K))
  | 0, _, s => .ok s
  | n + 1, i, s =>
    match s.items[i]? with
    | none => .error .indexError
    | some p => do
      let s ← s.setItem i (f p)
      assignLoop f n (i + 1) s

/-- library.py:1399-1409, 2014-2026: the loop over the polygons of a set. Simplified: up to four assignments to the same
item are one. -/
def SetObj.assign (f : Pt K → Pt K) (s : SetObj K) : Py (SetObj K) := do
  let ps ← assignLoop (List.map f) s.polygons.items.length 0 s.polygons
  .ok { s with polygons := ps }

/-- The reference assigns to the items at all (library.py:1400-1409). -/
def RefData.touches (r : RefData K) : Bool :=
  r.xrefl = some true || r.magnification.isSome || r.rotation.isSome || r.origin.isSome

/-- library.py:1398-1410 `CellReference.get_polygonsets`, 2008-2028 `CellArray.get_polygonsets`: the sets of the cell,
transformed. An array always assigns, because of the spacing. -/
def refSets (t : Trig K) (r : RefData K) (sets : List (SetObj K)) : Py (List (SetObj K)) :=
  match r.array with
  | none => if r.touches then sets.mapM (SetObj.assign (refPt t r)) else .ok sets
  | some (cols, rows, spacing) => do
    let l ← (lattice cols rows spacing).mapM fun spc => sets.mapM (SetObj.assign (arrPt t r spc))
    .ok l.flatten

end Methods

section Fracture

variable [Field K] [LinearOrder K]

/-- polygon.py:347-380: the loop of `fracture` from index `ii` on, for at most `fuel` rounds (`none` if it has not ended by
then). The object and the exception, if any. -/
def SetObj.fracLoop (chop : Slicer K) (maxPoints : Nat) : Nat → Nat → SetObj K → Option (SetObj K × Option PyErr)
  | 0, _, _ => none
  | fuel + 1, ii, s =>
    match s.polygons.items[ii]? with
    | none => some (s, none)
    | some p =>
      if p.length > maxPoints then
        match fracCut chop maxPoints p with
        | .error e => some (s, some e)
        | .ok chopped =>
          match s.polygons.pop ii with
          | .error e => some (s, some e)
          | .ok (_, polygons) =>
            let s := { s with polygons := polygons }
            match s.layers.pop ii with
            | .error e => some (s, some e)
            | .ok (layer, layers) =>
              let s := { s with layers := layers }
              match s.datatypes.pop ii with
              | .error e => some (s, some e)
              | .ok (datatype, datatypes) =>
                let s := { s with datatypes := datatypes }
                let npols := (chopped.map List.length).sum
                match s.polygons.extend chopped.flatten, s.layers.extend (List.replicate npols layer),
                    s.datatypes.extend (List.replicate npols datatype) with
                | .ok ps, .ok ls, .ok ds => SetObj.fracLoop chop maxPoints fuel ii ⟨ps, ls, ds⟩
                | _, _, _ => some (s, some .attributeError)
      else SetObj.fracLoop chop maxPoints fuel (ii + 1) s

/-- polygon.py:326-381 `fracture`. -/
def SetObj.fracture (chop : Slicer K) (fuel maxPoints : Nat) (s : SetObj K) : Option (SetObj K × Option PyErr) :=
  if maxPoints > 4 then SetObj.fracLoop chop maxPoints fuel 0 s else some (s, none)

variable [FloorRing K]

/-- polygon.py:450-505: the loop of `fillet` from index `jj` on. The object and the exception, if any. Simplified: the two
assignments to the item are one. -/
def SetObj.filletLoop (t : Num K) (pp : K) : List (List K) → Nat → SetObj K → SetObj K × Option PyErr
  | [], _, s => (s, none)
  | rs :: radii, jj, s =>
    match s.polygons.items[jj]? with
    | none => (s, none)
    | some p =>
      match filletPolygon t pp p rs with
      | .error e => (s, some e)
      | .ok p' =>
        match s.polygons.setItem jj p' with
        | .error e => (s, some e)
        | .ok ps => SetObj.filletLoop t pp radii (jj + 1) { s with polygons := ps }

/-- polygon.py:383-509 `fillet`. -/
def SetObj.fillet (t : Num K) (chop : Slicer K) (fuel : Nat) (radius : FilletArg K) (pp : K) (maxPoints : Nat)
    (s : SetObj K) : Option (SetObj K × Option PyErr) :=
  match filletRadii radius s.polygons.items with
  | .error e => some (s, some e)
  | .ok radii =>
    match SetObj.filletLoop t pp radii 0 s with
    | (s, some e) => some (s, some e)
    | (s, none) =>
      if s.polygons.items.any fun p => decide (p.length > maxPoints) then s.fracture chop fuel maxPoints
      else some (s, none)

end Fracture

/-! ## Hierarchies -/

mutual
/-- library.py:104-112: the attributes of `Cell`. -/
inductive OCell (K P : Type) : Type
  | mk (name : Str) (polygons : List (SetObj K)) (paths : List P) (labels : List (HLabel K)) (references : ORefs K P)

/-- `Cell.references`. -/
inductive ORefs (K P : Type) : Type
  | nil
  | cell (r : RefData K) (c : OCell K P) (rest : ORefs K P)
  | name (r : RefData K) (s : Str) (rest : ORefs K P)
end

def OCell.polygons : OCell K P → List (SetObj K) | .mk _ p _ _ _ => p
def OCell.labels : OCell K P → List (HLabel K) | .mk _ _ _ l _ => l
def OCell.references : OCell K P → ORefs K P | .mk _ _ _ _ r => r

mutual
/-- The same cell with lists in place of tuples. -/
def OCell.view : OCell K P → HCell K P
  | .mk n polys paths labels refs => .mk n (polys.map SetObj.view) paths labels (ORefs.view refs)

def ORefs.view : ORefs K P → HRefs K P
  | .nil => .nil
  | .cell r c rest => .cell r (OCell.view c) (ORefs.view rest)
  | .name r s rest => .name r s (ORefs.view rest)
end

/-- library.py:370-383 `remove_polygons` on a cell that shares no elements. -/
def OCell.removePolygons [DecidableEq K] (test : Pgon K → Int → Int → Bool) : OCell K P → OCell K P
  | .mk n polys paths labels refs => .mk n
      (polys.filterMap fun s => if s.kept test = [] then none else some (SetObj.ofKept (s.kept test))) paths labels refs

section Copies

variable [Field K]

mutual
/-- library.py:701-725 `Cell.get_polygonsets`: the deep copies of a tuple is a tuple. -/
def OCell.polysets (t : Trig K) (depth : Option Int) : OCell K P → Py (List (SetObj K))
  | .mk _ polys _ _ refs =>
    if descends depth then do
      let l ← ORefs.polysets t (nextDepth depth) refs
      .ok (polys ++ l)
    else .ok polys

/-- library.py:719-724 with 1370-1410, 1980-2028. -/
def ORefs.polysets (t : Trig K) (depth : Option Int) : ORefs K P → Py (List (SetObj K))
  | .nil => .ok []
  | .cell r c rest => do
    let sets ← OCell.polysets t depth c
    let l ← refSets t r sets
    let l' ← ORefs.polysets t depth rest
    .ok (l ++ l')
  | .name _ _ rest => ORefs.polysets t depth rest
end

/-- library.py:837-851: `poly.layers = [single_layer] * len(poly.polygons)` and so on. -/
def SetObj.relabel (sl sd : Option Int) (s : SetObj K) : SetObj K :=
  { s with
    layers := match sl with
      | some l => .list (List.replicate s.polygons.items.length l)
      | none => s.layers
    datatypes := match sd with
      | some d => .list (List.replicate s.polygons.items.length d)
      | none => s.datatypes }

/-- library.py:802-854 `flatten`: the labels are assigned before the polygons are collected. The cell and the exception, if
any. -/
def OCell.flatten (ops : PathOps K P) (t : Trig K) (sl sd st : Option Int) : OCell K P → OCell K P × Option PyErr
  | .mk n polys paths labels refs =>
    let c : OCell K P := .mk n polys paths labels refs
    let labels' := (c.view.getLabels t none false).map (HLabel.relabel sl sd st)
    match c.polysets t none with
    | .error e => (.mk n polys paths labels' refs, some e)
    | .ok sets => (.mk n (sets.map (SetObj.relabel sl sd))
        ((c.view.getPaths ops none).map (if sl.isSome || sd.isSome then ops.relabel sl sd else id)) labels' .nil, none)

end Copies

end Gdspy
