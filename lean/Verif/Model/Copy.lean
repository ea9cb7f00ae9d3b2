import Verif.Model.Hier
import Verif.Model.Library
import Verif.Model.PolygonSet

/-!
# `gdspy.copy`

Model of `copy` (operation.py:302-332), of the `translate` methods it calls, and of what
`copy.deepcopy` does with the objects of gdspy.

The objects of the program live in a memory and are named by numbers, so that the same object can
be reached along several ways. None of the classes of gdspy defines `__deepcopy__` or `__copy__`,
hence `deepcopy` follows every attribute, with a dictionary (`memo`) of the objects that have been
copied already.

Simplified: numbers, strings, arrays and dictionaries are values (a dictionary of properties or a
list that is shared by two objects is not represented as shared), the bounding box cache of cells
and the properties are left out, and Python's limit on the depth of the recursion is not modelled.
-/

namespace Gdspy

variable {K P : Type}

/-- An object: a `Cell` (library.py:104-112) with the lists of its own elements and references, a
`PolygonSet`, a path, a `Label`, or a `CellReference` or `CellArray`, whose `ref_cell` is an object
or a string. -/
inductive Obj (K P : Type) where
  | cell (name : Str) (polygons paths labels references : List Nat)
  | poly (ps : PolySet K)
  | path (p : P)
  | label (l : HLabel K)
  | ref (r : RefData K) (target : Tgt)

/-- The objects held by an attribute of the object. -/
def Obj.kids : Obj K P → List Nat
  | .cell _ a b c d => a ++ b ++ c ++ d
  | .ref _ (.obj c) => [c]
  | _ => []

/-- The same object with every object it holds exchanged. -/
def Obj.map (f : Nat → Nat) : Obj K P → Obj K P
  | .cell n a b c d => .cell n (a.map f) (b.map f) (c.map f) (d.map f)
  | .ref r (.obj c) => .ref r (.obj (f c))
  | .ref r (.str s) => .ref r (.str s)
  | .poly ps => .poly ps
  | .path p => .path p
  | .label l => .label l

/-- The objects of the program. -/
structure Mem (K P : Type) where
  size : Nat
  node : Nat → Obj K P

/-- Replace the attributes of an object. -/
def Mem.set (m : Mem K P) (x : Nat) (n : Obj K P) : Mem K P :=
  { m with node := Function.update m.node x n }

/-- A new object. -/
def Mem.alloc (m : Mem K P) (n : Obj K P) : Mem K P × Nat :=
  ({ size := m.size + 1, node := Function.update m.node m.size n }, m.size)

/-- The state of `deepcopy`: the objects, and the dictionary of those that have been copied. -/
structure CopySt (K P : Type) where
  mem : Mem K P
  memo : Nat → Option Nat

/-- `[deepcopy(a, memo) for a in x]`; the copies are found in the dictionary afterwards. -/
def copyAll (f : CopySt K P → Nat → Option (CopySt K P × Nat)) :
    CopySt K P → List Nat → Option (CopySt K P)
  | s, [] => some s
  | s, k :: l => do
      let r ← f s k
      copyAll f r.1 l

/-- `copy.deepcopy(x, memo)` of the standard library: an object found in the dictionary is not
copied again; otherwise a new object is made and entered into the dictionary, then the
attributes are copied and stored in it. The first argument bounds the depth of the recursion, and
`none` means that the bound was too small. -/
def deepcopy : Nat → CopySt K P → Nat → Option (CopySt K P × Nat)
  | fuel, s, x =>
    match s.memo x with
    | some y => some (s, y)
    | none =>
      match fuel with
      | 0 => none
      | n + 1 => do
        let a := s.mem.alloc (s.mem.node x)
        let s' ← copyAll (deepcopy n) ⟨a.1, Function.update s.memo x (some a.2)⟩ (s.mem.node x).kids
        let y := a.2
        pure (⟨s'.mem.set y ((s.mem.node x).map fun k => (s'.memo k).getD k), s'.memo⟩, y)

section Translate

variable [Field K]

/-- `translate(dx, dy)`: polygon.py:511-529, label.py:322-346, library.py:1530-1547 and 2163-2180, and
for paths the given function (path.py:1177-1194, 2412-2433). Cells have no such method; the origin of
a reference can be None. -/
def Obj.translate (move : K → K → P → P) (dx dy : K) : Obj K P → Py (Obj K P)
  | .cell .. => .error .attributeError
  | .poly ps => pure (.poly (ps.translate dx dy))
  | .path p => pure (.path (move dx dy p))
  | .label l => pure (.label { l with position := (dx + l.position.1, dy + l.position.2) })
  | .ref r t =>
    match r.origin with
    | none => .error .typeError
    | some o => pure (.ref { r with origin := some (o.1 + dx, o.2 + dy) } t)

variable [DecidableEq K]

/-- operation.py:302-332 `copy`. The result holds the objects afterwards and the new object. -/
def copyObj (move : K → K → P → P) (fuel : Nat) (m : Mem K P) (x : Nat) (dx dy : K) :
    Option (Py (Mem K P × Nat)) := do
  let r ← deepcopy fuel ⟨m, fun _ => none⟩ x
  if dx ≠ 0 ∨ dy ≠ 0 then
    pure (do
      let n ← (r.1.mem.node r.2).translate move dx dy
      pure (r.1.mem.set r.2 n, r.2))
  else pure (pure (r.1.mem, r.2))

end Translate

/-! ## The objects seen as a hierarchy, and as the heap of a library -/

/-- The polygon sets among the objects of a list (`cell.polygons`). -/
def Mem.polys (m : Mem K P) (l : List Nat) : List (PolySet K) :=
  l.filterMap fun x => match m.node x with | .poly p => some p | _ => none

/-- The paths among the objects of a list (`cell.paths`). -/
def Mem.paths (m : Mem K P) (l : List Nat) : List P :=
  l.filterMap fun x => match m.node x with | .path p => some p | _ => none

/-- The labels among the objects of a list (`cell.labels`). -/
def Mem.labels (m : Mem K P) (l : List Nat) : List (HLabel K) :=
  l.filterMap fun x => match m.node x with | .label p => some p | _ => none

/-- The references of a cell whose cells are given by `f` (`Verif.Model.Hier` has cells as trees). -/
def Mem.hrefs (m : Mem K P) (f : Nat → Option (HCell K P)) : List Nat → Option (HRefs K P)
  | [] => some .nil
  | x :: l =>
    match m.node x with
    | .ref r (.obj c) => do
      let a ← f c
      let b ← m.hrefs f l
      pure (.cell r a b)
    | .ref r (.str s) => do
      let b ← m.hrefs f l
      pure (.name r s b)
    | _ => m.hrefs f l

/-- The hierarchy below a cell; `none` if it is deeper than the first argument (so always for a
cell that contains itself), or if the object is not a cell. -/
def Mem.hcell (m : Mem K P) : Nat → Nat → Option (HCell K P)
  | 0, _ => none
  | n + 1, x =>
    match m.node x with
    | .cell s a b c d => do
      let r ← m.hrefs (m.hcell n) d
      pure (.mk s (m.polys a) (m.paths b) (m.labels c) r)
    | _ => none

/-- The objects as the heap of `Verif.Model.Library`, where cells and references are numbered
separately. -/
def Mem.heap (m : Mem K P) : Heap where
  ncells := m.size
  nrefs := m.size
  name x := match m.node x with | .cell s .. => s | _ => []
  refs x := match m.node x with | .cell _ _ _ _ d => d | _ => []
  target x := match m.node x with | .ref _ t => t | _ => .str []

end Gdspy
