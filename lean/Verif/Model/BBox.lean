import Verif.Model.Hier

/-!
# The cache of bounding boxes

Model of `Cell.get_bounding_box` with the attributes `_bb_valid` and `_bounding_box`
(library.py:104-112, 551-589), of the bounding boxes of references and arrays (1496-1528, 2130-2161), and of
the methods of `Cell` that change what the box should be: `add` (296-336), `remove_polygons` (338-383),
`remove_paths` (385-410), `flatten` (802-854).

Cells are objects with an identity, here a number; the heap gives the attributes of each. Simplified: elements
are values, so that the changes that a user makes to a polygon set, path or reference after adding it, and those
that `remove_polygons` makes to a polygon set shared with another cell, are not represented. Labels have no part
in bounding boxes and are left out.

A call has a bound on the depth of the hierarchy it walks (the recursion limit of the interpreter); beyond it
the result is none. In a cyclic hierarchy it is always none.
-/

namespace Gdspy

/-- A reference or array in a cell: `ref_cell` is a cell, or a string (none). -/
structure BRef (K : Type) where
  data : RefData K
  target : Option Nat

/-- library.py:104-112: the attributes of `Cell`. -/
structure BCell (K P : Type) where
  polygons : List (PolySet K) := []
  paths : List P := []
  refs : List (BRef K) := []
  valid : Bool := false
  cache : Option (Pt K × Pt K) := none

abbrev BHeap (K P : Type) := Nat → BCell K P

variable {K P : Type}

def BHeap.set (h : BHeap K P) (c : Nat) (x : BCell K P) : BHeap K P := fun d => if d = c then x else h d

/-- The references with the hierarchies below them. -/
def mkRefs : List (RefData K × Option (HCell K P)) → HRefs K P
  | [] => .nil
  | (r, some c) :: l => .cell r c (mkRefs l)
  | (r, none) :: l => .name r [] (mkRefs l)

/-- The hierarchy below a cell, as the tree on which the other queries are modelled (`Verif.Model.Hier`). -/
def treeOf : Nat → BHeap K P → Nat → Option (HCell K P)
  | 0, _, _ => none
  | n + 1, h, c => do
    let refs ← (h c).refs.mapM fun r => match r.target with
      | none => some (r.data, none)
      | some d => (treeOf n h d).map fun x => (r.data, some x)
    some (.mk [] (h c).polygons (h c).paths [] (mkRefs refs))

/-- library.py:780-800 `get_dependencies(True)`, as a list. -/
def depsOf : Nat → BHeap K P → Nat → Option (List Nat)
  | 0, _, _ => none
  | n + 1, h, c => do
    let l ← ((h c).refs.filterMap BRef.target).mapM fun d => (depsOf n h d).map fun l => d :: l
    some l.flatten

section

variable [Field K] [LinearOrder K]

/-- library.py:570-573 with 1496-1528, 2130-2161: the loop over the references, collecting the corners of
their boxes. `query` is `get_bounding_box` of the cells, which may change the heap; for rotations that are not
multiples of 90 degrees the polygons are used instead, from `tree`. -/
def refLoop (ops : PathOps K P) (t : Trig K) (query : BHeap K P → Nat → Option (BHeap K P × Option (Pt K × Pt K)))
    (tree : BHeap K P → Nat → Option (HCell K P)) : BHeap K P → List (BRef K) →
    Option (BHeap K P × List (Pt K))
  | h, [] => some (h, [])
  | h, r :: rs =>
    match r.target with
    | none => refLoop ops t query tree h rs
    | some d => do
      let x ← if r.data.rotation.all t.cardinal then
          (query h d).map fun x => (x.1, match x.2 with
            | none => []
            | some b => (transformPolys t r.data [boxPts b]).flatten)
        else (tree h d).map fun c => (h, (transformPolys t r.data (c.flatPolys ops t)).flatten)
      let y ← refLoop ops t query tree x.1 rs
      some (y.1, ((boxOf x.2).map boxPts).getD [] ++ y.2)

/-- library.py:551-589 `Cell.get_bounding_box`: the heap afterwards and the result. -/
def getBB (ops : PathOps K P) (t : Trig K) : Nat → BHeap K P → Nat → Option (BHeap K P × Option (Pt K × Pt K))
  | 0, _, _ => none
  | n + 1, h, c => do
    let ds ← depsOf (n + 1) h c
    if (h c).valid && ds.all (fun d => (h d).valid) then some (h, (h c).cache)
    else
      let x ← refLoop ops t (getBB ops t n) (treeOf n) h (h c).refs
      let bb := boxOf (((h c).polygons.flatMap PolySet.polygons ++ (h c).paths.flatMap ops.polys).flatten ++ x.2)
      some (x.1.set c { x.1 c with valid := true, cache := bb }, bb)

end

/-- What can be in the list given to `add`. -/
inductive BElem (K P : Type)
  | polys (ps : PolySet K)
  | path (p : P)
  | ref (r : BRef K)
  | label
  | other

/-- library.py:320-334: the loop of `add`; anything else raises ValueError. -/
def bAddLoop : BCell K P → List (BElem K P) → BCell K P × Option PyErr
  | x, [] => (x, none)
  | x, .polys ps :: l => bAddLoop { x with polygons := x.polygons ++ [ps] } l
  | x, .path p :: l => bAddLoop { x with paths := x.paths ++ [p] } l
  | x, .ref r :: l => bAddLoop { x with refs := x.refs ++ [r] } l
  | x, .label :: l => bAddLoop x l
  | x, .other :: _ => (x, some .valueError)

/-- library.py:296-336 `add` with a list (a single element acts like a list of one). -/
def bAdd (c : Nat) (els : List (BElem K P)) (h : BHeap K P) : BHeap K P × Option PyErr :=
  match bAddLoop (h c) els with
  | (x, some e) => (h.set c x, some e)
  | (x, none) => (h.set c { x with valid := false }, none)

/-- library.py:338-383 `remove_polygons`. -/
def bRemovePolygons (c : Nat) (test : Pgon K → Int → Int → Bool) (h : BHeap K P) : BHeap K P :=
  h.set c { h c with polygons := ((HCell.mk [] (h c).polygons ([] : List P) [] .nil).removePolygons test).polygons }

/-- library.py:385-410 `remove_paths`. -/
def bRemovePaths (c : Nat) (test : P → Bool) (h : BHeap K P) : BHeap K P :=
  h.set c { h c with paths := ((HCell.mk [] ([] : List (PolySet K)) (h c).paths [] .nil).removePaths test).paths }

/-- library.py:802-854 `flatten`. -/
def bFlatten [Field K] (ops : PathOps K P) (t : Trig K) (n : Nat) (c : Nat) (sl sd st : Option Int)
    (h : BHeap K P) : Option (BHeap K P) :=
  (treeOf n h c).map fun x => h.set c { h c with
    polygons := (x.flatten ops t sl sd st).polygons, paths := (x.flatten ops t sl sd st).paths, refs := [] }

end Gdspy
