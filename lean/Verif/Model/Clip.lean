import Mathlib.Data.List.Sort
import Verif.Model.Shapes

/-!
Polygon operations: gdspy/operation.py and the interface functions of gdspy/clipper.cpp.

The clipping engine itself (clipper.cpp:1-4640, class Clipper, with the conversion of its polygon tree
by `link_holes`/`tree2paths`, modelled in Model/Holes) is a parameter, `Engine`; theorems say what they assume of it. An
engine takes polygons with integer coordinates and returns polygons in the same units; the real one rounds
the result to integers too, the model's need not.

Arithmetic is exact: `cInt` has no overflow and `double` no rounding.
-/

namespace Gdspy

variable {K : Type}

/-- `IntPoint` -/
abbrev IPt := Int × Int

/-- `ClipType` -/
inductive ClipOp
  | or | and | xor | not
  deriving DecidableEq, Repr

/-- `Clipper::Execute` with non-zero fill for both, then `tree2paths`. -/
structure Engine (K : Type) where
  clip : ClipOp → List (List IPt) → List (List IPt) → List (Pgon K)

section

variable [Field K] [LinearOrder K] [FloorRing K]

/-- clipper.cpp:144-148 `Round`: to nearest, halves away from zero. `static_cast` drops the fraction. -/
def clipRound (v : K) : Int := if v < 0 then ⌈v - 1 / 2⌉ else ⌊v + 1 / 2⌋

/-- clipper.cpp:4673-4674: one vertex in grid units. -/
def gridPt (scaling : K) (v : Pt K) : IPt := (clipRound (scaling * v.1), clipRound (scaling * v.2))

/-- clipper.cpp:4678-4679: the sum over `j > 1`, with `path[j - 1]` as `prev`. -/
def orientSum (p0 : IPt) : IPt → List IPt → Int
  | _, [] => 0
  | prev, v :: r =>
    (p0.1 - v.1) * (prev.2 - p0.2) - (p0.2 - v.2) * (prev.1 - p0.1) + orientSum p0 v r

/-- clipper.cpp:4678-4683 -/
def orientation : List IPt → Int
  | p0 :: p1 :: r => orientSum p0 p1 r
  | _ => 0

/-- clipper.cpp:4681-4687: reverse the path if needed. -/
def orientPath (path : List IPt) : List IPt := if orientation path < 0 then path.reverse else path

/-- clipper.cpp:4641-4691 `parse_polygon`. -/
def parsePolygon (scaling : K) (check : Bool) (p : Pgon K) : List IPt :=
  let path := p.map (gridPt scaling)
  if check then orientPath path else path

/-- clipper.cpp:4838-4879 `build_polygon_tuple`. -/
def buildTuple (scaling : K) (l : List (Pgon K)) : List (Pgon K) :=
  l.map fun P => P.map fun v => (v.1 / scaling, v.2 / scaling)

/-- A box in grid units. -/
structure IBox where
  x0 : Int
  x1 : Int
  y0 : Int
  y1 : Int
  deriving DecidableEq

/-- clipper.cpp:4891-4897: one step of the loop. -/
def IBox.grow (b : IBox) (v : IPt) : IBox :=
  ⟨if v.1 < b.x0 then v.1 else b.x0, if b.x1 < v.1 then v.1 else b.x1,
   if v.2 < b.y0 then v.2 else b.y0, if b.y1 < v.2 then v.2 else b.y1⟩

/-- clipper.cpp:4885-4899 `bounding_box`. `points[0]` of an empty path is out of bounds. -/
def boundingBox : List IPt → Py IBox
  | [] => .error .unmodelled
  | v :: r => .ok ((v :: r).foldl IBox.grow ⟨v.1, v.1, v.2, v.2⟩)

/-! ## chop -/

/-- clipper.cpp:5160-5220: the four corners of the clip path, in order. -/
def chopRect (axis : Nat) (b : IBox) (c0 c1 : Int) : List IPt :=
  if axis = 0 then [(c0, b.y0), (c1, b.y0), (c1, b.y1), (c0, b.y1)]
  else [(b.x0, c0), (b.x1, c0), (b.x1, c1), (b.x0, c1)]

/-- clipper.cpp:5171-5225: the slabs between consecutive positions; `c0` is the previous one. -/
def chopLoop (e : Engine K) (scaling : K) (axis : Nat) (subj : List IPt) (b : IBox) :
    Int → List K → List (List (Pgon K))
  | c0, [] =>
    [buildTuple scaling (e.clip .and [subj] [chopRect axis b c0 (if axis = 0 then b.x1 else b.y1)])]
  | c0, x :: r =>
    buildTuple scaling (e.clip .and [subj] [chopRect axis b c0 (clipRound (scaling * x))]) ::
      chopLoop e scaling axis subj b (clipRound (scaling * x)) r

/-- clipper.cpp:5136-5227 `chop`. -/
def chop (e : Engine K) (scaling : K) : Slicer K := fun p cuts axis =>
  let subj := parsePolygon scaling true p
  match boundingBox subj with
  | .error x => .error x
  | .ok b => .ok (chopLoop e scaling axis subj b (if axis = 0 then b.x0 else b.y0) cuts)

/-! ## The python functions -/

/-- What can be in a list of operands. Paths and references are given by the polygons that their
`get_polygons` returns. -/
inductive Item (K : Type)
  | set (ps : PolySet K)
  | robust (polys : List (Pgon K))
  | flex (polys : List (Pgon K))
  | ref (polys : List (Pgon K))
  | array (polys : List (Pgon K))
  | verts (p : Pgon K)

/-- What can be given as operand. -/
inductive Operand (K : Type)
  | none
  | one (i : Item K)
  | list (l : List (Item K))

/-- What `_gather_polys` puts in its list: polygons or, by mistake, path objects. -/
inductive Gathered (K : Type)
  | poly (p : Pgon K)
  | object (polys : List (Pgon K))

/-- operation.py:70-81: one item of a list. Line 75 tests `args` (the list) where `p` is meant, so a
FlexPath is appended as it is. -/
def gatherItem : Item K → List (Gathered K)
  | .set ps => ps.polygons.map .poly
  | .robust l => l.map .poly
  | .ref l => l.map .poly
  | .array l => l.map .poly
  | .flex l => [.object l]
  | .verts p => [.poly p]

/-- operation.py:42-82 `_gather_polys`. A vertex list alone is iterated over: each vertex is taken for a
polygon. This case is left out (`unmodelled`). -/
def gatherPolys : Operand K → Py (List (Gathered K))
  | .none => .ok []
  | .one (.set ps) => .ok (ps.polygons.map .poly)
  | .one (.robust l) => .ok (l.map .poly)
  | .one (.flex l) => .ok (l.map .poly)
  | .one (.ref l) => .ok (l.map .poly)
  | .one (.array l) => .ok (l.map .poly)
  | .one (.verts _) => .error .unmodelled
  | .list l => .ok (l.flatMap gatherItem)

/-- clipper.cpp:4648-4653: what is not a sequence raises TypeError. -/
def Gathered.parse (scaling : K) (check : Bool) : Gathered K → Py (List IPt)
  | .poly p => .ok (parsePolygon scaling check p)
  | .object _ => .error .typeError

/-- The arguments `position` of `slice`. -/
inductive PosArg (K : Type)
  | one (x : K)
  | list (l : List K)

/-- operation.py:129-132. `sorted` is stable insertion sort here. -/
def PosArg.sorted : PosArg K → List K
  | .one x => [x]
  | .list l => l.insertionSort (· ≤ ·)

/-- operation.py:135-137: all polygons are chopped, and the pieces are collected by slab. -/
def sliceLoop (e : Engine K) (scaling : K) (axis : Nat) (pos : List K) :
    List (List (Pgon K)) → List (Gathered K) → Py (List (List (Pgon K)))
  | result, [] => .ok result
  | _, .object _ :: _ => .error .typeError
  | result, .poly p :: r => do
    let slabs ← chop e scaling p pos axis
    sliceLoop e scaling axis pos (List.zipWith (· ++ ·) result slabs) r

/-- operation.py:138-144: one entry of the result. -/
def sliceEntry (layer datatype : List Int) (i : Nat) (polys : List (Pgon K)) :
    Py (Option (PolySet K)) :=
  if polys = [] then .ok none
  else match layer[i % layer.length]?, datatype[i % datatype.length]? with
    | some l, some d => .ok (some (PolySet.new polys l d))
    | _, _ => .error .zeroDivision

/-- operation.py:125-128 -/
def LayerArg.ints : LayerArg → List Int
  | .one l => [l]
  | .list l => l

/-- operation.py:85-145 `slice`. `precision = 0` raises ZeroDivisionError. -/
def sliceOp (e : Engine K) (polygons : Operand K) (position : PosArg K) (axis : Nat) (precision : K)
    (layer datatype : LayerArg) : Py (List (Option (PolySet K))) := do
  let polys ← gatherPolys polygons
  let pos := position.sorted
  if precision = 0 then .error .zeroDivision
  else do
    let result ← sliceLoop e (1 / precision) axis pos (List.replicate (pos.length + 1) []) polys
    (result.zipIdx).mapM fun x => sliceEntry layer.ints datatype.ints x.2 x.1

/-- operation.py:257, 262 `PolygonSet(...).fracture(max_points, precision)`. `some none` stands for
"out of fuel" (see `PolySet.fracture`). -/
def fractured (e : Engine K) (fuel maxPoints : Nat) (precision : K) (polys : List (Pgon K))
    (layer datatype : Int) : Py (Option (PolySet K)) :=
  (PolySet.new polys layer datatype).fracture (chop e (1 / precision)) fuel maxPoints

/-- The polygons of gathered operands that are all polygons. `PolygonSet` accepts other objects in its
list; this is left out. -/
def onlyPolys (l : List (Gathered K)) : Py (List (Pgon K)) :=
  l.mapM fun g => match g with
    | .poly p => .ok p
    | .object _ => .error .unmodelled

/-- The result of `boolean`. -/
inductive BoolOut (K : Type)
  | none
  | set (ps : PolySet K)
  | outOfFuel

def BoolOut.ofFracture : Option (PolySet K) → BoolOut K
  | some ps => .set ps
  | .none => .outOfFuel

/-- clipper.cpp:4903-4940 `clip`; `none` is an unknown operation name. -/
def clipCall (e : Engine K) (scaling : K) (op : Option ClipOp) (a b : List (Gathered K)) :
    Py (List (Pgon K)) := do
  match op with
  | none => .error .typeError
  | some op => do
    let subj ← a.mapM (Gathered.parse scaling true)
    let clip ← b.mapM (Gathered.parse scaling true)
    .ok (buildTuple scaling (e.clip op subj clip))

/-- operation.py:259-262 -/
def booleanClip (e : Engine K) (fuel : Nat) (op : Option ClipOp) (precision : K) (maxPoints : Nat)
    (layer datatype : Int) (poly1 poly2 : List (Gathered K)) : Py (BoolOut K) := do
  let result ← clipCall e (1 / precision) op poly1 poly2
  if result = [] then .ok .none
  else do
    let r ← fractured e fuel maxPoints precision result layer datatype
    .ok (BoolOut.ofFracture r)

/-- operation.py:213-262 `boolean`. `poly1.pop()` raises IndexError when `poly1` is empty. -/
def booleanOp (e : Engine K) (fuel : Nat) (operand1 operand2 : Operand K) (op : Option ClipOp)
    (precision : K) (maxPoints : Nat) (layer datatype : Int) : Py (BoolOut K) := do
  let poly1 ← gatherPolys operand1
  let poly2 ← gatherPolys operand2
  if precision = 0 then .error .unmodelled
  else if poly2.isEmpty then
    if op = some .not ∨ op = some .xor then
      if poly1.isEmpty then .ok .none
      else do
        let l ← onlyPolys poly1
        let r ← fractured e fuel maxPoints precision l layer datatype
        .ok (BoolOut.ofFracture r)
    else match poly1.getLast? with
      | none => .error .indexError
      | some x => booleanClip e fuel op precision maxPoints layer datatype poly1.dropLast [x]
  else booleanClip e fuel op precision maxPoints layer datatype poly1 poly2

end

/-! ## inside -/

/-- clipper.cpp:456-488: one edge of the loop in `PointInPolygon`: `none` is `return -1`, `some b`
says whether `result` is toggled. -/
def pipEdge (pt ip ipNext : IPt) : Option Bool :=
  if ipNext.2 = pt.2 ∧ (ipNext.1 = pt.1 ∨ (ip.2 = pt.2 ∧ (decide (ipNext.1 > pt.1) = decide (ip.1 < pt.1))))
  then none
  else if decide (ip.2 < pt.2) ≠ decide (ipNext.2 < pt.2) then
    let d := (ip.1 - pt.1) * (ipNext.2 - pt.2) - (ipNext.1 - pt.1) * (ip.2 - pt.2)
    if ip.1 ≥ pt.1 then
      if ipNext.1 > pt.1 then some true
      else if d = 0 then none
      else some (decide (d > 0) = decide (ipNext.2 > ip.2))
    else if ipNext.1 > pt.1 then
      if d = 0 then none
      else some (decide (d > 0) = decide (ipNext.2 > ip.2))
    else some false
  else some false

/-- clipper.cpp:455-489: the loop; `first` is `path[0]`. -/
def pipLoop (pt first : IPt) : Int → IPt → List IPt → Int
  | result, ip, [] =>
    match pipEdge pt ip first with
    | none => -1
    | some t => if t then 1 - result else result
  | result, ip, v :: r =>
    match pipEdge pt ip v with
    | none => -1
    | some t => pipLoop pt first (if t then 1 - result else result) v r

/-- clipper.cpp:448-490 `PointInPolygon`. -/
def pointInPolygon (pt : IPt) (path : List IPt) : Int :=
  if path.length < 3 then 0
  else match path with
    | [] => 0
    | v :: r => pipLoop pt v 0 v r

def IBox.has (b : IBox) (p : IPt) : Bool :=
  decide (p.1 ≥ b.x0) && decide (p.1 ≤ b.x1) && decide (p.2 ≥ b.y0) && decide (p.2 ≤ b.y1)

/-- clipper.cpp:5075 -/
def IBox.meets (g b : IBox) : Bool :=
  decide (g.x0 ≤ b.x1) && decide (g.x1 ≥ b.x0) && decide (g.y0 ≤ b.y1) && decide (g.y1 ≥ b.y0)

/-- clipper.cpp:5044-5050 -/
def IBox.join (a b : IBox) : IBox :=
  ⟨if b.x0 < a.x0 then b.x0 else a.x0, if a.x1 < b.x1 then b.x1 else a.x1,
   if b.y0 < a.y0 then b.y0 else a.y0, if a.y1 < b.y1 then b.y1 else a.y1⟩

/-- clipper.cpp:5055-5059: is the point in one of the polygons? -/
def inSome (polys : List (List IPt × IBox)) (p : IPt) : Bool :=
  polys.any fun q => q.2.has p && decide (pointInPolygon p q.1 ≠ 0)

/-- `polygons_bb[0]` of an empty list is out of bounds. -/
def allBox : List (List IPt × IBox) → Py IBox
  | [] => .error .unmodelled
  | q :: r => .ok (r.foldl (fun b x => b.join x.2) q.2)

/-- clipper.cpp:5066-5082: ANY. -/
def insideAny (polys : List (List IPt × IBox)) (g : List IPt) : Py Bool :=
  match boundingBox g with
  | .error e => .error e
  | .ok gb => .ok (polys.any fun q => gb.meets q.2 &&
      g.any fun p => q.2.has p && decide (pointInPolygon p q.1 ≠ 0))

/-- The polygons with their boxes (clipper.cpp:5027-5031). -/
def withBoxes (polys : List (List IPt)) : Py (List (List IPt × IBox)) :=
  polys.mapM fun P => do
    let b ← boundingBox P
    .ok (P, b)

/-- clipper.cpp:5007-5134 `inside` on parsed arguments. -/
def clipperInside (groups : List (List IPt)) (polygons : List (List IPt)) (shortCircuit : Int) :
    Py (List Bool) := do
  let polys ← withBoxes polygons
  if shortCircuit = 0 then
    match groups with
    | [] => .error .unmodelled
    | g :: _ => do
      let ab ← allBox polys
      .ok (g.map fun p => ab.has p && inSome polys p)
  else if shortCircuit > 0 then groups.mapM (insideAny polys)
  else do
    let ab ← allBox polys
    .ok (groups.map fun g => g.all fun p => ab.has p && inSome polys p)

/-- The first argument of `inside`: a list of points or a list of groups of points. -/
inductive PointsArg (K : Type)
  | points (l : List (Pt K))
  | groups (l : List (List (Pt K)))

/-- operation.py:265-299 `inside`. `points[0][0]` raises IndexError for an empty list or an empty
first group. -/
def insideOp [Field K] [LinearOrder K] [FloorRing K] (points : PointsArg K) (polygons : Operand K)
    (any : Bool) (precision : K) : Py (List Bool) := do
  let polys ← gatherPolys polygons
  match points with
  | .points [] => .error .indexError
  | .groups [] => .error .indexError
  | .groups ([] :: _) => .error .indexError
  | .points l =>
    if precision = 0 then .error .zeroDivision
    else do
      let ps ← polys.mapM (Gathered.parse (1 / precision) true)
      clipperInside [parsePolygon (1 / precision) false l] ps 0
  | .groups l =>
    if precision = 0 then .error .zeroDivision
    else do
      let ps ← polys.mapM (Gathered.parse (1 / precision) true)
      clipperInside (l.map (parsePolygon (1 / precision) false)) ps (if any then 1 else -1)

end Gdspy
