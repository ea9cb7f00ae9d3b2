import Verif.Model.Hier
import Mathlib.Data.List.Sort

/-!
# PolygonSet

Model of the methods of `PolygonSet` (polygon.py:83-172, 326-381, 511-554) and of `Polygon` and
`Rectangle` (polygon.py:587-635). `area` is in `Verif.Model.Hier`, `to_gds` in `Verif.Model.Element`.

Coordinates are elements of a field; angles are in radians, with cosine and sine given by the same
structure `Trig` as in the hierarchy model (there in degrees).
-/

namespace Gdspy

variable {K : Type}

/-- polygon.py:83-87 `PolygonSet.__init__`. -/
def PolySet.new (polygons : List (Pgon K)) (layer datatype : Int) : PolySet K :=
  ⟨polygons, List.replicate polygons.length layer, List.replicate polygons.length datatype⟩

/-- polygon.py:587-591 `Polygon.__init__`. -/
def PolySet.polygon (points : Pgon K) (layer datatype : Int) : PolySet K :=
  ⟨[points], [layer], [datatype]⟩

/-- polygon.py:622-635 `Rectangle.__init__`. -/
def PolySet.rectangle (p1 p2 : Pt K) (layer datatype : Int) : PolySet K :=
  ⟨[[(p1.1, p1.2), (p1.1, p2.2), (p2.1, p2.2), (p2.1, p1.2)]], [layer], [datatype]⟩

section Transform

variable [Field K]

/-- polygon.py:511-529 `translate`. -/
def PolySet.translate (dx dy : K) (ps : PolySet K) : PolySet K :=
  { ps with polygons := ps.polygons.map (List.map fun p => (p.1 + dx, p.2 + dy)) }

/-- polygon.py:145-146: `pts = points - c0`, `pts * ca + pts[:, ::-1] * sa + c0` with
`sa = sin * (-1, 1)`. -/
def spinPt (ca sa : K) (c0 p : Pt K) : Pt K :=
  ((p.1 - c0.1) * ca + (p.2 - c0.2) * (sa * (-1)) + c0.1,
   (p.2 - c0.2) * ca + (p.1 - c0.1) * (sa * 1) + c0.2)

/-- polygon.py:124-148 `rotate`. -/
def PolySet.rotate (t : Trig K) (angle : K) (center : Pt K) (ps : PolySet K) : PolySet K :=
  { ps with polygons := ps.polygons.map (List.map (spinPt (t.cos angle) (t.sin angle) center)) }

/-- polygon.py:171: `(points - c0) * s + c0`, where `s` is a number or a pair. -/
def scaleAbout (sx : K) (sy : Option K) (c0 p : Pt K) : Pt K :=
  match sy with
  | none => ((p.1 - c0.1) * sx + c0.1, (p.2 - c0.2) * sx + c0.2)
  | some sy => ((p.1 - c0.1) * sx + c0.1, (p.2 - c0.2) * sy + c0.2)

/-- polygon.py:150-172 `scale`. -/
def PolySet.scale (sx : K) (sy : Option K) (center : Pt K) (ps : PolySet K) : PolySet K :=
  { ps with polygons := ps.polygons.map (List.map (scaleAbout sx sy center)) }

/-- polygon.py:547-551: one vertex in `mirror`: `vec_r = vec * (2 / inner(vec, vec))`,
`outer(inner(points - origin, vec_r), vec) - points + 2 * origin`. (With `p1 = p2` numpy divides by
zero and the result is not a number; in a field the quotient is 0.) -/
def mirrorPt (p1 p2 p : Pt K) : Pt K :=
  let vec : Pt K := (p2.1 - p1.1, p2.2 - p1.2)
  let s := 2 / (vec.1 * vec.1 + vec.2 * vec.2)
  let vecr : Pt K := (vec.1 * s, vec.2 * s)
  let d := (p.1 - p1.1) * vecr.1 + (p.2 - p1.2) * vecr.2
  (d * vec.1 - p.1 + 2 * p1.1, d * vec.2 - p.2 + 2 * p1.2)

/-- polygon.py:531-554 `mirror`. -/
def PolySet.mirror (p1 p2 : Pt K) (ps : PolySet K) : PolySet K :=
  { ps with polygons := ps.polygons.map (List.map (mirrorPt p1 p2)) }

end Transform

section Box

variable [LinearOrder K]

/-- `pts[:, i].min()`: ValueError on an empty array (an empty polygon is a one-dimensional array,
so the indexing raises IndexError first). -/
def arrMin : List K → Py K
  | [] => .error .indexError
  | a :: l => .ok (l.foldl min a)

def arrMax : List K → Py K
  | [] => .error .indexError
  | a :: l => .ok (l.foldl max a)

/-- Python's `min` of a generator that is not empty. -/
def pyMin : List K → Py K
  | [] => .error .valueError
  | a :: l => .ok (l.foldl min a)

def pyMax : List K → Py K
  | [] => .error .valueError
  | a :: l => .ok (l.foldl max a)

/-- polygon.py:99-122 `get_bounding_box`. -/
def PolySet.bbox (ps : PolySet K) : Py (Option (Pt K × Pt K)) :=
  if ps.polygons.length = 0 then .ok none
  else do
    let x0 ← ps.polygons.mapM (fun p => arrMin (p.map Prod.fst)) >>= pyMin
    let y0 ← ps.polygons.mapM (fun p => arrMin (p.map Prod.snd)) >>= pyMin
    let x1 ← ps.polygons.mapM (fun p => arrMax (p.map Prod.fst)) >>= pyMax
    let y1 ← ps.polygons.mapM (fun p => arrMax (p.map Prod.snd)) >>= pyMax
    .ok (some ((x0, y0), (x1, y1)))

end Box

/-! ## fracture -/

section Fracture

variable [Field K] [LinearOrder K]

/-- `clipper._chop(polygon, cuts, axis, scaling)`: the list of the pieces of each slab. The engine is
not modelled; theorems quantify over it. The scaling (`1 / precision`) is part of it. -/
abbrev Slicer (K : Type) := Pgon K → List K → Nat → Py (List (List (Pgon K)))

/-- `int(i * n / (ncuts + 1.0) + 0.5)`, in exact arithmetic. -/
def cutIndex (n ncuts i : Nat) : Nat := (2 * (i * n) + (ncuts + 1)) / (2 * (ncuts + 1))

/-- `[pts[int(...)] for i in range(1, ncuts + 1)]` -/
def cutList (pts : List K) (ncuts : Nat) : Py (List K) :=
  (List.range' 1 ncuts).mapM fun i => match pts[cutIndex pts.length ncuts i]? with
    | some x => .ok x
    | none => .error .indexError

/-- `sorted(points[:, i])` -/
def sortedCoords (f : Pt K → K) (p : Pgon K) : List K := (p.map f).insertionSort (· ≤ ·)

/-- `pts[-1] - pts[0]` of a list that is not empty. -/
def spread (l : List K) : K := l.getLast?.getD 0 - l.head?.getD 0

/-- polygon.py:349-369: the slabs of one polygon with more than `maxPoints` vertices. -/
def fracCut (chop : Slicer K) (maxPoints : Nat) (p : Pgon K) : Py (List (List (Pgon K))) := do
  let pts0 := sortedCoords Prod.fst p
  let pts1 := sortedCoords Prod.snd p
  let ncuts := pts0.length / maxPoints
  if spread pts1 < spread pts0 then do
    let cuts ← cutList pts0 ncuts
    chop p cuts 0
  else do
    let cuts ← cutList pts1 ncuts
    chop p cuts 1

/-- `l.pop(i)` -/
def pyPop {α : Type} (l : List α) (i : Nat) : Py (α × List α) :=
  match l[i]? with
  | some a => .ok (a, l.eraseIdx i)
  | none => .error .indexError

/-- polygon.py:347-380: one iteration of the loop at index `ii`, with `none` when it has ended. -/
def fracStep (chop : Slicer K) (maxPoints : Nat) (ii : Nat) (ps : PolySet K) :
    Py (Option (Nat × PolySet K)) :=
  match ps.polygons[ii]? with
  | none => .ok none
  | some p =>
    if p.length > maxPoints then do
      let chopped ← fracCut chop maxPoints p
      let (_, polygons) ← pyPop ps.polygons ii
      let (layer, layers) ← pyPop ps.layers ii
      let (datatype, datatypes) ← pyPop ps.datatypes ii
      let npols := (chopped.map List.length).sum
      .ok (some (ii, ⟨polygons ++ chopped.flatten, layers ++ List.replicate npols layer,
        datatypes ++ List.replicate npols datatype⟩))
    else .ok (some (ii + 1, ps))

/-- The loop, for at most `fuel` iterations; `none` if it has not ended by then. -/
def fracLoop (chop : Slicer K) (maxPoints : Nat) : Nat → Nat → PolySet K → Py (Option (PolySet K))
  | 0, _, _ => .ok none
  | fuel + 1, ii, ps => do
    match ← fracStep chop maxPoints ii ps with
    | none => .ok (some ps)
    | some (ii, ps) => fracLoop chop maxPoints fuel ii ps

/-- polygon.py:326-381 `fracture`, for at most `fuel` iterations of the loop. The limit is a natural
number (a negative limit is below 5 as well). -/
def PolySet.fracture (chop : Slicer K) (fuel maxPoints : Nat) (ps : PolySet K) :
    Py (Option (PolySet K)) :=
  if maxPoints > 4 then fracLoop chop maxPoints fuel 0 ps else .ok (some ps)

end Fracture

end Gdspy
