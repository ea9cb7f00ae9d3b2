import Verif.Model.Shapes
import Verif.Model.Flex

/-!
# `PolyPath` (polygon.py:2308-2625)
-/

namespace Gdspy

variable {K : Type}

/-- The argument `corners`: a string, one of the old codes 0 and 1, or something else. -/
inductive PolyCorner where
  | miter | bevel
  | code (n : Int)
  | other
  deriving DecidableEq

/-- The argument `ends`. -/
inductive PolyEnd where
  | flush | round | extended
  | code (n : Int)
  | other
  deriving DecidableEq

/-- polygon.py:2438-2450: whether corners are bevelled. -/
def PolyCorner.resolve : PolyCorner → Py Bool
  | .miter => .ok false
  | .bevel => .ok true
  | .code n => if n = 0 then .ok false else if n = 1 then .ok true else .error .valueError
  | .other => .error .valueError

/-- polygon.py:2451-2465. -/
def PolyEnd.resolve : PolyEnd → Py PolyEnd
  | .flush => .ok .flush
  | .round => .ok .round
  | .extended => .ok .extended
  | .code n =>
    if n = 0 then .ok .flush else if n = 1 then .ok .round else if n = 2 then .ok .extended else .error .valueError
  | .other => .error .valueError

section Vectors

variable [Field K] [LinearOrder K]

/-- `v / (v[0] ** 2 + v[1] ** 2) ** 0.5` for `v = q - p`. For equal points numpy divides by zero and goes on with `nan`, which
is not modelled. -/
def polyUnit (t : Num K) (p q : Pt K) : Py (Pt K) :=
  let v := psub q p
  let l := t.sqrt (v.1 ^ 2 + v.2 ^ 2)
  if l = 0 then .error .unmodelled else .ok (v.1 / l, v.2 / l)

/-- `numpy.array((-v[1], v[0])) / (v[0] ** 2 + v[1] ** 2) ** 0.5` (polygon.py:2507). -/
def polyNormal (t : Num K) (p q : Pt K) : Py (Pt K) := do
  let v ← polyUnit t p q
  .ok (-v.2, v.1)

/-- The normals of all segments of the line. -/
def polyNormals (t : Num K) : List (Pt K) → Py (List (Pt K))
  | p :: q :: r => do
    let v ← polyNormal t p q
    let l ← polyNormals t (q :: r)
    .ok (v :: l)
  | _ => .ok []

/-- `p + s * v`. -/
def alongPt (p v : Pt K) (s : K) : Pt K := (p.1 + s * v.1, p.2 + s * v.2)

/-- A list of width or distance values, `l[i % len(l)]` (the list is not empty where this is used). -/
def cycVal (l : List K) (i : Nat) : K := l.getD (i % l.length) 0

/-- polygon.py:2512-2514, 2520-2521, 2546-2553: a point of one side (`side` is -1 or 1) of path `ii` of `n`, at point `p` with normal `v`. -/
def polySide (n ii : Nat) (d w side : K) (p v : Pt K) : Pt K :=
  alongPt p v ((ii : K) * d - ((n : K) - 1) * d / 2 + side * w)

/-- polygon.py:2556-2574: what a side with last point `last` gets at a corner. `p0` is the end of the side of the segment before the
corner, `pp` and `p1` are the beginning and the end of that of the segment after it. -/
def polyTurn (bevel : Bool) (last p0 pp p1 : Pt K) : List (Pt K) :=
  let p0m := psub last p0
  let p1p := psub pp p1
  let vec := p0m.1 * p1p.2 - p1p.1 * p0m.2
  if |vec| > 1 / 10 ^ 30 then
    let p : Pt K :=
      ((p0m.1 * p1p.2 * p1.1 - p1p.1 * p0m.2 * p0.1 + p0m.1 * p1p.1 * (p0.2 - p1.2)) / vec,
       -(p0m.2 * p1p.1 * p1.2 - p1p.2 * p0m.1 * p0.2 + p0m.2 * p1p.2 * (p0.1 - p1.1)) / vec)
    let l0 := (p.1 - pp.1) * p1p.1 + (p.2 - pp.2) * p1p.2
    let l1 := (p.1 - p0.1) * p0m.1 + (p.2 - p0.2) * p0m.2
    if bevel = true ∧ l0 > 0 ∧ l1 < 0 then [p0, pp] else [p]
  else []

/-- A path under construction: its right and its left side. -/
abbrev TwoSides (K : Type) := List (Pt K) × List (Pt K)

/-- polygon.py:2579-2584, 2595-2597: the first point of the second side is dropped if it coincides with that of the first. -/
def dropFirst (s : TwoSides K) : TwoSides K :=
  if s.1.head? = s.2.head? then (s.1, s.2.drop 1) else s

/-- polygon.py:2575-2594: the polygon that is cut off, and what is left. If nothing is left of the second side, its last element raises
IndexError. -/
def polyCut (s : TwoSides K) : Py (Pgon K × TwoSides K) := do
  let s := dropFirst s
  let a ← idx s.1.reverse 0
  let b ← idx s.2.reverse 0
  .ok (if a = b then s.1 ++ s.2.dropLast.reverse else s.1 ++ s.2.reverse, ([a], [b]))

/-- polygon.py:2575-2594: cut if there could be too many points after the next corner. -/
def polyMayCut (maxPoints : Nat) (s : TwoSides K) : Py (Option (Pgon K) × TwoSides K) :=
  if 0 < maxPoints ∧ maxPoints < s.1.length + s.2.length + 3 then do
    let r ← polyCut s
    .ok (some r.1, r.2)
  else .ok (none, s)

/-- What is used at the corner `c` between segments with normals `v` and `v'`: the following point, and the numbers (half of the width,
distance) at both points. -/
structure PolyKink (K : Type) where
  c : Pt K
  q : Pt K
  v : Pt K
  v' : Pt K
  w : K
  w1 : K
  d : K
  d1 : K

/-- polygon.py:2555-2574: both sides at a corner. -/
def polyStep (bevel : Bool) (n ii : Nat) (k : PolyKink K) (s : TwoSides K) : TwoSides K :=
  let side (σ : K) (l : List (Pt K)) : List (Pt K) :=
    l ++ polyTurn bevel (l.getLastD (0, 0)) (polySide n ii k.d k.w σ k.c k.v) (polySide n ii k.d k.w σ k.c k.v')
      (polySide n ii k.d1 k.w1 σ k.q k.v')
  (side (-1) s.1, side 1 s.2)

/-- polygon.py:2595-2603: the polygon of what is left at the end, with the corners `e` of the end. -/
def polyFinish (s : TwoSides K) (e : Pt K × Pt K) : Pgon K :=
  let s := dropFirst s
  (if e.1 = e.2 then s.1 else s.1 ++ [e.1]) ++ (s.2 ++ [e.2]).reverse

/-- The state of the loop: the sides of all paths, and the polygons with their layers and datatypes. -/
structure PolyState (K : Type) where
  paths : List (TwoSides K)
  polygons : List (Pgon K)
  layers : List Int
  datatypes : List Int

/-- polygon.py:2544-2594: the corner `k` of path `ii`. `layer[ii % len(layer)]` raises for an empty list. -/
def polyCornerOf (bevel : Bool) (n maxPoints : Nat) (layer datatype : List Int) (k : PolyKink K) (s : PolyState K) (ii : Nat) :
    Py (PolyState K) := do
  let a ← idx s.paths ii
  let r ← polyMayCut maxPoints (polyStep bevel n ii k a)
  match r.1 with
  | none => .ok { s with paths := s.paths.set ii r.2 }
  | some g =>
    if layer = [] ∨ datatype = [] then .error .zeroDivision
    else
      .ok { paths := s.paths.set ii r.2
            polygons := s.polygons ++ [g]
            layers := s.layers ++ [layer.getD (ii % layer.length) 0]
            datatypes := s.datatypes ++ [datatype.getD (ii % datatype.length) 0] }

/-- polygon.py:2530-2594: all corners. -/
def polyCorners (bevel : Bool) (n maxPoints : Nat) (layer datatype : List Int) (s : PolyState K) (ks : List (PolyKink K)) :
    Py (PolyState K) :=
  ks.foldlM (fun s k => (List.range n).foldlM (polyCornerOf bevel n maxPoints layer datatype k) s) s

/-- The corners of the line with normals `vs`, from the point with index `i` on. -/
def polyKinks (widths dists : List K) : Nat → List (Pt K) → List (Pt K) → List (PolyKink K)
  | i, _ :: c :: q :: r, v :: v' :: vs =>
    { c := c, q := q, v := v, v' := v', w := cycVal widths (i + 1), w1 := cycVal widths (i + 2), d := cycVal dists (i + 1),
      d1 := cycVal dists (i + 2) } :: polyKinks widths dists (i + 1) (c :: q :: r) (v' :: vs)
  | _, _, _ => []

/-- polygon.py:2506-2515: the paths at the beginning. -/
def polyStart (n : Nat) (w d : K) (p v : Pt K) : List (TwoSides K) :=
  (List.range n).map fun ii => ([polySide n ii d w (-1) p v], [polySide n ii d w 1 p v])

/-- The corners of the ends of the paths. -/
def polyEnds (n : Nat) (w d : K) (q v : Pt K) : List (Pt K × Pt K) :=
  (List.range n).map fun ii => (polySide n ii d w (-1) q v, polySide n ii d w 1 q v)

/-- polygon.py:2466-2472: the first and the last point are moved. -/
def polyExtend (t : Num K) (widths : List K) (pts : List (Pt K)) : Py (List (Pt K)) := do
  let p ← idx pts 0
  let q ← idx pts 1
  let v ← polyUnit t q p
  let w ← idx widths 0
  let pts := pts.set 0 (alongPt p v w)
  let b ← idx pts (pts.length - 1)
  let a ← idx pts (pts.length - 2)
  let v ← polyUnit t a b
  .ok (pts.set (pts.length - 1) (alongPt b v (cycVal widths (pts.length - 1))))

variable [FloorRing K]

/-- polygon.py:2477-2499: one round end, a fan of 33 points (`Round(...).polygons[0]` with the default values of the other arguments). -/
def polyCap (t : Num K) (c : Pt K) (w a : K) : Py (Pgon K) := do
  let r ← roundNew t c (.one w) (.one 0) a (a + 2 * t.halfpi) (1 / 100) (some 33) 199 0 0
  idx r.polygons 0

/-- The same half disc, given by its final angle (polygon.py:2400-2408). -/
def polyCapTo (t : Num K) (c : Pt K) (w a : K) : Py (Pgon K) := do
  let r ← roundNew t c (.one w) (.one 0) (a - 2 * t.halfpi) a (1 / 100) (some 33) 199 0 0
  idx r.polygons 0

/-- polygon.py:2473-2505: the round ends of all paths. -/
def polyCaps (t : Num K) (widths dists : List K) (n : Nat) (layer datatype : List Int) (pts : List (Pt K)) : Py (PolySet K) := do
  let p ← idx pts 0
  let q ← idx pts 1
  let v0 ← polyNormal t p q
  let d ← idx dists 0
  let b ← idx pts (pts.length - 1)
  let a ← idx pts (pts.length - 2)
  let v1 ← polyNormal t a b
  let e := pts.length - 1
  let one ← (List.range n).mapM fun ii => do
    let w ← idx widths 0
    polyCap t (polySide n ii d w 0 p v0) w (t.atan2 (q.2 - p.2) (q.1 - p.1) + t.halfpi)
  let two ← (List.range n).mapM fun ii =>
    polyCap t (polySide n ii (cycVal dists e) (cycVal widths e) 0 b v1) (cycVal widths e)
      (t.atan2 (b.2 - a.2) (b.1 - a.1) - t.halfpi)
  let l ← LayerArg.expand n (.list layer)
  let dt ← LayerArg.expand n (.list datatype)
  .ok ⟨one ++ two, l ++ l, dt ++ dt⟩

/-- polygon.py:2389-2410: the round ends of a single segment. The two half discs are not given the same way as those of longer lines. -/
def polySegmentCaps (t : Num K) (ends : PolyEnd) (w0 w1 : K) (layer datatype : List Int) (p q v : Pt K) : Py (PolySet K) :=
  match ends with
  | .round => do
    let a := t.atan2 v.2 v.1 + t.halfpi
    let r0 ← polyCap t p w0 a
    let r1 ← polyCapTo t q w1 a
    .ok ⟨[r0, r1], layer.take 1 ++ layer.take 1, datatype.take 1 ++ datatype.take 1⟩
  | _ => .ok ⟨[], [], []⟩

/-- polygon.py:2411-2413: the ends of a single segment. -/
def polySegmentEnds (ends : PolyEnd) (w0 w1 : K) (p q v : Pt K) : Pt K × Pt K :=
  match ends with
  | .extended => (alongPt p v (-w0), alongPt q v w1)
  | _ => (p, q)

/-- polygon.py:2414-2434: the polygon of a single segment with normal `u`. -/
def polyQuad (w0 w1 : K) (p q u : Pt K) : Pgon K :=
  if w0 = 0 then [p, alongPt q u (-w1), alongPt q u w1]
  else if w1 = 0 then [alongPt p u w0, alongPt p u (-w0), q]
  else [alongPt p u w0, alongPt p u (-w0), alongPt q u (-w1), alongPt q u w1]

/-- polygon.py:2387-2437: two points and one path. The values of `corners` and of `ends` are not checked. -/
def polySegment (t : Num K) (widths : List K) (ends : PolyEnd) (layer datatype : List Int) (p q : Pt K) : Py (PolySet K) := do
  let v ← polyUnit t p q
  let w0 ← idx widths 0
  let w1 := cycVal widths 1
  let caps ← polySegmentCaps t ends w0 w1 layer datatype p q v
  let e := polySegmentEnds ends w0 w1 p q v
  let l ← idx layer 0
  let d ← idx datatype 0
  .ok ⟨caps.polygons ++ [polyQuad w0 w1 e.1 e.2 (-v.2, v.1)], caps.layers ++ [l], caps.datatypes ++ [d]⟩

/-- polygon.py:2466-2472: the line that is followed. -/
def polyLinePts (t : Num K) (widths : List K) (ends : PolyEnd) (pts : List (Pt K)) : Py (List (Pt K)) :=
  match ends with
  | .extended => polyExtend t widths pts
  | _ => .ok pts

/-- polygon.py:2473-2505: the polygons of the ends. -/
def polyLineCaps (t : Num K) (widths dists : List K) (n : Nat) (ends : PolyEnd) (layer datatype : List Int) (pts : List (Pt K)) :
    Py (PolySet K) :=
  match ends with
  | .round => polyCaps t widths dists n layer datatype pts
  | _ => .ok ⟨[], [], []⟩

/-- polygon.py:2438-2617: any other number of points or paths. -/
def polyLine (t : Num K) (widths dists : List K) (n : Nat) (corners : PolyCorner) (ends : PolyEnd) (maxPoints : Nat)
    (layer datatype : List Int) (pts : List (Pt K)) : Py (PolySet K) := do
  let bevel ← corners.resolve
  let ends ← ends.resolve
  let pts ← polyLinePts t widths ends pts
  let caps ← polyLineCaps t widths dists n ends layer datatype pts
  let p ← idx pts 0
  let _ ← idx pts 1
  let vs ← polyNormals t pts
  let v ← idx vs 0
  let d0 ← idx dists 0
  if widths = [] ∧ n ≠ 0 then .error .indexError
  else do
    let e := pts.length - 1
    let s ← polyCorners bevel n maxPoints layer datatype
      ⟨polyStart n (cycVal widths 0) d0 p v, caps.polygons, caps.layers, caps.datatypes⟩ (polyKinks widths dists 0 pts vs)
    let q ← idx pts e
    let v ← idx vs (vs.length - 1)
    let l ← LayerArg.expand n (.list layer)
    let dt ← LayerArg.expand n (.list datatype)
    .ok ⟨s.polygons ++ List.zipWith polyFinish s.paths (polyEnds n (cycVal widths e) (cycVal dists e) q v), s.layers ++ l,
      s.datatypes ++ dt⟩

/-- polygon.py:2353-2617 `PolyPath.__init__`. `widths` and `dists` are lists; a number stands for the list with this number. -/
def polyPathNew (t : Num K) (pts : List (Pt K)) (widths : List K) (n : Nat) (dists : List K) (corners : PolyCorner) (ends : PolyEnd)
    (maxPoints : Nat) (layer datatype : List Int) : Py (PolySet K) :=
  match pts, n with
  | [p, q], 1 => polySegment t (widths.map (· / 2)) ends layer datatype p q
  | _, _ => polyLine t (widths.map (· / 2)) dists n corners ends maxPoints layer datatype pts

end Vectors

end Gdspy
