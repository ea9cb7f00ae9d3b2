import Verif.Model.Path

/-!
# FlexPath

Model of the class `FlexPath` (path.py:195-1709), except `to_gds` (in `Verif.Model.Element`) and `to_svg` (in
`Verif.Model.Svg`).

Coordinates are in a field, angles in radians; the numpy functions are given by `Num`. A call returns the object as
it is afterwards together with the exception, if any. Rows of the arrays `widths` and `offsets` are lists.

Given from outside, and quantified over in the theorems: the control points that `_hobby` computes (hobby.py), the
slicing engine (`clipper._chop`). Loops that need not end have fuel; running out of it is `unmodelled`.

Simplified: numpy divides by zero with a warning and goes on with `nan`; here the quotient is 0. Not modelled:
warnings, `properties`, aliasing of the arrays returned by `get_polygons(False)`, strings other than the documented
ones for `ends` and `corners`, an empty list of points.
-/

namespace Gdspy

variable {K : Type}

/-- An entry of `ends`. `pair` is a tuple of two extensions. -/
inductive FlexEnd (K : Type) where
  | flush | extended | round | smooth
  | pair (a b : K)
  | fn (f : Pt K → Pt K → Pt K → Pt K → List (Pt K))

/-- An entry of `corners`. -/
inductive FlexCorner (K : Type) where
  | natural | miter | bevel | round | smooth | bend
  | fn (f : Pt K → Pt K → Pt K → Pt K → Pt K → K → List (Pt K))

/-- A dictionary of polygons by layer and datatype, in insertion order. -/
abbrev PolyDict (K : Type) := List ((Int × Int) × List (Pgon K))

/-- path.py:312-362: the attributes of `FlexPath`. -/
structure Flex (K : Type) where
  points : List (Pt K)
  widths : List (List K)
  offsets : List (List K)
  n : Nat
  ends : List (FlexEnd K)
  corners : List (FlexCorner K)
  bendRadius : List (Option K)
  layers : List Int
  datatypes : List Int
  tolerance : K
  precision : K
  maxPoints : Nat
  gdsiiPath : Bool
  widthTransform : Bool
  cache : Option (PolyDict K)

/-- An argument that may be a list: one value for all paths or a list to cycle through. -/
inductive CycArg (α : Type) where
  | one (a : α)
  | list (l : List α)

/-- path.py:335-356: `[a[i % len(a)] for i in range(n)]`; `i % 0` raises ZeroDivisionError. -/
def CycArg.spread {α : Type} (n : Nat) : CycArg α → Py (List α)
  | .one a => .ok (List.replicate n a)
  | .list l => (List.range n).mapM fun i =>
      match l[i % l.length]? with
      | some a => .ok a
      | none => .error .zeroDivision

/-- The argument `points`: a list of points, or one point as a flat pair. -/
inductive PointsIn (K : Type) where
  | list (l : List (Pt K))
  | flat (p : Pt K)

/-- `self.points` (path.py:330-332). -/
def PointsIn.rows : PointsIn K → List (Pt K)
  | .list l => l
  | .flat p => [p]

/-- `len(points)` (path.py:333-334): a pair has length 2. -/
def PointsIn.len : PointsIn K → Nat
  | .list l => l.length
  | .flat _ => 2

/-- The arguments `width` and `offset` of the construction methods: None, a number, or a list. -/
inductive FArg (K : Type) where
  | none
  | num (x : K)
  | list (l : List K)

section Construct

variable [Field K]

/-- The arguments `width` and `offset` of the constructor, given once for all points (path.py:313-329): the number
of paths, their widths and their offsets. -/
def flexRows (width offset : CycArg K) : Nat × List K × List K :=
  match width, offset with
  | .list w, .list o => (w.length, w, o)
  | .list w, .one o => (w.length, w, (List.range w.length).map fun (i : Nat) => ((i : K) - ((w.length : K) - 1) / 2) * o)
  | .one w, .list o => (o.length, List.replicate o.length w, o)
  | .one w, .one o => (1, [w], [o])

/-- path.py:296-362 `__init__`. -/
def Flex.new (points : PointsIn K) (width offset : CycArg K) (corners : CycArg (FlexCorner K))
    (ends : CycArg (FlexEnd K)) (bendRadius : CycArg (Option K)) (tolerance precision : K) (maxPoints : Nat)
    (gdsiiPath widthTransform : Bool) (layer datatype : CycArg Int) : Py (Flex K) := do
  let r := flexRows width offset
  let ends ← ends.spread r.1
  let corners ← corners.spread r.1
  let bendRadius ← bendRadius.spread r.1
  let layers ← layer.spread r.1
  let datatypes ← datatype.spread r.1
  .ok
    { points := points.rows
      widths := List.replicate points.len r.2.1
      offsets := List.replicate points.len r.2.2
      n := r.1
      ends, corners, bendRadius, layers, datatypes
      tolerance, precision, maxPoints, gdsiiPath, widthTransform
      cache := none }

/-- `self.points[-1]`. -/
def Flex.tip (f : Flex K) : Pt K := f.points.getLastD (0, 0)

/-- The last row of an array. -/
def lastRow (rows : List (List K)) : List K := rows.getLastD []

/-- `numpy.vstack((rows, new))`: ValueError if the numbers of columns differ. -/
def vstackRows (rows new : List (List K)) : Py (List (List K)) :=
  if new.all (fun r => r.length = (lastRow rows).length) then .ok (rows ++ new) else .error .valueError

/-- An operation on two one-dimensional arrays, with broadcasting. -/
def bcast2 (g : K → K → K) (a b : List K) : Py (List K) :=
  if a.length = b.length then .ok (List.zipWith g a b)
  else match a, b with
    | [x], b => .ok (b.map (g x))
    | a, [y] => .ok (a.map fun x => g x y)
    | _, _ => .error .valueError

/-- path.py:1345-1350: the new row of `widths`. -/
def segWidth (f : Flex K) (width : FArg K) : List K :=
  if f.gdsiiPath then lastRow f.widths
  else match width with
    | .none => lastRow f.widths
    | .list l => l
    | .num x => List.replicate f.n x

/-- path.py:1351-1356: the new row of `offsets`. -/
def segOffset (f : Flex K) (offset : FArg K) : List K :=
  match offset with
  | .none => lastRow f.offsets
  | .list l => l
  | .num x => (lastRow f.offsets).map (· + x)

/-- path.py:1306-1357 `segment`. -/
def Flex.segment (endPt : Pt K) (width offset : FArg K) (relative : Bool) (f : Flex K) : Out (Flex K) :=
  let p := if relative then (f.tip.1 + endPt.1, f.tip.2 + endPt.2) else endPt
  let f := { f with cache := none, points := f.points ++ [p] }
  match vstackRows f.widths [segWidth f width] with
  | .error e => (f, some e)
  | .ok ws =>
    let f := { f with widths := ws }
    match vstackRows f.offsets [segOffset f offset] with
    | .error e => (f, some e)
    | .ok os => ({ f with offsets := os }, none)

/-- path.py:1420-1426 (also 1427-1436, 1556-1572): the rows for `k` new points, from the last row to `target`:
constant if the argument is None, linear in the index otherwise. -/
def taperRows (const : Bool) (last target : List K) (k : Nat) : Py (List (List K)) :=
  if const then .ok (List.replicate k target)
  else ((linspace (0 : K) 1 (k + 1)).drop 1).mapM fun u => bcast2 (fun a b => (1 - u) * a + u * b) last target

/-- Is the argument None? -/
def FArg.isNone : FArg K → Bool
  | .none => true
  | _ => false

/-- path.py:1390-1397, 1519-1526: the final widths; None if `gdsii_path`. -/
def Flex.finalWidth (f : Flex K) (width : FArg K) : List K :=
  match width with
  | .none => lastRow f.widths
  | .list l => l
  | .num x => List.replicate f.n x

/-- path.py:1398-1403, 1527-1532: the final offsets. -/
def Flex.finalOffset (f : Flex K) (offset : FArg K) : List K :=
  match offset with
  | .none => lastRow f.offsets
  | .list l => l
  | .num x => (lastRow f.offsets).map (· + x)

/-- `if self.gdsii_path: width = None`. -/
def Flex.widthArg (f : Flex K) (width : FArg K) : FArg K := if f.gdsiiPath then .none else width

/-- path.py:1419-1436, 1553-1572: the new points, then the new rows of `widths`, then those of `offsets`. `width` is
None here if `gdsii_path`. -/
def Flex.extend (new : List (Pt K)) (width offset : FArg K) (f : Flex K) : Out (Flex K) :=
  let wid := f.finalWidth width
  let off := f.finalOffset offset
  let g := { f with points := f.points ++ new }
  match taperRows width.isNone (lastRow f.widths) wid new.length >>= vstackRows f.widths with
  | .error e => (g, some e)
  | .ok ws =>
    let g := { g with widths := ws }
    match taperRows offset.isNone (lastRow f.offsets) off new.length >>= vstackRows f.offsets with
    | .error e => (g, some e)
    | .ok os => ({ g with offsets := os }, none)

/-- path.py:1177-1195 `translate`. -/
def Flex.translate (dx dy : K) (f : Flex K) : Flex K :=
  { f with cache := none, points := f.points.map fun p => (p.1 + dx, p.2 + dy) }

/-- path.py:1197-1219 `rotate`. -/
def Flex.rotate (t : Num K) (angle : K) (center : Pt K) (f : Flex K) : Flex K :=
  { f with cache := none, points := f.points.map (spinPt (t.cos angle) (t.sin angle) center) }

/-- path.py:1249-1250: only tuples are scaled. -/
def FlexEnd.scale (s : K) : FlexEnd K → FlexEnd K
  | .pair a b => .pair (a * s) (b * s)
  | e => e

/-- path.py:1221-1251 `scale`. -/
def Flex.scale (s : K) (center : Pt K) (f : Flex K) : Flex K :=
  { f with
    cache := none
    points := f.points.map fun p => (p.1 * s + center.1 * (1 - s), p.2 * s + center.2 * (1 - s))
    widths := if f.widthTransform || !f.gdsiiPath then f.widths.map (List.map (· * s)) else f.widths
    offsets := f.offsets.map (List.map (· * s))
    ends := f.ends.map (FlexEnd.scale s) }

/-- path.py:1282-1303: the image of a point under `transform`. -/
def transformPt (t : Num K) (translation : Option (Pt K)) (rotation scale : Option K) (xrefl : Bool)
    (arrayTrans : Option (Pt K)) (p : Pt K) : Pt K :=
  let tr := translation.getD (0, 0)
  let at0 := arrayTrans.getD (0, 0)
  let c0 := match rotation with | none => 1 | some a => t.cos a
  let sn := match rotation with | none => ((0 : K), (0 : K)) | some a => (t.sin a * -1, t.sin a * 1)
  let at1 := match scale with | none => at0 | some s => (at0.1 / s, at0.2 / s)
  let c := match scale with | none => (c0, c0) | some s => (c0 * s, c0 * s)
  let sn := match scale with | none => sn | some s => (sn.1 * s, sn.2 * s)
  let c := if xrefl then (c.1, -c.2) else c
  let sn := if xrefl then (-sn.1, sn.2) else sn
  let x := p.1 + at1.1
  let y := p.2 + at1.2
  (x * c.1 + y * sn.1 + tr.1, y * c.2 + x * sn.2 + tr.2)

/-- path.py:1253-1304 `transform`: `ends` are left as they are, and so is the sign of the offsets. -/
def Flex.transform (t : Num K) (translation : Option (Pt K)) (rotation scale : Option K) (xrefl : Bool)
    (arrayTrans : Option (Pt K)) (f : Flex K) : Flex K :=
  { f with
    cache := none
    points := f.points.map (transformPt t translation rotation scale xrefl arrayTrans)
    widths := match scale with
      | none => f.widths
      | some s => if f.widthTransform || !f.gdsiiPath then f.widths.map (List.map (· * s)) else f.widths
    offsets := match scale with
      | none => f.offsets
      | some s => f.offsets.map (List.map (· * s)) }

end Construct

section Order

variable [Field K] [LinearOrder K] [FloorRing K]

/-- `int(0.5 * angle / numpy.arccos(1 - tolerance / r) + 0.5)` where `r` is a numpy number, so that a division by
zero gives `nan` in the end and `int` raises ValueError. -/
def flexSteps (t : Num K) (angle tolerance r : K) : Py Int :=
  if r = 0 then .error .valueError else arcSteps t angle tolerance r

/-- path.py:1404-1416: the number of points of an arc. -/
def Flex.arcPoints (t : Num K) (radius ia fa : K) (width offset : FArg K) (f : Flex K) : Py Nat := do
  let m0 ← bcast2 (· + ·) (lastRow f.offsets) (lastRow f.widths) >>= pyMax
  let m1 ← bcast2 (· + ·) (f.finalOffset offset) (f.finalWidth width) >>= pyMax
  let s ← flexSteps t |fa - ia| f.tolerance (radius + max m0 m1)
  .ok (max 3 (1 + s)).toNat

/-- path.py:1359-1437 `arc`. -/
def Flex.arc (t : Num K) (radius ia fa : K) (width offset : FArg K) (f : Flex K) : Out (Flex K) :=
  let f := { f with cache := none }
  let width := f.widthArg width
  match f.arcPoints t radius ia fa width offset with
  | .error e => (f, some e)
  | .ok np =>
    let pts := (linspace ia fa np).map fun a => (radius * t.cos a, radius * t.sin a)
    let o := pts.headD (0, 0)
    Flex.extend ((pts.drop 1).map fun p => (p.1 + (f.tip.1 - o.1), p.2 + (f.tip.2 - o.2))) width offset f

/-- path.py:45: `_angle_dict.get(angle, angle)`. -/
def TurnArg.value (t : Num K) : TurnArg K → K
  | .l => t.halfpi
  | .r => -t.halfpi
  | .ll => 2 * t.halfpi
  | .rr => -(2 * t.halfpi)
  | .num a => a

/-- path.py:1439-1483 `turn`. -/
def Flex.turn (t : Num K) (radius : K) (angle : TurnArg K) (width offset : FArg K) (f : Flex K) : Out (Flex K) :=
  let f := { f with cache := none }
  match f.points.reverse with
  | p :: q :: _ =>
    let a := angle.value t
    let ia := t.atan2 (p.2 - q.2) (p.1 - q.1) + (if a < 0 then t.halfpi else -t.halfpi)
    Flex.arc t radius ia (ia + a) width offset f
  | _ => (f, some .valueError)

/-- path.py:1485-1573 `parametric`. -/
def Flex.parametric (fuel : Nat) (c : K → Pt K) (width offset : FArg K) (relative : Bool) (f : Flex K) :
    Out (Flex K) :=
  let f := { f with cache := none }
  match subLoop c (f.tolerance ^ 2) none fuel [] (0, c 0) [(1, c 1)] with
  | none => (f, some .unmodelled)
  | some samples =>
    let pts := (samples.map Prod.snd).drop 1
    Flex.extend (if relative then pts.map fun p => (p.1 + f.tip.1, p.2 + f.tip.2) else pts)
      (f.widthArg width) offset f

/-- path.py:1611-1614, 1700-1703: the given points with the last point of the path before them. -/
def Flex.ctrl (points : List (Pt K)) (relative : Bool) (f : Flex K) : List (Pt K) :=
  if relative then ((0, 0) :: points).map fun p => (f.tip.1 + p.1, f.tip.2 + p.2) else f.tip :: points

/-- path.py:1575-1616 `bezier`. `vstack` with an empty list raises ValueError. -/
def Flex.bezier (fuel : Nat) (points : List (Pt K)) (width offset : FArg K) (relative : Bool) (f : Flex K) :
    Out (Flex K) :=
  let f := { f with cache := none }
  if points = [] then (f, some .valueError)
  else Flex.parametric fuel (funcBezier (f.ctrl points relative)) width offset false f

/-- path.py:1706: the arguments of the calls of `bezier`. -/
def smoothPieces (pts cta ctb : List (Pt K)) (cycle : Bool) : Py (List (List (Pt K))) := do
  let l ← (List.range (pts.length - 1)).mapM fun i => do
    let a ← idx cta i
    let b ← idx ctb i
    let c ← idx pts (i + 1)
    pure [a, b, c]
  if cycle then
    let a ← idx cta (cta.length - 1)
    let b ← idx ctb (ctb.length - 1)
    let c ← idx pts 0
    pure (l ++ [[a, b, c]])
  else pure l

/-- path.py:1618-1709 `smooth`. The control points of `_hobby` are given; too few of them raise IndexError (here
before the first piece is added; `_hobby` never returns too few). -/
def Flex.smooth (fuel : Nat) (hobby : Hobby K) (points : List (Pt K)) (cycle : Bool) (width offset : FArg K)
    (relative : Bool) (f : Flex K) : Out (Flex K) :=
  if points = [] then (f, some .valueError)
  else
    match hobby (f.ctrl points relative) with
    | .error e => (f, some e)
    | .ok (cta, ctb) =>
      match smoothPieces (f.ctrl points relative) cta ctb cycle with
      | .error e => (f, some e)
      | .ok l => forOut (fun g p => Flex.bezier fuel p width offset false g) f l

end Order

/-! ## get_polygons -/

section Polygons

variable [Field K] [LinearOrder K] [FloorRing K]

/-- What `get_polygons` calls: numpy functions, `_hobby(points, angles)` for two points (the two control points),
`clipper._chop` with the scaling `1 / precision`, and the fuel of the loops. -/
structure FlexCtx (K : Type) where
  num : Num K
  hobby : Pt K → Pt K → K → K → Py (Pt K × Pt K)
  chop : K → Slicer K
  fuel : Nat

def padd (p q : Pt K) : Pt K := (p.1 + q.1, p.2 + q.2)
def psub (p q : Pt K) : Pt K := (p.1 - q.1, p.2 - q.2)
def psmul (c : K) (p : Pt K) : Pt K := (c * p.1, c * p.2)
def pneg (p : Pt K) : Pt K := (-p.1, -p.2)

/-- `v[0] ** 2 + v[1] ** 2`. -/
def normSq (v : Pt K) : K := v.1 ^ 2 + v.2 ^ 2

/-- path.py:584-593: the indices kept: the first, and every point that differs from the one before it. `rows` are
points with their widths and offsets. -/
def dedupFrom {α : Type} (prev : Pt K) : List (Pt K × α) → List (Pt K × α)
  | [] => []
  | x :: r => if x.1 = prev then dedupFrom x.1 r else x :: dedupFrom x.1 r

def dedupRows {α : Type} : List (Pt K × α) → List (Pt K × α)
  | [] => []
  | x :: r => x :: dedupFrom x.1 r

/-- path.py:586-593. Rows beyond the number of points (see `PointsIn.flat`) are dropped if any point is; if there are
fewer rows than points (after a call that raised) numpy raises IndexError, which is left out. -/
def Flex.dedup (f : Flex K) : Flex K :=
  if (dedupRows (f.points.map fun p => (p, ()))).length = f.points.length then f
  else
    let kept := dedupRows (List.zip f.points (List.zip f.widths f.offsets))
    { f with
      points := kept.map Prod.fst
      widths := kept.map fun x => x.2.1
      offsets := kept.map fun x => x.2.2 }

/-- `array[:, k]`. -/
def column (rows : List (List K)) (k : Nat) : Py (List K) := rows.mapM fun r => idx r k

/-- path.py:584-594 with 600-601: the sides of the spine moved by the offsets: `sa` and `sb`. -/
def offsetLegs (t : Num K) : List (Pt K × K) → List (Pt K × Pt K)
  | p :: q :: r =>
    let un := unitNormal t (psub q.1 p.1)
    (padd p.1 (psmul p.2 un), padd q.1 (psmul q.2 un)) :: offsetLegs t (q :: r)
  | _ => []

/-- `v[1:, 0] * v[:-1, 1] - ...`: the determinant of two vectors. -/
def vcross (a b : Pt K) : K := a.1 * b.2 - a.2 * b.1

/-- path.py:602-622: where two moved sides meet; parallel sides: half way between their ends. -/
def legJoin (x y : Pt K × Pt K) : Pt K :=
  let v := psub x.2 x.1
  let v' := psub y.2 y.1
  let den := vcross v' v
  if den ^ 2 < 1 / 10 ^ 12 * normSq v' * normSq v then ((y.1.1 + x.2.1) / 2, (y.1.2 + x.2.2) / 2)
  else
    let ds := psub x.2 y.1
    padd x.2 (psmul ((v'.2 * ds.1 - v'.1 * ds.2) / den) v)

/-- Consecutive sides joined, and the end of the last one. -/
def joinLegs : List (Pt K × Pt K) → List (Pt K)
  | x :: y :: r => legJoin x y :: joinLegs (y :: r)
  | [x] => [x.2]
  | [] => []

/-- path.py:598-626: the spine of path `k`. With one point, `sa[0]` raises IndexError. -/
def offsetSpine (t : Num K) (points : List (Pt K)) (offs : List K) : Py (List (Pt K)) :=
  if offs.all (fun o => o = 0) then .ok points
  else match offsetLegs t (List.zip points offs) with
    | [] => .error .indexError
    | x :: r => .ok (x.1 :: joinLegs (x :: r))

/-- A corner of one side of a path: the end `p0` of one edge with direction `v0`, the beginning `p1` of the next with
direction `v1`, the spine point and half the width there. -/
structure FlexJoint (K : Type) where
  p0 : Pt K
  v0 : Pt K
  p1 : Pt K
  v1 : Pt K
  spine : Pt K
  halfW : K

/-- path.py:639-643: the edges of one side (`sign` is -1 or 1), with the spine point and half width at their ends. -/
structure FlexEdge (K : Type) where
  pa : Pt K
  pb : Pt K
  spine : Pt K
  halfW : K

def flexEdges (t : Num K) (sign : K) : List (Pt K × K) → List (FlexEdge K)
  | p :: q :: r =>
    let vn := unitNormal t (psub q.1 p.1)
    ⟨padd p.1 (psmul (sign * (p.2 / 2)) vn), padd q.1 (psmul (sign * (q.2 / 2)) vn), q.1, q.2 / 2⟩ ::
      flexEdges t sign (q :: r)
  | _ => []

/-- path.py:646-651. -/
def flexJoints : List (FlexEdge K) → List (FlexJoint K)
  | x :: y :: r =>
    ⟨x.pb, psub x.pb x.pa, y.pa, psub y.pb y.pa, x.spine, x.halfW⟩ :: flexJoints (y :: r)
  | _ => []

/-- The middle of two points. -/
def halfway (p q : Pt K) : Pt K := ((p.1 + q.1) / 2, (p.2 + q.2) / 2)

/-- path.py:660-664, 734-738: `u0`, `u1` and the crossing point of the lines `p0 + u v0`, `p1 + u v1`. -/
def lineCross (p0 v0 p1 v1 : Pt K) : K × K × Pt K :=
  let den := v1.2 * v0.1 - v1.1 * v0.2
  let dx := p1.1 - p0.1
  let dy := p1.2 - p0.2
  let u0 := (v1.2 * dx - v1.1 * dy) / den
  let u1 := (v0.2 * dx - v0.1 * dy) / den
  (u0, u1, halfway (padd p0 (psmul u0 v0)) (padd p1 (psmul u1 v1)))

/-- path.py:652-674: a natural corner. -/
def naturalCorner (t : Num K) (j : FlexJoint K) : List (Pt K) :=
  let v0 := psmul (j.halfW / t.sqrt (normSq j.v0)) j.v0
  let v1 := psmul (j.halfW / t.sqrt (normSq j.v1)) j.v1
  let den := v1.2 * v0.1 - v1.1 * v0.2
  let c := if den ^ 2 < 1 / 10 ^ 12 * j.halfW ^ 4 then (0, 0, halfway j.p0 j.p1)
    else lineCross j.p0 v0 j.p1 v1
  if c.1 < 0 ∧ 0 < c.2.1 then [c.2.2]
  else if c.1 ≤ 1 ∧ -1 ≤ c.2.1 then
    [halfway (padd j.p0 (psmul (min 1 c.1) v0)) (padd j.p1 (psmul (max (-1) c.2.1) v1))]
  else [padd j.p0 (psmul (min 1 c.1) v0), padd j.p1 (psmul (max (-1) c.2.1) v1)]

/-- path.py:681-691, 747-757: the angles of the normals before and after a corner. -/
def cornerAngles (t : Num K) (left : Bool) (v0 v1 : Pt K) : K × K :=
  let a0 := if left then t.atan2 (-v0.1) v0.2 else t.atan2 v0.1 (-v0.2)
  let a1 := if left then t.atan2 (-v1.1) v1.2 else t.atan2 v1.1 (-v1.2)
  if |a1 - a0| > 2 * t.halfpi then
    if a0 < a1 then (a0 + 2 * (2 * t.halfpi), a1) else (a0, a1 + 2 * (2 * t.halfpi))
  else (a0, a1)

/-- Points of a circle about the origin, at `k` angles from `a0` to `a1`. -/
def arcAround (t : Num K) (r a0 a1 : K) (k : Nat) : List (Pt K) :=
  (linspace a0 a1 k).map fun a => (r * t.cos a, r * t.sin a)

/-- path.py:675-718: a circular bend. `None - half_w` raises TypeError. -/
def bendCorner (t : Num K) (tolerance : K) (radius : Option K) (j : FlexJoint K) : Py (List (Pt K)) :=
  let v2 := psub j.p0 j.spine
  let direction := vcross j.v0 j.v1
  if direction = 0 then .ok [halfway j.p0 j.p1]
  else match radius with
    | none => .error .typeError
    | some br => do
      let a := cornerAngles t (decide (direction > 0)) j.v0 j.v1
      let r := if direction * vcross j.v0 v2 > 0 then br - j.halfW else br + j.halfW
      let da := |a.2 - a.1| / 2
      let d := br * (t.sin da / t.cos da) / t.sqrt (normSq j.v0)
      let s ← flexSteps t |a.2 - a.1| tolerance r
      let pts := arcAround t r a.1 a.2 (max 2 (1 + s)).toNat
      .ok (pts.map fun p => psub (padd (psub p (pts.headD (0, 0))) j.p0) (psmul d j.v0))

/-- path.py:445-461 (and the same loop wherever a cubic curve is sampled): the curve from `p` to `q` with the control
points of `_hobby`, refined at midpoints. -/
def hobbyCap (ctx : FlexCtx K) (tolerance : K) (p q : Pt K) (a b : K) : Py (List (Pt K)) := do
  let c ← ctx.hobby p q a b
  match midSample (funcBezier [p, c.1, c.2, q]) (tolerance ^ 2) ctx.fuel [0, 1] 0 with
  | none => .error .unmodelled
  | some r => .ok (r.1.map Prod.snd)

/-- path.py:723-801: the other corners. -/
def flexCorner (ctx : FlexCtx K) (tolerance : K) (radius : Option K) (corner : FlexCorner K) (j : FlexJoint K) :
    Py (List (Pt K)) :=
  match corner with
  | .natural => .ok (naturalCorner ctx.num j)
  | .bend => bendCorner ctx.num tolerance radius j
  | .fn f => .ok (f j.p0 j.v0 j.p1 j.v1 j.spine (2 * j.halfW))
  | corner =>
    let den := j.v1.2 * j.v0.1 - j.v1.1 * j.v0.2
    let c := if den ^ 2 < 1 / 10 ^ 12 * normSq j.v0 * normSq j.v1 then (0, 0, halfway j.p0 j.p1)
      else lineCross j.p0 j.v0 j.p1 j.v1
    match corner with
    | .miter => .ok [c.2.2]
    | corner =>
      if c.1 ≤ 0 ∧ 0 ≤ c.2.1 then .ok [c.2.2]
      else match corner with
        | .bevel => .ok [j.p0, j.p1]
        | .round => do
          let a := cornerAngles ctx.num (decide (j.v0.2 * j.v1.1 - j.v0.1 * j.v1.2 < 0)) j.v0 j.v1
          let s ← flexSteps ctx.num |a.2 - a.1| tolerance j.halfW
          .ok ((arcAround ctx.num j.halfW a.1 a.2 (max 4 (1 + s)).toNat).map (padd j.spine))
        | _ => hobbyCap ctx tolerance j.p0 j.p1 (ctx.num.atan2 j.v0.2 j.v0.1) (ctx.num.atan2 j.v1.2 j.v1.1)

/-- path.py:646-801: one side of a path. -/
def flexArm (ctx : FlexCtx K) (tolerance : K) (radius : Option K) (corner : FlexCorner K) (edges : List (FlexEdge K)) :
    Py (List (Pt K)) := do
  let l ← (flexJoints edges).mapM (flexCorner ctx tolerance radius corner)
  .ok l.flatten

/-- path.py:840-858 (also 481-516): the points of a round cap about `p` with outward direction `v`, from the side
`sign` (-1: from +90 to -90 degrees). -/
def roundCap (t : Num K) (tolerance : K) (p v : Pt K) (r sign : K) : Py (List (Pt K)) := do
  let s ← flexSteps t (2 * t.halfpi) tolerance r
  .ok ((linspace (-t.halfpi) t.halfpi (max 5 (1 + s)).toNat).map fun a =>
    padd p (psmul r (t.cos (sign * a + t.atan2 v.2 v.1), t.sin (sign * a + t.atan2 v.2 v.1))))

/-- path.py:802-870: the cap at one end. `q0`, `q1` are its two corners, `b0`, `b1` the neighbouring points on the two
sides (none if there are none: IndexError), `p` the end of the spine, `v` the outward direction, `sign` -1 at the
beginning and 1 at the end, `ext` the extension for this end. -/
def flexCap (ctx : FlexCtx K) (tolerance : K) (fin : FlexEnd K) (q0 q1 : Pt K) (b0 b1 : Option (Pt K)) (p v : Pt K)
    (width sign : K) (ext : K × K → K) : Py (List (Pt K)) :=
  let straight (d : K) : List (Pt K) :=
    let u := psmul (1 / ctx.num.sqrt (normSq v)) v
    let w : Pt K := (sign * u.2 * 1, sign * u.1 * -1)
    let r := width / 2
    [padd p (psmul r w), padd (padd p (psmul r w)) (psmul d u), padd (psub p (psmul r w)) (psmul d u),
     psub p (psmul r w)]
  match fin with
  | .flush => .ok [q0, q1]
  | .extended => .ok (straight (width / 2))
  | .pair a b => .ok (straight (ext (a, b)))
  | .round => roundCap ctx.num tolerance p v (width / 2) sign
  | .smooth =>
    match b0, b1 with
    | some b0, some b1 =>
      hobbyCap ctx tolerance q0 q1 (ctx.num.atan2 (q0.2 - b0.2) (q0.1 - b0.1))
        (ctx.num.atan2 (b1.2 - q1.2) (b1.1 - q1.1))
    | _, _ => .error .indexError
  | .fn f =>
    match b0, b1 with
    | some b0, some b1 => .ok (f q0 (psub q0 b0) q1 (psub b1 q1))
    | _, _ => .error .indexError

/-- path.py:627-875: the outline of one path from its spine `pts` and its widths. -/
def flexOutline (ctx : FlexCtx K) (tolerance : K) (radius : Option K) (corner : FlexCorner K) (fin : FlexEnd K)
    (pts : List (Pt K)) (ws : List K) : Py (Pgon K) :=
  let e0 := flexEdges ctx.num (-1) (List.zip pts ws)
  let e1 := flexEdges ctx.num 1 (List.zip pts ws)
  match e0.head?, e1.head?, e0.getLast?, e1.getLast?, pts, pts.reverse with
  | some a0, some a1, some z0, some z1, s0 :: s1 :: _, r0 :: r1 :: _ => do
    let arm0 ← flexArm ctx tolerance radius corner e0
    let arm1 ← flexArm ctx tolerance radius corner e1
    let cap0 ← flexCap ctx tolerance fin a0.pa a1.pa arm0.head? arm1.head? s0 (psub s0 s1) (ws.headD 0) (-1) Prod.fst
    let cap1 ← flexCap ctx tolerance fin z0.pb z1.pb arm0.getLast? arm1.getLast? r0 (psub r0 r1) (ws.getLastD 0) 1
      Prod.snd
    .ok (cap0.reverse ++ arm0 ++ cap1 ++ arm1.reverse)
  | _, _, _, _, _, _ => .error .indexError

/-- path.py:409-543: the outline of one path with two points. -/
def twoOutline (ctx : FlexCtx K) (tolerance : K) (fin : FlexEnd K) (p q : Pt K) (o0 o1 w0 w1 : K) : Py (Pgon K) :=
  let t := ctx.num
  let un := unitNormal t (psub q p)
  let a := padd p (psmul o0 un)
  let b := padd q (psmul o1 un)
  let vn := unitNormal t (psub b a)
  let x0 := psub a (psmul (w0 / 2) vn)
  let x1 := padd a (psmul (w0 / 2) vn)
  let x2 := padd b (psmul (w1 / 2) vn)
  let x3 := psub b (psmul (w1 / 2) vn)
  let v := psub b a
  let v0 := psub x3 x0
  let v1 := psub x2 x1
  let straight (d0 d1 : K) : Pgon K :=
    let u := psmul (1 / t.sqrt (normSq v)) v
    if w0 = w1 then [psub x0 (psmul d0 u), psub x1 (psmul d0 u), padd x2 (psmul d1 u), padd x3 (psmul d1 u)]
    else [x0, psub x0 (psmul d0 u), psub x1 (psmul d0 u), x1, x2, padd x2 (psmul d1 u), padd x3 (psmul d1 u), x3]
  match fin with
  | .flush => .ok [x0, x1, x2, x3]
  | .fn f => .ok ((f x0 (pneg v0) x1 v1).reverse ++ f x3 v0 x2 (pneg v1))
  | .smooth => do
    let s ← hobbyCap ctx tolerance x0 x1 (t.atan2 (-v0.2) (-v0.1)) (t.atan2 v1.2 v1.1)
    let e ← hobbyCap ctx tolerance x2 x3 (t.atan2 v1.2 v1.1) (t.atan2 (-v0.2) (-v0.1))
    .ok (s ++ e)
  | .round => do
    let s ← roundCap t tolerance a (pneg v) (w0 / 2) (-1)
    let e ← roundCap t tolerance b v (w1 / 2) (-1)
    .ok (s ++ e)
  | .extended => .ok (straight (w0 / 2) (w1 / 2))
  | .pair d0 d1 => .ok (straight d0 d1)

/-- path.py:544-576, 875-907: cut into pieces if there are too many vertices; the same loop as in
`PolygonSet.fracture`. -/
def flexPieces (ctx : FlexCtx K) (precision : K) (maxPoints : Nat) (poly : Pgon K) : Py (List (Pgon K)) := do
  match ← PolySet.fracture (ctx.chop (1 / precision)) ctx.fuel maxPoints ⟨[poly], [0], [0]⟩ with
  | none => .error .unmodelled
  | some ps => .ok ps.polygons

/-- path.py:577-581, 908-912. -/
def addDict (d : PolyDict K) (key : Int × Int) (polys : List (Pgon K)) : PolyDict K :=
  match d with
  | [] => [(key, polys)]
  | x :: r => if x.1 = key then (x.1, x.2 ++ polys) :: r else x :: addDict r key polys

/-- The polygons of path `k`, from what the branches compute. -/
def Flex.pathPolys (ctx : FlexCtx K) (f : Flex K) (outline : Nat → Py (Pgon K)) (d : PolyDict K) (k : Nat) :
    PolyDict K × Option PyErr :=
  match (do
    let poly ← outline k
    let polys ← flexPieces ctx f.precision f.maxPoints poly
    let l ← idx f.layers k
    let dt ← idx f.datatypes k
    pure ((l, dt), polys) : Py ((Int × Int) × List (Pgon K))) with
  | .error e => (d, some e)
  | .ok x => (addDict d x.1 x.2, none)

/-- path.py:415-543: the outline of path `k` with two points. -/
def Flex.twoOf (ctx : FlexCtx K) (f : Flex K) (k : Nat) : Py (Pgon K) := do
  let p ← idx f.points 0
  let q ← idx f.points 1
  let fin ← idx f.ends k
  let o0 ← idx f.offsets 0 >>= fun r => idx r k
  let o1 ← idx f.offsets 1 >>= fun r => idx r k
  let w0 ← idx f.widths 0 >>= fun r => idx r k
  let w1 ← idx f.widths 1 >>= fun r => idx r k
  twoOutline ctx f.tolerance fin p q o0 o1 w0 w1

/-- path.py:595-875: the outline of path `k` otherwise. If the numbers of rows and points differ, the products of
arrays raise ValueError. -/
def Flex.manyOf (ctx : FlexCtx K) (f : Flex K) (k : Nat) : Py (Pgon K) := do
  let corner ← idx f.corners k
  let fin ← idx f.ends k
  let radius ← idx f.bendRadius k
  let offs ← column f.offsets k
  let ws ← column f.widths k
  if f.points.length < 2 then .error .indexError
  else if f.widths.length ≠ f.points.length ∨ f.offsets.length ≠ f.points.length then .error .valueError
  else do
    let pts ← offsetSpine ctx.num f.points offs
    flexOutline ctx f.tolerance radius corner fin pts ws

/-- path.py:408-912: the object afterwards (its points without repetitions) and the dictionary with the exception. -/
def Flex.compute (ctx : FlexCtx K) (f : Flex K) : Flex K × PolyDict K × Option PyErr :=
  if f.points.length = 2 then
    match f.points with
    | [p, q] =>
      if p = q then (f, [], none)
      else (f, forOut (Flex.pathPolys ctx f (f.twoOf ctx)) [] (List.range f.n))
    | _ => (f, [], none)
  else
    let g := f.dedup
    (g, forOut (Flex.pathPolys ctx g (g.manyOf ctx)) [] (List.range g.n))

/-- path.py:390-916 `get_polygons(True)`: the object afterwards and the dictionary. The cache is set before the
polygons are computed, so an exception leaves what was computed until then. -/
def Flex.getPolygons (ctx : FlexCtx K) (f : Flex K) : Flex K × Py (PolyDict K) :=
  match f.cache with
  | some d => (f, .ok d)
  | none =>
    match f.compute ctx with
    | (g, d, none) => ({ g with cache := some d }, .ok d)
    | (g, d, some e) => ({ g with cache := some d }, .error e)

/-- path.py:916: `get_polygons(False)`. -/
def PolyDict.all (d : PolyDict K) : List (Pgon K) := d.flatMap Prod.snd

/-- path.py:934-938. -/
def PolyDict.toSet (d : PolyDict K) : PolySet K :=
  ⟨d.all, d.flatMap fun x => List.replicate x.2.length x.1.1, d.flatMap fun x => List.replicate x.2.length x.1.2⟩

/-- path.py:918-941 `to_polygonset`; None for fewer than two points. -/
def Flex.toPolygonset (ctx : FlexCtx K) (f : Flex K) : Flex K × Py (Option (PolySet K)) :=
  if f.points.length < 2 then (f, .ok none)
  else match f.getPolygons ctx with
    | (g, .error e) => (g, .error e)
    | (g, .ok d) => (g, do
      match ← (PolyDict.toSet d).fracture (ctx.chop (1 / f.precision)) ctx.fuel f.maxPoints with
      | none => .error .unmodelled
      | some ps => .ok (some ps))

/-- path.py:1156-1175 `area`; `None.area` raises AttributeError. -/
def Flex.area (ctx : FlexCtx K) (f : Flex K) : Flex K × Py K :=
  match f.toPolygonset ctx with
  | (g, .error e) => (g, .error e)
  | (g, .ok none) => (g, .error .attributeError)
  | (g, .ok (some ps)) => (g, .ok (ps.polygons.map polyArea).sum)

/-- A call of a method. `polygons` is `get_polygons`, with any argument. -/
inductive FlexOp (K : Type) where
  | segment (endPt : Pt K) (width offset : FArg K) (relative : Bool)
  | arc (radius ia fa : K) (width offset : FArg K)
  | turn (radius : K) (angle : TurnArg K) (width offset : FArg K)
  | parametric (c : K → Pt K) (width offset : FArg K) (relative : Bool)
  | bezier (points : List (Pt K)) (width offset : FArg K) (relative : Bool)
  | smooth (hobby : Hobby K) (points : List (Pt K)) (cycle : Bool) (width offset : FArg K) (relative : Bool)
  | translate (dx dy : K)
  | rotate (angle : K) (center : Pt K)
  | scale (s : K) (center : Pt K)
  | transform (translation : Option (Pt K)) (rotation scale : Option K) (xrefl : Bool) (arrayTrans : Option (Pt K))
  | polygons
  | polygonset
  | area

/-- The exception of a result. -/
def errOf {α : Type} : Py α → Option PyErr
  | .error e => some e
  | .ok _ => none

def Flex.run (ctx : FlexCtx K) (f : Flex K) : FlexOp K → Out (Flex K)
  | .segment p w o r => f.segment p w o r
  | .arc r ia fa w o => f.arc ctx.num r ia fa w o
  | .turn r a w o => f.turn ctx.num r a w o
  | .parametric c w o r => f.parametric ctx.fuel c w o r
  | .bezier p w o r => f.bezier ctx.fuel p w o r
  | .smooth h p c w o r => f.smooth ctx.fuel h p c w o r
  | .translate dx dy => (f.translate dx dy, none)
  | .rotate a c => (f.rotate ctx.num a c, none)
  | .scale s c => (f.scale s c, none)
  | .transform tr r s x a => (f.transform ctx.num tr r s x a, none)
  | .polygons => ((f.getPolygons ctx).1, errOf (f.getPolygons ctx).2)
  | .polygonset => ((f.toPolygonset ctx).1, errOf (f.toPolygonset ctx).2)
  | .area => ((f.area ctx).1, errOf (f.area ctx).2)

end Polygons

end Gdspy
