import Verif.Model.PolygonSet
import Verif.Model.Sampling
import Mathlib.Algebra.Order.Floor.Ring

/-!
# Path

Model of the class `Path` (polygon.py:1022-2038): construction, `segment`, `arc`, `turn`,
`parametric`, `bezier`, `smooth` and the transformations.

Coordinates are in a field, angles in radians. The numpy functions are given by a structure `Num`.
Methods change the object in place and may raise after some changes, so a call returns the object as
it is afterwards together with the exception, if any.

Not modelled: warnings, the deprecated use of a float as `number_of_points` (it is the same as
giving `tolerance`), directions that are strings other than the four documented ones, numbers of
paths or points that are negative.
-/

namespace Gdspy

variable {K : Type}

/-- The numpy functions used by paths. `acos` is `none` where numpy returns `nan`. -/
structure Num (K : Type) extends Trig K where
  halfpi : K
  sqrt : K → K
  atan2 : K → K → K
  acos : K → Option K

/-- `Path.direction`: one of the four strings or an angle. -/
inductive Dir (K : Type) where
  | px | py | mx | my
  | num (a : K)
  deriving DecidableEq

/-- polygon.py:1073-1084: the attributes of `Path` (properties are not modelled here). -/
structure PPath (K : Type) where
  x : K
  y : K
  w : K
  n : Nat
  direction : Dir K
  distance : K
  length : K
  polygons : List (Pgon K)
  layers : List Int
  datatypes : List Int
  deriving DecidableEq

/-- The object after a call, and the exception it raised. -/
abbrev Out (S : Type) := S × Option PyErr

/-- A loop whose body may raise. -/
def forOut {S α : Type} (f : S → α → Out S) : S → List α → Out S
  | s, [] => (s, none)
  | s, a :: l =>
    match f s a with
    | (s, some e) => (s, some e)
    | (s, none) => forOut f s l

/-- Arguments `layer` and `datatype`: a number or a list. -/
inductive LayerArg where
  | one (l : Int)
  | list (l : List Int)
  deriving DecidableEq

/-- polygon.py:1324-1327: `(layer * (n // len(layer) + 1))[:n]` or `n` copies. An empty list makes
`n // 0` raise. -/
def LayerArg.expand (n : Nat) : LayerArg → Py (List Int)
  | .one l => .ok (List.replicate n l)
  | .list [] => .error .zeroDivision
  | .list l => .ok (((List.replicate (n / l.length + 1) l).flatten).take n)

/-- polygon.py:1324-1335 (also 1483-1494, 1789-1799): `layers` is extended, then `datatypes`. -/
def PPath.tag (layer datatype : LayerArg) (p : PPath K) : Out (PPath K) :=
  match layer.expand p.n with
  | .error e => (p, some e)
  | .ok ls =>
    match datatype.expand p.n with
    | .error e => ({ p with layers := p.layers ++ ls }, some e)
    | .ok ds => ({ p with layers := p.layers ++ ls, datatypes := p.datatypes ++ ds }, none)

section Field

variable [Field K]

/-- polygon.py:1073-1084 `Path.__init__`. -/
def PPath.new (width : K) (initial : Pt K) (n : Nat) (distance : K) : PPath K :=
  ⟨initial.1, initial.2, width / 2, n, .px, distance, 0, [], [], []⟩

/-- polygon.py:1276-1290: cosine and sine of the direction, exact for the four strings. -/
def Dir.vec (t : Num K) : Dir K → K × K
  | .px => (1, 0)
  | .mx => (-1, 0)
  | .py => (0, 1)
  | .my => (0, -1)
  | .num a => (t.cos a, t.sin a)

/-- polygon.py:1576-1583: the angle of a direction, as set by `turn`. -/
def Dir.angle (t : Num K) : Dir K → K
  | .px => 0
  | .mx => 2 * t.halfpi
  | .py => t.halfpi
  | .my => -t.halfpi
  | .num a => a

/-- Is the direction one of the strings? -/
def Dir.isNamed : Dir K → Bool
  | .num _ => false
  | _ => true

/-- `ii * distance - (self.n - 1) * distance * 0.5`. -/
def laneOff (n ii : Nat) (distance : K) : K := (ii : K) * distance - ((n : K) - 1) * distance / 2

/-- polygon.py:1306-1322: the polygon of path `ii` of a segment. -/
def segPoly [DecidableEq K] (ca sa ox oy ow od x y w d : K) (n ii : Nat) : Pgon K :=
  let d0 := laneOff n ii d
  let od0 := laneOff n ii od
  let q : Pgon K :=
    [(ox + (od0 - ow) * sa, oy - (od0 - ow) * ca), (ox + (od0 + ow) * sa, oy - (od0 + ow) * ca),
     (x + (d0 + w) * sa, y - (d0 + w) * ca), (x + (d0 - w) * sa, y - (d0 - w) * ca)]
  let q := if w = 0 then q.dropLast else q
  if ow = 0 then q.drop 1 else q

/-- polygon.py:1229-1336 `segment`. -/
def PPath.segment [DecidableEq K] (t : Num K) (length : K) (direction : Option (Dir K))
    (finalWidth finalDistance : Option K) (axisOffset : K) (layer datatype : LayerArg)
    (p : PPath K) : Out (PPath K) :=
  let dir := direction.getD p.direction
  let ca := (dir.vec t).1
  let sa := (dir.vec t).2
  let q := { p with
    direction := dir
    x := p.x + (length * ca + axisOffset * sa)
    y := p.y + (length * sa - axisOffset * ca)
    w := (finalWidth.map (· / 2)).getD p.w
    distance := finalDistance.getD p.distance }
  if q.w ≠ 0 ∨ p.w ≠ 0 then
    PPath.tag layer datatype { q with
      polygons := p.polygons ++ (List.range p.n).map
        (segPoly ca sa p.x p.y p.w p.distance q.x q.y q.w q.distance p.n)
      length := p.length + t.sqrt (length ^ 2 + axisOffset ^ 2) }
  else (q, none)

/-- polygon.py:42: `_directions_dict[direction] * numpy.pi`. -/
def Dir.dictAngle (t : Num K) : Dir K → K
  | .px => 0 * (2 * t.halfpi)
  | .py => 1 / 2 * (2 * t.halfpi)
  | .mx => 1 * (2 * t.halfpi)
  | .my => -(1 / 2) * (2 * t.halfpi)
  | .num a => a

/-- polygon.py:1114-1134 `translate`. -/
def PPath.translate (dx dy : K) (p : PPath K) : PPath K :=
  { p with
    polygons := p.polygons.map (List.map fun q => (q.1 + dx, q.2 + dy))
    x := p.x + dx
    y := p.y + dy }

/-- polygon.py:1136-1164 `rotate`. -/
def PPath.rotate (t : Num K) (angle : K) (center : Pt K) (p : PPath K) : PPath K :=
  { p with
    direction := .num (p.direction.dictAngle t + angle)
    x := (spinPt (t.cos angle) (t.sin angle) center (p.x, p.y)).1
    y := (spinPt (t.cos angle) (t.sin angle) center (p.x, p.y)).2
    polygons := p.polygons.map (List.map (spinPt (t.cos angle) (t.sin angle) center)) }

/-- polygon.py:1166-1196 `scale`: `direction`, `distance` and `length` are left as they are. -/
def PPath.scale (sx : K) (sy : Option K) (center : Pt K) (p : PPath K) : PPath K :=
  { p with
    polygons := p.polygons.map (List.map (scaleAbout sx sy center))
    x := (p.x - center.1) * sx + center.1
    y := (p.y - center.2) * sy.getD sx + center.2
    w := p.w * sx }

/-- polygon.py:1198-1227 `mirror`. -/
def PPath.mirror (t : Num K) (p1 p2 : Pt K) (p : PPath K) : PPath K :=
  { p with
    polygons := p.polygons.map (List.map (mirrorPt p1 p2))
    x := (mirrorPt p1 p2 (p.x, p.y)).1
    y := (mirrorPt p1 p2 (p.x, p.y)).2
    direction := .num (2 * t.atan2 (p2.2 - p1.2) (p2.1 - p1.1) - p.direction.dictAngle t) }

end Field

section Arc

variable [Field K] [LinearOrder K] [FloorRing K]

/-- `int(x)` of a number: towards zero. -/
def truncInt (x : K) : Int := if 0 ≤ x then ⌊x⌋ else ⌈x⌉

/-- `int(round(x))`: nearest integer, ties to even. -/
def roundInt (x : K) : Int :=
  if x - ⌊x⌋ < 1 / 2 then ⌊x⌋
  else if 1 / 2 < x - ⌊x⌋ then ⌊x⌋ + 1
  else if ⌊x⌋ % 2 = 0 then ⌊x⌋ else ⌊x⌋ + 1

/-- `int(0.5 * angle / numpy.arccos(1 - tolerance / r) + 0.5)` (polygon.py:1431-1437, 769,
curve.py:278). `tolerance / 0` raises; `int(nan)` raises ValueError; the quotient by an arc cosine
of 0 is infinite and `int` raises OverflowError (`unmodelled`). -/
def arcSteps (t : Num K) (angle tolerance r : K) : Py Int :=
  if r = 0 then .error .zeroDivision
  else
    match t.acos (1 - tolerance / r) with
    | none => .error .valueError
    | some a => if a = 0 then .error .unmodelled else .ok (truncInt (angle / 2 / a + 1 / 2))

/-- polygon.py:1441-1445 and 774-778: `1 if max_points == 0 else ceil(N / max_points)`. -/
def pieceCount (n maxPoints : Nat) : Nat :=
  if maxPoints = 0 then 1 else (n + maxPoints - 1) / maxPoints

/-- A point at radius `r` and angle `a` (polygon.py:1464-1465). -/
def polarPt (t : Num K) (cx cy a r : K) : Pt K := (t.cos a * r + cx, t.sin a * r + cy)

/-- polygon.py:1452-1483: the polygon of path `ii` in one piece, with `n` paths and `m` vertices.
The points are written into an array of `m` rows: when the width at an end is zero, one of the two
coinciding points there is dropped from the outer side and the inner side gets one point more. If
there is no inner point, `rad[0]` raises IndexError, with the polygon already in the list. -/
def arcPoly (t : Num K) (cx cy radius : K) (n m ii : Nat) (w0 w1 d0 d1 a0 a1 : K) : Out (Pgon K) :=
  let r1 := radius + (ii : K) * d1 - ((n : K) - 1) * d1 / 2
  let r0 := radius + (ii : K) * d0 - ((n : K) - 1) * d0 / 2
  let pts2 := m / 2
  let pts1 := m - pts2
  let outer := List.zipWith (polarPt t cx cy) (linspace a0 a1 pts1) (linspace (r0 + w0) (r1 + w1) pts1)
  let outer' := if w1 = 0 then outer.dropLast else outer
  let outer' := if w0 = 0 then outer'.drop 1 else outer'
  let pts2 := pts2 + (if w1 = 0 then 1 else 0) + (if w0 = 0 then 1 else 0)
  if pts2 = 0 then (outer, some .indexError)
  else
    ((outer' ++ List.zipWith (polarPt t cx cy) (linspace a1 a0 pts2)
      (linspace (r1 - w1) (r0 - w0) pts2)).take m, none)

/-- polygon.py:1450-1494: one piece: the polygons of all paths, the length, the tags. -/
def PPath.arcPiece (t : Num K) (cx cy radius : K) (m : Nat) (widths distances angles : List K)
    (layer datatype : LayerArg) (p : PPath K) (jj : Nat) : Out (PPath K) :=
  let at' (l : List K) (i : Nat) : K := l.getD i 0
  match forOut (fun (q : PPath K) ii =>
      match arcPoly t cx cy radius p.n m ii (at' widths jj) (at' widths (jj + 1)) (at' distances jj)
        (at' distances (jj + 1)) (at' angles jj) (at' angles (jj + 1)) with
      | (pol, e) => ({ q with polygons := q.polygons ++ [pol] }, e)) p (List.range p.n) with
  | (q, some e) => (q, some e)
  | (q, none) =>
    PPath.tag layer datatype
      { q with length := q.length + |(at' angles (jj + 1) - at' angles jj) * radius| }

/-- polygon.py:1422-1440: the number of points of an arc. -/
def arcPoints (t : Num K) (radius ia fa tolerance : K) (numberOfPoints : Option Nat)
    (od d ow w : K) (n : Nat) : Py Nat :=
  match numberOfPoints with
  | some k => .ok k
  | none => do
    let s ← arcSteps t |fa - ia| tolerance (radius + max od d * ((n : K) - 1) / 2 + max ow w)
    .ok (max 6 (2 + 2 * s)).toNat

/-- polygon.py:1338-1495 `arc`. -/
def PPath.arc (t : Num K) (radius ia fa tolerance : K) (numberOfPoints : Option Nat)
    (maxPoints : Nat) (finalWidth finalDistance : Option K) (layer datatype : LayerArg)
    (p : PPath K) : Out (PPath K) :=
  let cx := p.x - radius * t.cos ia
  let cy := p.y - radius * t.sin ia
  let q := { p with
    x := cx + radius * t.cos fa
    y := cy + radius * t.sin fa
    direction := .num (if fa > ia then fa + t.halfpi else fa - t.halfpi)
    w := (finalWidth.map (· / 2)).getD p.w
    distance := finalDistance.getD p.distance }
  match arcPoints t radius ia fa tolerance numberOfPoints p.distance q.distance p.w q.w p.n with
  | .error e => (q, some e)
  | .ok N =>
    let pieces := pieceCount N maxPoints
    if pieces = 0 then (q, some .zeroDivision)
    else if q.w ≠ 0 ∨ p.w ≠ 0 then
      forOut (PPath.arcPiece t cx cy radius (N / pieces) (linspace p.w q.w (pieces + 1))
        (linspace p.distance q.distance (pieces + 1)) (linspace ia fa (pieces + 1)) layer datatype)
        q (List.range pieces)
    else (q, none)

/-- The argument `angle` of `turn`. -/
inductive TurnArg (K : Type) where
  | r | rr | l | ll
  | num (a : K)

/-- polygon.py:1557-1575: `delta_i`, `delta_f`, and `exact`. -/
def TurnArg.deltas (t : Num K) : TurnArg K → K × K × Bool
  | .r => (t.halfpi, 0, true)
  | .rr => (t.halfpi, -t.halfpi, true)
  | .l => (-t.halfpi, 0, true)
  | .ll => (-t.halfpi, t.halfpi, true)
  | .num a => if a < 0 then (t.halfpi, t.halfpi + a, false) else (-t.halfpi, -t.halfpi + a, false)

/-- polygon.py:43: `_directions_list`. -/
def dirOfIndex : Nat → Dir K
  | 0 => .px
  | 1 => .py
  | 2 => .mx
  | _ => .my

/-- polygon.py:1601: `_directions_list[int(round(self.direction / _halfpi)) % 4]`. -/
def Dir.snap (t : Num K) (d : Dir K) : Dir K :=
  dirOfIndex (roundInt (d.angle t / t.halfpi) % 4).toNat

/-- polygon.py:1497-1602 `turn`. -/
def PPath.turn (t : Num K) (radius : K) (angle : TurnArg K) (tolerance : K)
    (numberOfPoints : Option Nat) (maxPoints : Nat) (finalWidth finalDistance : Option K)
    (layer datatype : LayerArg) (p : PPath K) : Out (PPath K) :=
  let d := angle.deltas t
  let a := p.direction.angle t
  let exact := d.2.2 && p.direction.isNamed
  match PPath.arc t radius (a + d.1) (a + d.2.1) tolerance numberOfPoints maxPoints finalWidth
      finalDistance layer datatype { p with direction := .num a } with
  | (q, some e) => (q, some e)
  | (q, none) => (if exact then { q with direction := q.direction.snap t } else q, none)

end Arc

section Parametric

variable [Field K] [LinearOrder K]

/-- The arguments `final_width` and `final_distance` of `parametric`: None, a number or a function. -/
inductive FinArg (K : Type) where
  | none
  | num (a : K)
  | fn (f : K → K)

/-- polygon.py:1736-1755: the values at the sampled parameters, and the new attribute. `half` is the
factor 0.5 applied to widths (1 for distances). -/
def FinArg.values (half cur : K) (us : List K) : FinArg K → List K × K
  | .none => (us.map fun _ => cur, cur)
  | .num a => (us.map fun u => cur + (a * half - cur) * u, a * half)
  | .fn f => (us.map fun u => half * f u, (us.map fun u => half * f u).getLastD cur)

/-- polygon.py:1720-1734: the derivatives at the samples. With two samples and no derivative function
`vstack` is given an empty list and raises ValueError. -/
def paramDerivs (f : K → Pt K) (deriv : Option (K → Pt K)) (samples : List (K × Pt K)) (delta : K) :
    Py (List (Pt K)) :=
  match deriv with
  | some g => .ok (samples.map fun s => g s.1)
  | none =>
    match samples with
    | s0 :: s1 :: s2 :: rest =>
      let last := (s2 :: rest).getLastD s2
      .ok ((((f delta).1 - s0.2.1, (f delta).2 - s0.2.2) ::
        ((s1 :: s2 :: rest).dropLast.map fun s =>
          ((f (s.1 + delta)).1 - (f (s.1 - delta)).1, (f (s.1 + delta)).2 - (f (s.1 - delta)).2))) ++
        [(last.2.1 - (f (1 - delta)).1, last.2.2 - (f (1 - delta)).2)])
    | _ => .error .valueError

/-- One sampled cross-section: the point, the unit normal, the half width and the distance. -/
structure Section (K : Type) where
  pt : Pt K
  nrm : Pt K
  wid : K
  dist : K

/-- polygon.py:1763-1767: `derivs[:, ::-1] * (-1, 1) / norm`. (Where the derivative vanishes numpy
divides by zero and the result is not a number; in a field it is 0.) -/
def unitNormal (t : Num K) (v : Pt K) : Pt K :=
  let r := t.sqrt (v.1 ^ 2 + v.2 ^ 2)
  (v.2 * -1 / r, v.1 * 1 / r)

/-- polygon.py:1783-1797: the polygon of path `ii` over the samples `l[i0:i1]`. -/
def sectionPoly (n ii : Nat) (l : List (Section K)) : Pgon K :=
  let lane (s : Section K) : K := s.dist * ((ii : K) - ((n : K) - 1) / 2)
  let p1 := l.map fun s => (s.pt.1 + s.nrm.1 * (lane s + s.wid), s.pt.2 + s.nrm.2 * (lane s + s.wid))
  let p2 := (l.map fun s =>
    (s.pt.1 + s.nrm.1 * (lane s - s.wid), s.pt.2 + s.nrm.2 * (lane s - s.wid))).reverse
  let p2 := if (l.getLast?.map Section.wid) = some 0 then p2.drop 1 else p2
  let p1 := if (l.head?.map Section.wid) = some 0 then p1.drop 1 else p1
  p1 ++ p2

/-- polygon.py:1779-1800: `while i0 < np - 1`: pieces of at most `k` samples, each beginning with the
last sample of the one before. `l` are the samples from `i0` on. The fuel is the number of samples. -/
def PPath.sections (k : Nat) (layer datatype : LayerArg) :
    Nat → List (Section K) → PPath K → Out (PPath K)
  | 0, _, p => (p, none)
  | fuel + 1, l, p =>
    if 1 < l.length then
      let i1 := min k l.length
      match PPath.tag layer datatype { p with
          polygons := p.polygons ++ (List.range p.n).map fun ii => sectionPoly p.n ii (l.take i1) } with
      | (q, some e) => (q, some e)
      | (q, none) => PPath.sections k layer datatype fuel (l.drop (i1 - 1)) q
    else (p, none)

/-- polygon.py:1604-1801 `parametric`. `fuel` bounds the sampling loop (which need not end for a
function that is not continuous): `unmodelled` when it is used up. `points[1]` with fewer than two
evaluations raises IndexError. -/
def PPath.parametric (t : Num K) (fuel : Nat) (f : K → Pt K) (deriv : Option (K → Pt K))
    (tolerance : K) (evals maxPoints : Nat) (finalWidth finalDistance : FinArg K) (relative : Bool)
    (layer datatype : LayerArg) (p : PPath K) : Out (PPath K) :=
  if evals < 2 then (p, some .indexError)
  else
    let us : List K := linspace 0 1 evals
    match midSample f (tolerance ^ 2) fuel us (us.getD 1 0) with
    | none => (p, some .unmodelled)
    | some (samples, delta) =>
      let vals := samples.map Prod.snd
      let p := { p with length := p.length +
        (List.zipWith (fun (a b : Pt K) => t.sqrt ((b.1 - a.1) ^ 2 + (b.2 - a.2) ^ 2))
          vals (vals.drop 1)).sum }
      match paramDerivs f deriv samples (delta / 2) with
      | .error e => (p, some e)
      | .ok derivs =>
        let ws := finalWidth.values (1 / 2) p.w (samples.map Prod.fst)
        let ds := finalDistance.values 1 p.distance (samples.map Prod.fst)
        let x0 := if relative then vals.map fun v => (v.1 + p.x, v.2 + p.y) else vals
        let dx := derivs.map (unitNormal t)
        let endPt := x0.getLastD (0, 0)
        let endN := dx.getLastD (0, 0)
        let secs := List.zipWith (fun (a : Pt K × Pt K) (b : K × K) => (⟨a.1, a.2, b.1, b.2⟩ : Section K))
          (List.zip x0 dx) (List.zip ws.1 ds.1)
        PPath.sections (if maxPoints < 4 then samples.length else maxPoints / 2) layer datatype
          samples.length secs
          { p with
            w := ws.2
            distance := ds.2
            x := endPt.1
            y := endPt.2
            direction := .num (t.atan2 (-endN.1) endN.2) }

/-- polygon.py:1876: `(pts.shape[0] - 1) * (pts[1:] - pts[:-1])`. -/
def bezierDerivCtrl (pts : List (Pt K)) : List (Pt K) :=
  List.zipWith (fun (a b : Pt K) => (((pts.length : K) - 1) * (b.1 - a.1), ((pts.length : K) - 1) * (b.2 - a.2)))
    pts (pts.drop 1)

/-- polygon.py:1803-1889 `bezier`. `vstack` with an empty list raises ValueError. -/
def PPath.bezier (t : Num K) (fuel : Nat) (points : List (Pt K)) (tolerance : K)
    (evals maxPoints : Nat) (finalWidth finalDistance : FinArg K) (relative : Bool)
    (layer datatype : LayerArg) (p : PPath K) : Out (PPath K) :=
  if points = [] then (p, some .valueError)
  else
    let pts := (if relative then (0, 0) else (p.x, p.y)) :: points
    PPath.parametric t fuel (funcBezier pts) (some (funcBezier (bezierDerivCtrl pts))) tolerance
      evals maxPoints finalWidth finalDistance relative layer datatype p

/-- The control points computed by `_hobby` (hobby.py:37-247, not modelled): any two lists. -/
abbrev Hobby (K : Type) := List (Pt K) → Py (List (Pt K) × List (Pt K))

/-- `l[i]` of a list, IndexError outside. -/
def idx {α : Type} (l : List α) (i : Nat) : Py α :=
  match l[i]? with
  | some a => .ok a
  | none => .error .indexError

/-- One call of `bezier` in `smooth` (polygon.py:2015-2025): the arguments are evaluated first. -/
def PPath.smoothStep (t : Num K) (fuel : Nat) (tolerance : K) (evals maxPoints : Nat)
    (layer datatype : LayerArg) (args : Py (List (Pt K) × FinArg K × FinArg K)) (p : PPath K) :
    Out (PPath K) :=
  match args with
  | .error e => (p, some e)
  | .ok (pts, fw, fd) =>
    PPath.bezier t fuel pts tolerance evals maxPoints fw fd false layer datatype p

/-- polygon.py:2015-2022: the arguments of call `i`; the last call of a cycle (2027-2034) uses the
last control points, widths and distances, and the first point. -/
def smoothArgs (pts cta ctb : List (Pt K)) (fws fds : List (FinArg K)) (i k : Nat) :
    Py (List (Pt K) × FinArg K × FinArg K) := do
  let a ← idx cta i
  let b ← idx ctb i
  let c ← idx pts k
  let fw ← idx fws i
  let fd ← idx fds i
  .ok ([a, b, c], fw, fd)

/-- polygon.py:2027-2034: `cta[-1], ctb[-1], points[0]`, `final_widths[-1]`, `final_distances[-1]`. -/
def smoothCloseArgs (pts cta ctb : List (Pt K)) (fws fds : List (FinArg K)) :
    Py (List (Pt K) × FinArg K × FinArg K) := do
  let a ← idx cta.reverse 0
  let b ← idx ctb.reverse 0
  let c ← idx pts 0
  let fw ← idx fws.reverse 0
  let fd ← idx fds.reverse 0
  .ok ([a, b, c], fw, fd)

/-- polygon.py:1891-2038 `smooth`. -/
def PPath.smooth (t : Num K) (fuel : Nat) (hobby : Hobby K) (points : List (Pt K)) (cycle : Bool)
    (tolerance : K) (evals maxPoints : Nat) (finalWidths finalDistances : Option (List (FinArg K)))
    (relative : Bool) (layer datatype : LayerArg) (p : PPath K) : Out (PPath K) :=
  if points = [] then (p, some .valueError)
  else
    let pts := if relative then ((0, 0) :: points).map fun q => (q.1 + p.x, q.2 + p.y)
      else (p.x, p.y) :: points
    match hobby pts with
    | .error e => (p, some e)
    | .ok (cta, ctb) =>
      let fws := finalWidths.getD (List.replicate cta.length .none)
      let fds := finalDistances.getD (List.replicate cta.length .none)
      let step := PPath.smoothStep t fuel tolerance evals maxPoints layer datatype
      match forOut (fun q i => step (smoothArgs pts cta ctb fws fds i (i + 1)) q) p
          (List.range (pts.length - 1)) with
      | (q, some e) => (q, some e)
      | (q, none) =>
        if cycle then step (smoothCloseArgs pts cta ctb fws fds) q else (q, none)

end Parametric

end Gdspy
