import Verif.Model.Path

/-!
# Round, Text and L1Path

Model of the constructors of `Round` (polygon.py:706-823), `Text` (polygon.py:967-1011) and
`L1Path` (polygon.py:2107-2266).

Not modelled: warnings, the deprecated float `number_of_points`, the table of glyphs (polygon.py
867-962; theorems hold for every font).
-/

namespace Gdspy

variable {K : Type}

section Round

variable [Field K] [LinearOrder K] [FloorRing K]

/-- A radius argument: a number or a pair. -/
inductive Radius (K : Type) where
  | one (r : K)
  | two (rx ry : K)
  deriving DecidableEq

/-- polygon.py:720, 730: the two radii. -/
def Radius.xy : Radius K → K × K
  | .one r => (r, r)
  | .two rx ry => (rx, ry)

/-- polygon.py:721: `max(radius)`. -/
def Radius.max' : Radius K → K
  | .one r => r
  | .two rx ry => max rx ry

/-- Python `a % b` of floats, `b > 0`. -/
def pyModK (a b : K) : K := a - (⌊a / b⌋ : K) * b

/-- polygon.py:723-733: the parameter of an angle on an ellipse; the angle itself for a circle. -/
def Radius.angle (t : Num K) : Radius K → K → K
  | .one _, a => a
  | .two rx ry, a =>
    let pi := 2 * t.halfpi
    let r := a - (pyModK (a + pi) (2 * pi) - pi)
    if a = pi then pi else t.atan2 (rx * t.sin a) (ry * t.cos a) + r

/-- A point of an ellipse (polygon.py:798-799). -/
def ellPt (t : Num K) (c : Pt K) (r : K × K) (a : K) : Pt K :=
  (t.cos a * r.1 + c.1, t.sin a * r.2 + c.2)

/-- polygon.py:789-823: the polygon of one piece, of `n` vertices, between the outer angles `o0`, `o1`
and the inner angles `i0`, `i1`. `numpy.linspace` raises ValueError for a negative number of points.
(With one point on the ring, numpy divides 0 by 0; in a field the angle is 0.) -/
def roundPiece (t : Num K) (c : Pt K) (orr irr : Radius K) (n : Nat) (o0 o1 i0 i1 : K) : Py (Pgon K) :=
  let n2 := n / 2
  let n1 := n - n2
  if o1 = o0 then
    if irr.max' ≤ 0 then
      .ok ((List.range n).map fun (i : Nat) => ellPt t c orr.xy ((i : K) * 2 * (2 * t.halfpi) / (n : K)))
    else
      .ok ((List.range n1).map (fun (i : Nat) => ellPt t c orr.xy ((i : K) * 2 * (2 * t.halfpi) / ((n1 : K) - 1))) ++
        (List.range n2).map fun (i : Nat) => ellPt t c irr.xy ((i : K) * (-2) * (2 * t.halfpi) / ((n2 : K) - 1)))
  else
    if irr.max' ≤ 0 then
      if n = 0 then .error .valueError
      else .ok ((0 + c.1, 0 + c.2) :: (linspace o0 o1 (n - 1)).map (ellPt t c orr.xy))
    else
      .ok ((linspace o0 o1 n1).map (ellPt t c orr.xy) ++ (linspace i1 i0 n2).map (ellPt t c irr.xy))

/-- polygon.py:761-772: the number of points. -/
def roundPoints (t : Num K) (orr irr : Radius K) (ia fa tolerance : K) (N : Option Nat) : Py Nat :=
  match N with
  | some k => .ok k
  | none => do
    let s ← arcSteps t (if fa = ia then 2 * (2 * t.halfpi) else |fa - ia|) tolerance orr.max'
    .ok ((max 3 (1 + s)).toNat * if irr.max' > 0 then 2 else 1)

/-- polygon.py:706-823 `Round.__init__`. -/
def roundNew (t : Num K) (center : Pt K) (orr irr : Radius K) (ia fa tolerance : K) (N : Option Nat)
    (maxPoints : Nat) (layer datatype : Int) : Py (PolySet K) := do
  let N ← roundPoints t orr irr ia fa tolerance N
  let pieces := pieceCount N maxPoints
  if pieces = 0 then .error .zeroDivision
  else
    let fa := if fa = ia ∧ pieces > 1 then fa + 2 * (2 * t.halfpi) else fa
    let angles := linspace ia fa (pieces + 1)
    let oang := angles.map (orr.angle t)
    let iang := angles.map (irr.angle t)
    let polys ← (List.range pieces).mapM fun ii =>
      roundPiece t center orr irr (N / pieces) (oang.getD ii 0) (oang.getD (ii + 1) 0)
        (iang.getD ii 0) (iang.getD (ii + 1) 0)
    .ok ⟨polys, List.replicate pieces layer, List.replicate pieces datatype⟩

end Round

section Text

variable [Field K]

/-- `Text._font` (polygon.py:867-962): the polygons of a glyph. -/
abbrev Font := Char → Option (List (List (Int × Int)))

/-- polygon.py:996-1004: one glyph polygon at position `pos` of the text. -/
def glyphPoly (mult ca sa : K) (position : Pt K) (pos : Int × Int) (p : List (Int × Int)) : Pgon K :=
  p.map fun v =>
    let xp := mult * ((pos.1 + v.1 : Int) : K)
    let yp := mult * ((pos.2 + v.2 : Int) : K)
    (position.1 + xp * ca - yp * sa, position.2 + xp * sa + yp * ca)

/-- polygon.py:980-1008: the loop over the characters. -/
def textLoop (font : Font) (horizontal : Bool) (mult ca sa : K) (position : Pt K) :
    Int × Int → Str → List (Pgon K)
  | _, [] => []
  | (px, py), c :: r =>
    if c = '\n' then
      textLoop font horizontal mult ca sa position (if horizontal then (0, py - 11) else (px + 8, 0)) r
    else if c = '\t' then
      textLoop font horizontal mult ca sa position
        (if horizontal then (px + 32 - (px + 8) % 32, py) else (px, py - 11 - (py - 22) % 44)) r
    else
      (match font c with
        | some g => g.map (glyphPoly mult ca sa position (px, py))
        | none => []) ++
      textLoop font horizontal mult ca sa position (if horizontal then (px + 8, py) else (px, py - 11)) r

/-- polygon.py:967-1011 `Text.__init__`. -/
def textNew [DecidableEq K] (t : Num K) (font : Font) (text : Str) (size : K) (position : Pt K)
    (horizontal : Bool) (angle : K) (layer datatype : Int) : PolySet K :=
  let ca := if angle = 0 then 1 else t.cos angle
  let sa := if angle = 0 then 0 else t.sin angle
  let polys := textLoop font horizontal (size / 9) ca sa position (0, 0) text
  ⟨polys, List.replicate polys.length layer, List.replicate polys.length datatype⟩

end Text

section L1

variable [Field K] [LinearOrder K]

/-- The state of the loop in `L1Path.__init__`: end point, direction index 0-3, counter, the two sides
of every path, and the finished polygons with their tags. -/
structure L1State (K : Type) where
  x : K
  y : K
  dir : Nat
  points : Int
  paths : List (List (Pt K) × List (Pt K))
  polygons : List (Pgon K)
  layers : List Int
  datatypes : List Int

/-- The last point of a side. -/
def lastPt (l : List (Pt K)) : Pt K := l.getLastD (0, 0)

/-- polygon.py:2141-2164: the first points of path `ii`. -/
def l1Start (initial : Pt K) (w distance : K) (n ii dir : Nat) : List (Pt K) × List (Pt K) :=
  let d0 := laneOff n ii distance
  let d1 := ((n : K) - 1) * distance / 2 - (ii : K) * distance
  match dir with
  | 0 => ([(initial.1, d0 + initial.2 - w)], [(initial.1, d0 + initial.2 + w)])
  | 1 => ([(d1 + initial.1 + w, initial.2)], [(d1 + initial.1 - w, initial.2)])
  | 2 => ([(initial.1, d1 + initial.2 + w)], [(initial.1, d1 + initial.2 - w)])
  | _ => ([(d0 + initial.1 - w, initial.2)], [(d0 + initial.1 + w, initial.2)])

/-- polygon.py:2167-2206: the new points of path `ii` before a turn. -/
def l1Move (s : L1State K) (w distance len turn : K) (n ii : Nat)
    (p : List (Pt K) × List (Pt K)) : List (Pt K) × List (Pt K) :=
  let d0 := laneOff n ii distance
  let d1 := ((n : K) - 1) * distance / 2 - (ii : K) * distance
  match s.dir with
  | 0 => (p.1 ++ [(s.x + len - (d0 - w) * turn, (lastPt p.1).2)],
          p.2 ++ [(s.x + len - (d0 + w) * turn, (lastPt p.2).2)])
  | 1 => (p.1 ++ [((lastPt p.1).1, s.y + len - (d0 - w) * turn)],
          p.2 ++ [((lastPt p.2).1, s.y + len - (d0 + w) * turn)])
  | 2 => (p.1 ++ [(s.x - len - (d1 + w) * turn, (lastPt p.1).2)],
          p.2 ++ [(s.x - len - (d1 - w) * turn, (lastPt p.2).2)])
  | _ => (p.1 ++ [((lastPt p.1).1, s.y - len - (d1 + w) * turn)],
          p.2 ++ [((lastPt p.2).1, s.y - len - (d1 - w) * turn)])

/-- polygon.py:2210-2215: the middle of the closest of the four pairs, the first one among equals.
(The code starts from a distance of 1e300; larger coordinates are not modelled.) -/
def closestMid (a1 a2 b1 b2 : K) : K :=
  let pairs := [(a1, b1), (a1, b2), (a2, b1), (a2, b2)]
  let best := pairs.foldl (fun (acc : Option (K × K)) q =>
    match acc with
    | none => some q
    | some r => if |q.1 - q.2| < |r.1 - r.2| then some q else some r) none
  match best with
  | some q => (q.1 + q.2) / 2
  | none => 0

/-- The point before the last one of a side: `p[-2]`. -/
def prevPt (l : List (Pt K)) : Pt K := lastPt l.dropLast

/-- polygon.py:2209-2226: the two points of the cut across a path. -/
def l1Cut (dir : Nat) (p : List (Pt K) × List (Pt K)) : Pt K × Pt K :=
  if dir % 2 = 0 then
    let x0 := closestMid (prevPt p.1).1 (prevPt p.2).1 (lastPt p.1).1 (lastPt p.2).1
    ((x0, (lastPt p.1).2), (x0, (lastPt p.2).2))
  else
    let y0 := closestMid (prevPt p.1).2 (prevPt p.2).2 (lastPt p.1).2 (lastPt p.2).2
    (((lastPt p.1).1, y0), ((lastPt p.2).1, y0))

/-- polygon.py:2227-2229: `p[0][:-1] + [p0, p1] + p[1][-2::-1]`. -/
def l1SplitPoly (dir : Nat) (p : List (Pt K) × List (Pt K)) : Pgon K :=
  p.1.dropLast ++ [(l1Cut dir p).1, (l1Cut dir p).2] ++ p.2.dropLast.reverse

/-- polygon.py:2230-2231: what remains of a path after the cut. -/
def l1SplitRest (dir : Nat) (p : List (Pt K) × List (Pt K)) : List (Pt K) × List (Pt K) :=
  ([(l1Cut dir p).1, lastPt p.1], [(l1Cut dir p).2, lastPt p.2])

/-- The end point moved by `len` along direction `dir`. -/
def l1Advance (dir : Nat) (len : K) (x y : K) : K × K :=
  match dir with
  | 0 => (x + len, y)
  | 1 => (x, y + len)
  | 2 => (x - len, y)
  | _ => (x, y - len)

/-- polygon.py:2166-2238: one turn. -/
def l1Step (w distance : K) (n maxPoints : Nat) (layer datatype : List Int) (s : L1State K)
    (len turn : K) : L1State K :=
  let paths := s.paths.mapIdx fun ii p => l1Move s w distance len turn n ii p
  let e := l1Advance s.dir len s.x s.y
  let points := s.points - 1
  let s := { s with paths := paths, x := e.1, y := e.2, points := points }
  let s :=
    if points = 0 then
      { s with
        polygons := s.polygons ++ s.paths.map (l1SplitPoly s.dir)
        paths := s.paths.map (l1SplitRest s.dir)
        layers := s.layers ++ layer
        datatypes := s.datatypes ++ datatype
        points := ((maxPoints / 2 : Nat) : Int) - 2 }
    else s
  { s with dir := if turn > 0 then (s.dir + 1) % 4 else (s.dir + 3) % 4 }

/-- polygon.py:2165: the loop over the turns; `length[jj]` raises IndexError when there are too few
lengths. -/
def l1Loop (w distance : K) (n maxPoints : Nat) (layer datatype : List Int) :
    L1State K → List K → List K → Py (L1State K)
  | s, _, [] => .ok s
  | _, [], _ :: _ => .error .indexError
  | s, len :: lens, turn :: turns =>
    l1Loop w distance n maxPoints layer datatype
      (l1Step w distance n maxPoints layer datatype s len turn) lens turns

/-- polygon.py:2239-2262: the last points of a path. -/
def l1Finish (s : L1State K) (len : K) (p : List (Pt K) × List (Pt K)) : List (Pt K) × List (Pt K) :=
  match s.dir with
  | 0 => (p.1 ++ [(s.x + len, (lastPt p.1).2)], p.2 ++ [(s.x + len, (lastPt p.2).2)])
  | 1 => (p.1 ++ [((lastPt p.1).1, s.y + len)], p.2 ++ [((lastPt p.2).1, s.y + len)])
  | 2 => (p.1 ++ [(s.x - len, (lastPt p.1).2)], p.2 ++ [(s.x - len, (lastPt p.2).2)])
  | _ => (p.1 ++ [((lastPt p.1).1, s.y - len)], p.2 ++ [((lastPt p.2).1, s.y - len)])

/-- polygon.py:2044-2104: the attributes of `L1Path`. -/
structure L1Path (K : Type) where
  x : K
  y : K
  direction : Dir K
  polygons : List (Pgon K)
  layers : List Int
  datatypes : List Int

/-- polygon.py:2141-2160: the index of a direction. Any other value leaves `direction` as it is, and
the constructor then raises TypeError (`direction % 2`, or the index into the list of directions); in
the model that is `unmodelled`. -/
def Dir.index : Dir K → Py Nat
  | .px => .ok 0
  | .py => .ok 1
  | .mx => .ok 2
  | .my => .ok 3
  | .num _ => .error .unmodelled

/-- polygon.py:2239-2262: the end point. In direction 3 the code subtracts `length[jj]`, with `jj` left
over from the loop (unbound if there was no turn), not `length[-1]`. -/
def l1End (s : L1State K) (length turn : List K) : Py (K × K) := do
  let last ← idx length.reverse 0
  if s.dir = 3 then
    if turn = [] then .error .unboundLocal
    else do
      let l ← idx length (turn.length - 1)
      .ok (s.x, s.y - l)
  else .ok (l1Advance s.dir last s.x s.y)

/-- polygon.py:2126-2131: a number is a list of one. -/
def LayerArg.toList : LayerArg → LayerArg
  | .one l => .list [l]
  | a => a

/-- polygon.py:2107-2266 `L1Path.__init__`. -/
def l1New (initial : Pt K) (direction : Dir K) (width : K) (length turn : List K) (n : Nat)
    (distance : K) (maxPoints : Nat) (layer datatype : LayerArg) : Py (L1Path K) := do
  let layer ← layer.toList.expand n
  let datatype ← datatype.toList.expand n
  let dir ← direction.index
  let w := width / 2
  let s ← l1Loop w distance n maxPoints layer datatype
    { x := initial.1, y := initial.2, dir := dir
      points := if maxPoints = 0 then (turn.length : Int) + 1 else ((maxPoints / 2 : Nat) : Int) - 1
      paths := (List.range n).map fun ii => l1Start initial w distance n ii dir
      polygons := [], layers := [], datatypes := [] } length turn
  let last ← idx length.reverse 0
  let e ← l1End s length turn
  .ok
    { x := e.1, y := e.2, direction := dirOfIndex s.dir
      polygons := s.polygons ++ (s.paths.map (l1Finish s last)).map fun p => p.1 ++ p.2.reverse
      layers := s.layers ++ layer
      datatypes := s.datatypes ++ datatype }

end L1

end Gdspy
