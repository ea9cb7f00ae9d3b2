import Verif.Model.Holes
import Verif.Model.Path

/-!
# `offset` (operation.py:148-210), with the class `ClipperOffset` (clipper.cpp:3773-4225) and its binding (clipper.cpp:4945-5003)

Modelled: everything that `ClipperOffset` does for closed polygons, up to the final union, which is done by class `Clipper` and is a
parameter (`UnionEngine`). Not modelled: open paths, which gdspy does not use. Arithmetic is exact: `cInt` has no overflow and
`double` no rounding.
-/

namespace Gdspy

variable {K : Type}

/-- `JoinType` -/
inductive JoinKind
  | miter | square | round
  deriving DecidableEq

/-- What `ClipperOffset` needs of class `Clipper`: the union of paths, with positive (`false`) or negative (`true`) filling; for
negative filling with `ReverseSolution(true)`. The result is given as a tree or as a list of paths. `bounds` is `GetBounds` (left, right,
top, bottom). -/
structure UnionEngine where
  tree : Bool → List (List IPt) → List PolyNode
  flat : Bool → List (List IPt) → List (List IPt)
  bounds : List (List IPt) → IBox

/-! ## The paths -/

/-- clipper.cpp:3826-3827: the last points are dropped if they are equal to the first. -/
def dropClosing : List IPt → List IPt
  | [] => []
  | p :: r => p :: (r.reverse.dropWhile fun q => decide (p = q)).reverse

/-- clipper.cpp:3829-3839: points equal to the one before are dropped. -/
def dropRepeats : List IPt → List IPt
  | p :: q :: r => if p ≠ q then p :: dropRepeats (q :: r) else dropRepeats (p :: r)
  | l => l
termination_by l => l.length

/-- clipper.cpp:3817-3859 `AddPath` for closed polygons: the path that is added, if any. -/
def offsetPath (path : List IPt) : Option (List IPt) :=
  let c := dropRepeats (dropClosing path)
  if c.length < 3 then none else some c

/-- clipper.cpp:3862-3866 `AddPaths`. -/
def offsetPaths (paths : List (List IPt)) : List (List IPt) := paths.filterMap offsetPath

/-- clipper.cpp:3836-3838, 3854-3856: `b` is below `a` (the ordinate goes downwards in Clipper). -/
def isLower (b a : IPt) : Bool := decide (b.2 > a.2 ∨ (b.2 = a.2 ∧ b.1 < a.1))

/-- clipper.cpp:3833-3838: the lowest point of a path. -/
def lowestPoint : List IPt → IPt
  | [] => (0, 0)
  | p :: r => r.foldl (fun a b => if isLower b a then b else a) p

/-- clipper.cpp:3847-3858 `m_lowest`: the path with the lowest point, the first if there are several. -/
def lowestPath : List (List IPt) → Option (List IPt)
  | [] => none
  | p :: r => some (r.foldl (fun a b => if isLower (lowestPoint b) (lowestPoint a) then b else a) p)

/-- clipper.cpp:399-411 `Area`, twice. -/
def clipArea (P : List IPt) : Int :=
  if P.length < 3 then 0
  else -(((P.getLast?.toList ++ P).zip P).map fun e => (e.1.1 + e.2.1) * (e.1.2 - e.2.2)).sum

/-- clipper.cpp:3869-3892 `FixOrientations`, 393-396 `Orientation`. -/
def fixOrientations (paths : List (List IPt)) : List (List IPt) :=
  match lowestPath paths with
  | none => paths
  | some c => if clipArea c ≥ 0 then paths else paths.map List.reverse

section

variable [Field K] [LinearOrder K] [FloorRing K]

/-! ## The sides -/

/-- clipper.cpp:3777-3788 `GetUnitNormal`. -/
def edgeNormal (t : Num K) (p q : IPt) : Pt K :=
  if q.1 = p.1 ∧ q.2 = p.2 then (0, 0)
  else
    let dx : K := ((q.1 - p.1 : Int) : K)
    let dy : K := ((q.2 - p.2 : Int) : K)
    let f := 1 / t.sqrt (dx * dx + dy * dy)
    (dy * f, -(dx * f))

/-- What `DoRound` uses: `m_StepsPerRad`, `m_cos` and `m_sin`. -/
structure ArcSteps (K : Type) where
  perRad : K
  cos : K
  sin : K

/-- clipper.cpp:3988-4000. The code computes this for all kinds of joins. -/
def clipArcSteps (t : Num K) (arcTolerance delta : K) : Py (ArcSteps K) :=
  let y := if arcTolerance ≤ 0 then 1 / 4 else if arcTolerance > |delta| * (1 / 4) then |delta| * (1 / 4) else arcTolerance
  match t.acos (1 - y / |delta|) with
  | none => .error .unmodelled
  | some a =>
    let pi := 2 * t.halfpi
    let steps := if pi / a > |delta| * pi then |delta| * pi else pi / a
    .ok ⟨steps / (2 * pi), t.cos (2 * pi / steps), if delta < 0 then -t.sin (2 * pi / steps) else t.sin (2 * pi / steps)⟩

/-- The members of `ClipperOffset` that `OffsetPoint` uses. -/
structure OffsetCfg (K : Type) where
  join : JoinKind
  delta : K
  miterLim : K
  arc : ArcSteps K

/-- `IntPoint(Round(v.X + d.X), Round(v.Y + d.Y))` -/
def gridNear (v : IPt) (d : Pt K) : IPt := (clipRound ((v.1 : K) + d.1), clipRound ((v.2 : K) + d.2))

/-- clipper.cpp:4183-4193 `DoSquare`. -/
def doSquare (t : Num K) (delta sinA : K) (nk nj : Pt K) (v : IPt) : List IPt :=
  let a := t.atan2 sinA (nk.1 * nj.1 + nk.2 * nj.2) / 4
  let dx := t.sin a / t.cos a
  [gridNear v (delta * (nk.1 - nk.2 * dx), delta * (nk.2 + nk.1 * dx)),
   gridNear v (delta * (nj.1 + nj.2 * dx), delta * (nj.2 - nj.1 * dx))]

/-- clipper.cpp:4196-4201 `DoMiter`. -/
def doMiter (delta r : K) (nk nj : Pt K) (v : IPt) : List IPt :=
  let q := delta / r
  [gridNear v ((nk.1 + nj.1) * q, (nk.2 + nj.2) * q)]

/-- clipper.cpp:4211-4219: the loop. -/
def arcLoop (arc : ArcSteps K) (delta : K) (v : IPt) : Nat → Pt K → List IPt
  | 0, _ => []
  | i + 1, x => gridNear v (x.1 * delta, x.2 * delta) ::
      arcLoop arc delta v i (x.1 * arc.cos - arc.sin * x.2, x.1 * arc.sin + x.2 * arc.cos)

/-- clipper.cpp:4204-4223 `DoRound`. -/
def doRound (t : Num K) (arc : ArcSteps K) (delta sinA : K) (nk nj : Pt K) (v : IPt) : List IPt :=
  let a := t.atan2 sinA (nk.1 * nj.1 + nk.2 * nj.2)
  let steps := max (clipRound (arc.perRad * |a|)) 1
  arcLoop arc delta v steps.toNat nk ++ [gridNear v (nj.1 * delta, nj.2 * delta)]

/-- clipper.cpp:4139-4180 `OffsetPoint`: what is drawn at the vertex `v`, between sides with normals `nk` and `nj`, and the normal
that is used as `nk` at the next vertex. -/
def offsetPoint (t : Num K) (c : OffsetCfg K) (nk nj : Pt K) (v : IPt) : List IPt × Pt K :=
  let sinA := nk.1 * nj.2 - nj.1 * nk.2
  let cosA := nk.1 * nj.1 + nj.2 * nk.2
  if |sinA * c.delta| < 1 ∧ cosA > 0 then ([gridNear v (nk.1 * c.delta, nk.2 * c.delta)], nk)
  else
    let sinA := if |sinA * c.delta| < 1 then sinA else if sinA > 1 then 1 else if sinA < -1 then -1 else sinA
    let pts :=
      if sinA * c.delta < 0 then
        [gridNear v (nk.1 * c.delta, nk.2 * c.delta), v, gridNear v (nj.1 * c.delta, nj.2 * c.delta)]
      else match c.join with
        | .miter =>
          let r := 1 + (nj.1 * nk.1 + nj.2 * nk.2)
          if r ≥ c.miterLim then doMiter c.delta r nk nj v else doSquare t c.delta sinA nk nj v
        | .square => doSquare t c.delta sinA nk nj v
        | .round => doRound t c.arc c.delta sinA nk nj v
    (pts, nj)

/-- clipper.cpp:4062-4063: the loop over the vertices, given with the normals of the sides after them. -/
def offsetLoop (t : Num K) (c : OffsetCfg K) : Pt K → List (IPt × Pt K) → List IPt
  | _, [] => []
  | nk, (v, nj) :: l => let x := offsetPoint t c nk nj v; x.1 ++ offsetLoop t c x.2 l

/-- clipper.cpp:4048-4052: the normals of all sides. -/
def sideNormals (t : Num K) (P : List IPt) : List (Pt K) := List.zipWith (edgeNormal t) P (P.rotate 1)

/-- clipper.cpp:4009-4065: one closed polygon. -/
def offsetContour (t : Num K) (c : OffsetCfg K) (P : List IPt) : List IPt :=
  let ns := sideNormals t P
  offsetLoop t c (ns.getLastD (0, 0)) (P.zip ns)

/-- clipper.cpp:3966-4134 `DoOffset`. -/
def doOffset (t : Num K) (c : OffsetCfg K) (paths : List (List IPt)) : List (List IPt) :=
  if c.delta > -(1 / 10 ^ 20) ∧ c.delta < 1 / 10 ^ 20 then paths else paths.map (offsetContour t c)

/-- clipper.cpp:3909-3914, 3940-3945: a rectangle around everything. `y1` of the bounds is `bottom`. -/
def framePath (b : IBox) : List IPt :=
  [(b.x0 - 10, b.y1 + 10), (b.x1 + 10, b.y1 + 10), (b.x1 + 10, b.y0 - 10), (b.x0 - 10, b.y0 - 10)]

/-- clipper.cpp:3895-3922 `Execute` with paths as result. -/
def executeFlat (t : Num K) (e : UnionEngine) (c : OffsetCfg K) (paths : List (List IPt)) : List (List IPt) :=
  let dest := doOffset t c (fixOrientations paths)
  if c.delta > 0 then e.flat false dest else (e.flat true (dest ++ [framePath (e.bounds dest)])).drop 1

/-- clipper.cpp:3925-3963 `Execute` with a tree as result: the children of the root. -/
def executeTree (t : Num K) (e : UnionEngine) (c : OffsetCfg K) (paths : List (List IPt)) : List PolyNode :=
  let dest := doOffset t c (fixOrientations paths)
  if c.delta > 0 then e.tree false dest
  else
    match e.tree true (dest ++ [framePath (e.bounds dest)]) with
    | [.mk _ (n :: l)] => n :: l
    | _ => []

/-- clipper.cpp:4988-4997: the paths that are offset. -/
def offsetInput (t : Num K) (e : UnionEngine) (joinFirst : Bool) (subj : List (List IPt)) : List (List IPt) :=
  if joinFirst then offsetPaths (executeFlat t e ⟨.square, 0, 1 / 2, ⟨0, 0, 0⟩⟩ (offsetPaths subj)) else offsetPaths subj

/-- clipper.cpp:3984-3985: `m_miterLim`. -/
def miterLimOf (miterLimit : K) : K := if miterLimit > 2 then 2 / (miterLimit * miterLimit) else 1 / 2

/-- clipper.cpp:4960-4977: the settings. `M_PI/tolerance` is infinite for zero; this is left out. -/
def offsetCfg (t : Num K) (join : JoinKind) (tolerance delta : K) : Py (OffsetCfg K) :=
  match join with
  | .miter => .ok ⟨.miter, delta, miterLimOf tolerance, ⟨0, 0, 0⟩⟩
  | .square => .ok ⟨.square, delta, 1 / 2, ⟨0, 0, 0⟩⟩
  | .round =>
    if tolerance = 0 then .error .unmodelled
    else if delta > -(1 / 10 ^ 20) ∧ delta < 1 / 10 ^ 20 then .ok ⟨.round, delta, 1 / 2, ⟨0, 0, 0⟩⟩
    else do
      let a ← clipArcSteps t (delta * (1 - t.cos (2 * t.halfpi / tolerance))) delta
      .ok ⟨.round, delta, 1 / 2, a⟩

/-- clipper.cpp:4945-5003 `offset`; `none` is an unknown name of a join. -/
def clipperOffset (t : Num K) (e : UnionEngine) (sort : List (List IPt) → List (List IPt)) (polygons : List (Gathered K)) (distance : K)
    (join : Option JoinKind) (tolerance scaling : K) (joinFirst : Bool) : Py (List (Pgon K)) :=
  match join with
  | none => .error .typeError
  | some join => do
    let subj ← polygons.mapM (Gathered.parse scaling true)
    let c ← offsetCfg t join tolerance (distance * scaling)
    let l ← treePaths sort (executeTree t e c (offsetInput t e joinFirst subj))
    .ok (buildTuple scaling (l.map fun P => P.map fun v => ((v.1 : K), (v.2 : K))))

/-- operation.py:148-210 `offset`. -/
def offsetOp (t : Num K) (e : UnionEngine) (sort : List (List IPt) → List (List IPt)) (clip : Engine K) (fuel : Nat)
    (polygons : Operand K) (distance : K) (join : Option JoinKind) (tolerance precision : K) (joinFirst : Bool) (maxPoints : Nat)
    (layer datatype : Int) : Py (BoolOut K) := do
  let polys ← gatherPolys polygons
  if precision = 0 then .error .zeroDivision
  else do
    let result ← clipperOffset t e sort polys distance join tolerance (1 / precision) joinFirst
    if result = [] then .ok .none
    else do
      let r ← fractured clip fuel maxPoints precision result layer datatype
      .ok (BoolOut.ofFracture r)

end

end Gdspy
