import Verif.Model.Flex

/-!
# RobustPath

Model of the classes `_SubPath` and `RobustPath` (path.py:88-192 and 1712-2977), except `to_gds` (in
`Verif.Model.Element`) and `to_svg` (in `Verif.Model.Svg`).

The conventions are those of `Verif.Model.Flex`: coordinates are in a field, numpy functions are given by `Num`, a
quotient by zero is 0, a call returns the object as it is afterwards with the exception, if any.

Simplified: functions given by the user (curves, their derivatives, widths, offsets) return numbers for every argument
and have no side effects. The lists given as `width` and `offset` to the constructor become attributes of the object
and are changed in place; here they are copied. Not modelled: warnings,
`properties`, strings other than the documented ones for `ends`, negative parameters of `__call__`, `grad`, `width`.
-/

namespace Gdspy

variable {K : Type}

/-- The first two rows of the matrix `_SubPath.transform` (path.py:103); the third is always (0, 0, 1). -/
structure Mat (K : Type) where
  xx : K
  xy : K
  x0 : K
  yx : K
  yy : K
  y0 : K
  deriving DecidableEq

/-- path.py:88-103 `_SubPath`. -/
structure Sub (K : Type) where
  x : K → Pt K
  dx : K → K → Pt K
  off : K → K
  wid : K → K
  err : K
  h : K
  maxEvals : Nat
  tr : Mat K

/-- An entry of a list given as `width` or `offset` to a construction method. -/
inductive RVal (K : Type) where
  | num (x : K)
  | fn (f : K → K)

/-- The arguments `width` and `offset` of the construction methods. -/
inductive RArg (K : Type) where
  | none
  | num (x : K)
  | fn (f : K → K)
  | list (l : List (RVal K))

/-- path.py:1824-1862: the attributes of `RobustPath`. -/
structure Robust (K : Type) where
  x : Pt K
  n : Nat
  widths : List K
  offsets : List K
  paths : List (List (Sub K))
  ends : List (FlexEnd K)
  layers : List Int
  datatypes : List Int
  tolerance : K
  precision : K
  maxPoints : Nat
  maxEvals : Nat
  gdsiiPath : Bool
  widthTransform : Bool
  cache : Option (PolyDict K)

section Base

variable [Field K]

/-- `numpy.matmul(a, b)`. -/
def Mat.mul (a b : Mat K) : Mat K :=
  ⟨a.xx * b.xx + a.xy * b.yx, a.xx * b.xy + a.xy * b.yy, a.xx * b.x0 + a.xy * b.y0 + a.x0,
   a.yx * b.xx + a.yy * b.yx, a.yx * b.xy + a.yy * b.yy, a.yx * b.x0 + a.yy * b.y0 + a.y0⟩

/-- `numpy.eye(3)`. -/
def Mat.eye : Mat K := ⟨1, 0, 0, 0, 1, 0⟩

/-- path.py:128-135. -/
def Mat.app (m : Mat K) (p : Pt K) : Pt K :=
  (m.xx * p.1 + m.xy * p.2 + m.x0, m.yx * p.1 + m.yy * p.2 + m.y0)

/-- path.py:167-174 `_SubPath.translate`. -/
def Sub.translate (d : Pt K) (s : Sub K) : Sub K := { s with tr := Mat.mul ⟨1, 0, d.1, 0, 1, d.2⟩ s.tr }

/-- path.py:176-183 `_SubPath.scale`. -/
def Sub.scale (sx sy : K) (s : Sub K) : Sub K := { s with tr := Mat.mul ⟨sx, 0, 0, 0, sy, 0⟩ s.tr }

/-- path.py:185-192 `_SubPath.rotate`. -/
def Sub.rotate (t : Num K) (angle : K) (s : Sub K) : Sub K :=
  { s with tr := Mat.mul ⟨t.cos angle, -t.sin angle, 0, t.sin angle, t.cos angle, 0⟩ s.tr }

/-- path.py:60-61 `_func_linear`. -/
def funcLinear (c0 c1 u : K) : K := c0 * (1 - u) + c1 * u

/-- path.py:60-61 `_func_linear` for two points. -/
def funcLinearPt (p q : Pt K) (u : K) : Pt K := (p.1 * (1 - u) + q.1 * u, p.2 * (1 - u) + q.2 * u)

/-- path.py:1809-1868 `__init__`. -/
def Robust.new (x : Pt K) (width offset : CycArg K) (ends : CycArg (FlexEnd K)) (tolerance precision : K)
    (maxPoints maxEvals : Nat) (gdsiiPath widthTransform : Bool) (layer datatype : CycArg Int) : Py (Robust K) := do
  let r := flexRows width offset
  let ends ← ends.spread r.1
  let layers ← layer.spread r.1
  let datatypes ← datatype.spread r.1
  .ok
    { x := x
      n := r.1
      widths := r.2.1
      offsets := r.2.2
      paths := List.replicate r.1 []
      ends := ends
      layers := layers
      datatypes := datatypes
      tolerance := tolerance
      precision := precision
      maxPoints := maxPoints
      maxEvals := maxEvals
      gdsiiPath := gdsiiPath
      widthTransform := widthTransform
      cache := none }

/-- `for path in self.paths: for sub in path: ...`. -/
def Robust.mapSubs (g : Sub K → Sub K) (r : Robust K) : Robust K := { r with paths := r.paths.map (List.map g) }

/-- path.py:2412-2434 `translate`. -/
def Robust.translate (dx dy : K) (r : Robust K) : Robust K :=
  Robust.mapSubs (Sub.translate (dx, dy)) { r with cache := none, x := (r.x.1 + dx, r.x.2 + dy) }

/-- path.py:2436-2463 `rotate`. -/
def Robust.rotate (t : Num K) (angle : K) (center : Pt K) (r : Robust K) : Robust K :=
  Robust.mapSubs (fun s => Sub.translate center (Sub.rotate t angle (Sub.translate (-center.1, -center.2) s)))
    { r with cache := none, x := spinPt (t.cos angle) (t.sin angle) center r.x }

/-- path.py:2488-2490, 2540-2542: the current widths and offsets scaled. -/
def Robust.scaleLists (s : K) (r : Robust K) : Robust K :=
  { r with
    widths := if r.widthTransform || !r.gdsiiPath then r.widths.map (· * s) else r.widths
    offsets := r.offsets.map (· * s) }

/-- path.py:2465-2495 `scale`. -/
def Robust.scale (s : K) (center : Pt K) (r : Robust K) : Robust K :=
  let c0 : Pt K := (center.1 * (1 - s), center.2 * (1 - s))
  Robust.mapSubs (fun p => Sub.translate c0 (Sub.scale s s p))
    (Robust.scaleLists s { r with cache := none, x := (r.x.1 * s + c0.1, r.x.2 * s + c0.2) })

/-- path.py:2526-2530, 2553-2557. -/
def Robust.shift (d : Option (Pt K)) (r : Robust K) : Robust K :=
  match d with
  | none => r
  | some d => Robust.mapSubs (Sub.translate d) { r with x := (r.x.1 + d.1, r.x.2 + d.2) }

/-- path.py:2531-2537. -/
def Robust.mirror (xrefl : Bool) (r : Robust K) : Robust K :=
  if xrefl then
    Robust.mapSubs (Sub.scale 1 (-1))
      { r with x := (r.x.1, -r.x.2), widths := r.widths.map (· * -1), offsets := r.offsets.map (· * -1) }
  else r

/-- path.py:2538-2545. -/
def Robust.magnify (scale : Option K) (r : Robust K) : Robust K :=
  match scale with
  | none => r
  | some s => Robust.mapSubs (Sub.scale s s) (Robust.scaleLists s { r with x := (r.x.1 * s, r.x.2 * s) })

/-- path.py:2546-2552. -/
def Robust.spin (t : Num K) (rotation : Option K) (r : Robust K) : Robust K :=
  match rotation with
  | none => r
  | some a => Robust.mapSubs (Sub.rotate t a)
      { r with
        x := (r.x.1 * t.cos a + r.x.2 * (t.sin a * -1), r.x.2 * t.cos a + r.x.1 * (t.sin a * 1)) }

/-- path.py:2497-2558 `transform`. -/
def Robust.transform (t : Num K) (translation : Option (Pt K)) (rotation scale : Option K) (xrefl : Bool)
    (arrayTrans : Option (Pt K)) (r : Robust K) : Robust K :=
  Robust.shift translation (Robust.spin t rotation (Robust.magnify scale (Robust.mirror xrefl
    (Robust.shift arrayTrans { r with cache := none }))))

/-- path.py:2560-2569 `_parse_offset`. -/
def Robust.parseOffset (r : Robust K) (arg : RArg K) (i : Nat) : Py (K → K) :=
  match arg with
  | .none => do let c ← idx r.offsets i; .ok fun _ => c
  | .list l => do
    match ← idx l i with
    | .fn f => .ok f
    | .num a => let c ← idx r.offsets i; .ok (funcLinear c a)
  | .fn f => do let c ← idx r.offsets i; .ok fun u => f u + c
  | .num a => do let c ← idx r.offsets i; .ok (funcLinear c (c + a))

/-- path.py:2571-2586 `_parse_width`. -/
def Robust.parseWidth (r : Robust K) (arg : RArg K) (i : Nat) : Py (K → K) :=
  match arg, r.gdsiiPath with
  | .none, _ => do let c ← idx r.widths i; .ok fun _ => c
  | _, true => do let c ← idx r.widths i; .ok fun _ => c
  | .list l, _ => do
    match ← idx l i with
    | .fn f => .ok f
    | .num a => let c ← idx r.widths i; .ok (funcLinear c a)
  | .fn f, _ => .ok f
  | .num a, _ => do let c ← idx r.widths i; .ok (funcLinear c a)

/-- path.py:95-103 `_SubPath.__init__`. -/
def Robust.sub (r : Robust K) (x : K → Pt K) (dx : K → K → Pt K) (off wid : K → K) : Sub K :=
  ⟨x, dx, off, wid, r.tolerance ^ 2, 1 / 2 / (r.maxEvals : K), r.maxEvals, Mat.eye⟩

/-- path.py:2634, `self.widths[i] = value`. -/
def setItem (l : List K) (i : Nat) (v : K) : Py (List K) :=
  if i < l.length then .ok (l.set i v) else .error .indexError

/-- path.py:2629-2635 (also 2689-2695, 2817-2823, 2874-2880): the section of path `i`. `0.5 / max_evals` raises
ZeroDivisionError if `max_evals` is 0. -/
def Robust.push (x : K → Pt K) (dx : K → K → Pt K) (width offset : RArg K) (r : Robust K) (i : Nat) :
    Out (Robust K) :=
  match r.parseOffset offset i, r.parseWidth width i with
  | .error e, _ => (r, some e)
  | _, .error e => (r, some e)
  | .ok off, .ok wid =>
    if r.maxEvals = 0 then (r, some .zeroDivision)
    else if i < r.paths.length then
      let r := { r with paths := r.paths.modify i (· ++ [r.sub x dx off wid]) }
      match setItem r.widths i (wid 1) with
      | .error e => (r, some e)
      | .ok ws =>
        let r := { r with widths := ws }
        match setItem r.offsets i (off 1) with
        | .error e => (r, some e)
        | .ok os => ({ r with offsets := os }, none)
    else (r, some .indexError)

/-- path.py:2628-2635: the sections of all paths. -/
def Robust.pushAll (x : K → Pt K) (dx : K → K → Pt K) (width offset : RArg K) (r : Robust K) : Out (Robust K) :=
  forOut (Robust.push x dx width offset) r (List.range r.n)

/-- path.py:2588-2636 `segment`. -/
def Robust.segment (endPt : Pt K) (width offset : RArg K) (relative : Bool) (r : Robust K) : Out (Robust K) :=
  let x := if relative then (endPt.1 + r.x.1, endPt.2 + r.x.2) else endPt
  Robust.pushAll (funcLinearPt r.x x) (fun _ _ => (x.1 - r.x.1, x.2 - r.x.2)) width offset
    { r with cache := none, x := x }

/-- path.py:2676-2680. -/
def robustArc (t : Num K) (x : Pt K) (radius ia fa u : K) : Pt K :=
  (x.1 - radius * t.cos ia + radius * t.cos (funcLinear ia fa u),
   x.2 - radius * t.sin ia + radius * t.sin (funcLinear ia fa u))

/-- path.py:2682-2685. -/
def robustArcGrad (t : Num K) (radius ia fa u : K) : Pt K :=
  (-(radius * (fa - ia)) * t.sin (funcLinear ia fa u), radius * (fa - ia) * t.cos (funcLinear ia fa u))

/-- path.py:2638-2696 `arc`. -/
def Robust.arc (t : Num K) (radius ia fa : K) (width offset : RArg K) (r : Robust K) : Out (Robust K) :=
  Robust.pushAll (robustArc t r.x radius ia fa) (fun u _ => robustArcGrad t radius ia fa u) width offset
    { r with cache := none, x := robustArc t r.x radius ia fa 1 }

end Base

section Order

variable [Field K] [LinearOrder K]

/-- path.py:2805-2808: the derivative when none is given. -/
def numGrad (c : K → Pt K) (u h : K) : Pt K :=
  let u0 := max 0 (u - h)
  let u1 := min 1 (u + h)
  (((c u1).1 - (c u0).1) / (u1 - u0), ((c u1).2 - (c u0).2) / (u1 - u0))

/-- path.py:2753-2824 `parametric`. -/
def Robust.parametric (c : K → Pt K) (grad : Option (K → Pt K)) (width offset : RArg K) (relative : Bool)
    (r : Robust K) : Out (Robust K) :=
  let f := if relative then fun u => ((c u).1 + r.x.1, (c u).2 + r.x.2) else c
  Robust.pushAll f (match grad with | none => numGrad c | some g => fun u _ => g u) width offset
    { r with cache := none, x := f 1 }

/-- path.py:2865-2868, 2968-2971: the given points with the end point of the path before them. -/
def Robust.ctrl (points : List (Pt K)) (relative : Bool) (r : Robust K) : List (Pt K) :=
  if relative then ((0, 0) :: points).map fun p => (r.x.1 + p.1, r.x.2 + p.2) else r.x :: points

/-- path.py:2869: the control points of the derivative. -/
def bezierDiff (ctrl : List (Pt K)) : List (Pt K) :=
  let k : K := ((ctrl.length - 1 : Nat) : K)
  List.zipWith (fun p q => (k * (q.1 - p.1), k * (q.2 - p.2))) ctrl (ctrl.drop 1)

/-- path.py:2826-2881 `bezier`. `vstack` with an empty list raises ValueError. -/
def Robust.bezier (points : List (Pt K)) (width offset : RArg K) (relative : Bool) (r : Robust K) :
    Out (Robust K) :=
  let r := { r with cache := none }
  if points = [] then (r, some .valueError)
  else
    let ctrl := r.ctrl points relative
    Robust.pushAll (funcBezier ctrl) (fun u _ => funcBezier (bezierDiff ctrl) u) width offset
      { r with x := ctrl.getLastD (0, 0) }

/-- path.py:2883-2977 `smooth`; see `Flex.smooth`. -/
def Robust.smooth (hobby : Hobby K) (points : List (Pt K)) (cycle : Bool) (width offset : RArg K) (relative : Bool)
    (r : Robust K) : Out (Robust K) :=
  if points = [] then (r, some .valueError)
  else
    match hobby (r.ctrl points relative) with
    | .error e => (r, some e)
    | .ok (cta, ctb) =>
      match smoothPieces (r.ctrl points relative) cta ctb cycle with
      | .error e => (r, some e)
      | .ok l => forOut (fun g p => Robust.bezier p width offset false g) r l

/-! ## Points of a section -/

/-- path.py:109-110: `v[::-1] * _pmone`, normalized: to the right of `v`. -/
def rightNormal (t : Num K) (v : Pt K) : Pt K :=
  let w : Pt K := (v.2 * 1, v.1 * -1)
  (w.1 / t.sqrt (normSq w), w.2 / t.sqrt (normSq w))

/-- path.py:109-111: the centre of the section. -/
def Sub.mid (t : Num K) (s : Sub K) (u : K) : Pt K :=
  padd (s.x u) (psmul (s.off u) (rightNormal t (s.dx u s.h)))

/-- path.py:113-122: the unit vector across the section. -/
def Sub.across (t : Num K) (s : Sub K) (u : K) : Pt K :=
  rightNormal t (psub (s.mid t (min 1 (u + s.h))) (s.mid t (max 0 (u - s.h))))

/-- path.py:109-126: a point of the section before the transformation. -/
def Sub.raw (t : Num K) (s : Sub K) (u : K) (arm : Int) : Pt K :=
  if arm = 0 then s.mid t u
  else if arm < 0 then psub (s.mid t u) (psmul (1 / 2 * s.wid u) (s.across t u))
  else padd (s.mid t u) (psmul (1 / 2 * s.wid u) (s.across t u))

/-- path.py:108-136 `_SubPath.__call__`. -/
def Sub.call (t : Num K) (s : Sub K) (u : K) (arm : Int) : Pt K := s.tr.app (s.raw t u arm)

/-- path.py:138-141 `_SubPath.grad` of a function. -/
def subGrad (h : K) (c : K → Pt K) (u : K) : Pt K :=
  let u0 := max 0 (u - h)
  let u1 := min 1 (u + h)
  psmul (1 / (u1 - u0)) (psub (c u1) (c u0))

/-- path.py:138-141 `_SubPath.grad(u, arm)`. -/
def Sub.grad (t : Num K) (s : Sub K) (u : K) (arm : Int) : Pt K := subGrad s.h (fun u => s.call t u arm) u

/-- path.py:138-141 `_SubPath.grad(u, arm, False)`. -/
def Sub.gradRaw (t : Num K) (s : Sub K) (u : K) (arm : Int) : Pt K := subGrad s.h (fun u => s.raw t u arm) u

/-- path.py:143-145 `_SubPath.width`. -/
def Sub.width (t : Num K) (s : Sub K) (u : K) : K := t.sqrt (normSq (psub (s.call t u (-1)) (s.call t u 1)))

/-- path.py:147-165 `_SubPath.points`. The fuel is enough (`C56_points`). -/
def Sub.points (t : Num K) (s : Sub K) (u0 u1 : K) (arm : Int) : List (Pt K) :=
  ((subPoints (fun u => s.call t u arm) s.err s.maxEvals (2 * s.maxEvals + 1) u0 u1).getD []).map Prod.snd

/-- path.py:2698-2751 `turn`. The angle is that of the last section before its transformation. -/
def Robust.turn (t : Num K) (radius : K) (angle : TurnArg K) (width offset : RArg K) (r : Robust K) :
    Out (Robust K) :=
  let r := { r with cache := none }
  match r.paths with
  | [] => (r, some .indexError)
  | p :: _ =>
    if p.length = 0 then (r, some .valueError)
    else
      match (r.paths.mapM fun q => idx q (p.length - 1) : Py (List (Sub K))) with
      | .error e => (r, some e)
      | .ok subs =>
        let a := angle.value t
        let sum := (subs.map fun s => t.atan2 (s.gradRaw t 1 0).2 (s.gradRaw t 1 0).1).foldl (· + ·) 0
        let ia := sum / (r.paths.length : K) + (if a < 0 then t.halfpi else -t.halfpi)
        Robust.arc t radius ia (ia + a) width offset r

/-! ## Points of a path -/

variable [FloorRing K]

/-- `u` as an index and a fraction; `last` says when the end of the section before is taken. -/
def Robust.locate (r : Robust K) (u : K) (last : Int → K → Nat → Bool) : Py (Nat × K) :=
  match r.paths with
  | [] => .error .indexError
  | p :: _ =>
    let i := truncInt u
    let v := u - (i : K)
    let s : Int × K := if last i v p.length then (i - 1, 1) else (i, v)
    if s.1 < 0 then .error .unmodelled else .ok (s.1.toNat, s.2)

/-- path.py:1888-1912 `__call__`. -/
def Robust.call (t : Num K) (r : Robust K) (u : K) (arm : Int) : Py (List (Pt K)) := do
  let s ← r.locate u fun i _ n => i = n
  r.paths.mapM fun p => do let q ← idx p s.1; .ok (q.call t s.2 arm)

/-- path.py:1914-1942 `grad`; `minus` says that `side` is "-". -/
def Robust.grad (t : Num K) (r : Robust K) (u : K) (arm : Int) (minus : Bool) : Py (List (Pt K)) := do
  let s ← r.locate u fun i v n => v = 0 ∧ ((i > 0 ∧ minus) ∨ i = n)
  r.paths.mapM fun p => do let q ← idx p s.1; .ok (q.grad t s.2 arm)

/-- path.py:1944-1965 `width`. -/
def Robust.width (t : Num K) (r : Robust K) (u : K) : Py (List K) := do
  let s ← r.locate u fun i v n => v = 0 ∧ i = n
  r.paths.mapM fun p => do let q ← idx p s.1; .ok (q.width t s.2)

/-! ## get_polygons -/

/-- path.py:2010-2018: the loop `while iu < len(fu) < self.max_evals`. -/
def midLoopCap (f : K → Pt K) (err : K) (maxEvals : Nat) :
    Nat → List (K × Pt K) → K × Pt K → List (K × Pt K) → List (K × Pt K)
  | _, done, p, [] => (p :: done).reverse
  | 0, done, p, q :: rest => (p :: done).reverse ++ q :: rest
  | fuel + 1, done, p, q :: rest =>
    if done.length + 1 + (rest.length + 1) < maxEvals then
      let mid := (p.1 + q.1) / 2
      if sqErr (midPt p.2 q.2) (f mid) > err then midLoopCap f err maxEvals fuel done p ((mid, f mid) :: q :: rest)
      else midLoopCap f err maxEvals fuel (p :: done) q rest
    else (p :: done).reverse ++ q :: rest

/-- `l[1:-1]`. -/
def inner {α : Type} (l : List α) : List α := (l.drop 1).dropLast

/-- path.py:1991-2047: the cap before the side `arm` (-1 or 1) of a section `s`: at its end for -1 (`u` is 1), at its
beginning for 1 (`u` is 0). -/
def robustCap (ctx : FlexCtx K) (tolerance : K) (maxEvals : Nat) (fin : FlexEnd K) (s : Sub K) (arm : Int) :
    Py (List (Pt K)) :=
  let t := ctx.num
  let u : K := if arm = 1 then 0 else 1
  let p := s.call t u 0
  let v := psmul (-(arm : K)) (s.grad t u 0)
  let r := 1 / 2 * s.width t u
  let straight (d : K) : List (Pt K) :=
    let v := psmul (1 / t.sqrt (normSq v)) v
    let w : Pt K := (v.2 * 1, v.1 * -1)
    [padd (padd p (psmul d v)) (psmul r w), psub (padd p (psmul d v)) (psmul r w)]
  match fin with
  | .flush => .ok []
  | .smooth => do
    let v1 := psmul (-(arm : K)) (s.grad t u (-arm))
    let v2 := psmul (arm : K) (s.grad t u arm)
    let q1 := s.call t u (-arm)
    let q2 := s.call t u arm
    let c ← ctx.hobby q1 q2 (t.atan2 v1.2 v1.1) (t.atan2 v2.2 v2.1)
    let f := funcBezier [q1, c.1, c.2, q2]
    .ok (inner ((midLoopCap f (tolerance ^ 2) maxEvals (2 * maxEvals + 1) [] (0, f 0) [(1, f 1)]).map Prod.snd))
  | .round => do
    let k ← flexSteps t (2 * t.halfpi) tolerance r
    .ok ((inner (linspace (-t.halfpi) t.halfpi (max 5 (1 + k)).toNat)).map fun a =>
      padd p (psmul r (t.cos (a + t.atan2 v.2 v.1), t.sin (a + t.atan2 v.2 v.1))))
  | .extended => .ok (straight r)
  | .pair a b => .ok (straight (if arm = 1 then a else b))
  | .fn _ => .error .typeError

/-- path.py:2077-2094: the search for the crossing of two sides, from `u0`, `u1` with the step `step`. The first
argument is `max_evals - iters`. -/
def seek (h0 h1 : K) (c0 c1 : K → Pt K) (tol : K) : Nat → K → K → K → K × K
  | 0, u0, u1, _ => (u0, u1)
  | n + 1, u0, u1, step =>
    let delta := psub (c0 u0) (c1 u1)
    if normSq delta > tol then
      let g0 := subGrad h0 c0 u0
      let g1 := subGrad h1 c1 u1
      let n0 := min 1 (max 0 (u0 - step * (delta.1 * g0.1 + delta.2 * g0.2)))
      let n1 := min 1 (max 0 (u1 + step * (delta.1 * g1.1 + delta.2 * g1.2)))
      if normSq (psub (c0 n0) (c1 n1)) ≥ normSq delta then seek h0 h1 c0 c1 tol n u0 u1 (step / 2)
      else seek h0 h1 c0 c1 tol n n0 n1 step
    else (u0, u1)

/-- path.py:2052-2095: `u0`, `u1` and `px` for two consecutive sections. -/
def robustJoin (t : Num K) (tolerance : K) (maxEvals : Nat) (s0 s1 : Sub K) (arm : Int) : K × K × Pt K :=
  let c0 := fun u => s0.call t u arm
  let c1 := fun u => s1.call t u arm
  let p0 := c0 1
  let v0 := s0.grad t 1 arm
  let p1 := c1 0
  let v1 := s1.grad t 0 arm
  let den := v1.2 * v0.1 - v1.1 * v0.2
  let lim := 1 / 10 ^ 12 * normSq v0 * normSq v1
  let c := if den ^ 2 < lim ∨ normSq (psub p1 p0) ≤ tolerance ^ 2 then (0, 0, halfway p0 p1)
    else lineCross p0 v0 p1 v1
  if 1 + c.1 < 1 ∧ c.2.1 > 0 then
    let u := seek s0.h s1.h c0 c1 (tolerance ^ 2) maxEvals (1 + c.1) c.2.1 (1 / 2)
    (u.1, u.2, halfway (c0 u.1) (c1 u.2))
  else (1 + c.1, c.2.1, c.2.2)

/-- path.py:2096-2122: the points of one side of a section before the join with the next, and where the next starts. -/
def robustPiece (t : Num K) (s : Sub K) (start : K) (arm : Int) (j : K × K × Pt K) : List (Pt K) × K :=
  if j.2.1 ≥ 0 then
    if j.1 ≤ 1 then ((s.points t start j.1 arm).dropLast, j.2.1) else (s.points t start 1 arm, j.2.1)
  else if j.1 ≤ 1 then (s.points t start j.1 arm, 0)
  else (s.points t start 1 arm ++ [j.2.2], 0)

/-- path.py:2048-2123: one side of a path. -/
def robustArm (t : Num K) (tolerance : K) (maxEvals : Nat) (arm : Int) : K → Sub K → List (Sub K) → List (Pt K)
  | start, s, [] => s.points t start 1 arm
  | start, s, s1 :: l =>
    let x := robustPiece t s start arm (robustJoin t tolerance maxEvals s s1 arm)
    x.1 ++ robustArm t tolerance maxEvals arm x.2 s1 l

/-- path.py:1989-2125: the outline of one path. -/
def robustOutline (ctx : FlexCtx K) (tolerance : K) (maxEvals : Nat) (fin : FlexEnd K) (path : List (Sub K)) :
    Py (Pgon K) :=
  match path with
  | [] => .error .indexError
  | s :: l => do
    let cap1 ← robustCap ctx tolerance maxEvals fin (l.getLastD s) (-1)
    let arm1 := robustArm ctx.num tolerance maxEvals (-1) 0 s l
    let cap0 ← robustCap ctx tolerance maxEvals fin s 1
    let arm0 := robustArm ctx.num tolerance maxEvals 1 0 s l
    .ok (cap1 ++ arm1.reverse ++ cap0 ++ arm0)

/-- path.py:1986-2162: one pass of the loop over the paths. -/
def Robust.pathPolys (ctx : FlexCtx K) (r : Robust K) (d : PolyDict K) (k : List (Sub K) × FlexEnd K × Int × Int) :
    PolyDict K × Option PyErr :=
  match (do
    let poly ← robustOutline ctx r.tolerance r.maxEvals k.2.1 k.1
    flexPieces ctx r.precision r.maxPoints poly : Py (List (Pgon K))) with
  | .error e => (d, some e)
  | .ok polys => (addDict d (k.2.2.1, k.2.2.2) polys, none)

/-- path.py:1985-2162: what `get_polygons` puts into the cache, with the exception. -/
def Robust.compute (ctx : FlexCtx K) (r : Robust K) : PolyDict K × Option PyErr :=
  forOut (Robust.pathPolys ctx r) [] (List.zip r.paths (List.zip r.ends (List.zip r.layers r.datatypes)))

/-- path.py:1967-2166 `get_polygons(True)`: the object afterwards and the dictionary. -/
def Robust.getPolygons (ctx : FlexCtx K) (r : Robust K) : Robust K × Py (PolyDict K) :=
  match r.cache with
  | some d => (r, .ok d)
  | none =>
    match r.compute ctx with
    | (d, none) => ({ r with cache := some d }, .ok d)
    | (d, some e) => ({ r with cache := some d }, .error e)

/-- path.py:2168-2191 `to_polygonset`; None for an empty path. -/
def Robust.toPolygonset (ctx : FlexCtx K) (r : Robust K) : Robust K × Py (Option (PolySet K)) :=
  match r.paths with
  | [] => (r, .error .indexError)
  | p :: _ =>
    if p.length = 0 then (r, .ok none)
    else match r.getPolygons ctx with
      | (g, .error e) => (g, .error e)
      | (g, .ok d) => (g, do
        match ← (PolyDict.toSet d).fracture (ctx.chop (1 / r.precision)) ctx.fuel r.maxPoints with
        | none => .error .unmodelled
        | some ps => .ok (some ps))

/-- path.py:2391-2410 `area`; `None.area` raises AttributeError. -/
def Robust.area (ctx : FlexCtx K) (r : Robust K) : Robust K × Py K :=
  match r.toPolygonset ctx with
  | (g, .error e) => (g, .error e)
  | (g, .ok none) => (g, .error .attributeError)
  | (g, .ok (some ps)) => (g, .ok (ps.polygons.map polyArea).sum)

/-- A call of a method. `polygons` is `get_polygons`, with any argument. -/
inductive RobustOp (K : Type) where
  | segment (endPt : Pt K) (width offset : RArg K) (relative : Bool)
  | arc (radius ia fa : K) (width offset : RArg K)
  | turn (radius : K) (angle : TurnArg K) (width offset : RArg K)
  | parametric (c : K → Pt K) (grad : Option (K → Pt K)) (width offset : RArg K) (relative : Bool)
  | bezier (points : List (Pt K)) (width offset : RArg K) (relative : Bool)
  | smooth (hobby : Hobby K) (points : List (Pt K)) (cycle : Bool) (width offset : RArg K) (relative : Bool)
  | translate (dx dy : K)
  | rotate (angle : K) (center : Pt K)
  | scale (s : K) (center : Pt K)
  | transform (translation : Option (Pt K)) (rotation scale : Option K) (xrefl : Bool) (arrayTrans : Option (Pt K))
  | polygons
  | polygonset
  | area

def Robust.run (ctx : FlexCtx K) (r : Robust K) : RobustOp K → Out (Robust K)
  | .segment p w o rel => r.segment p w o rel
  | .arc rad ia fa w o => r.arc ctx.num rad ia fa w o
  | .turn rad a w o => r.turn ctx.num rad a w o
  | .parametric c g w o rel => r.parametric c g w o rel
  | .bezier p w o rel => r.bezier p w o rel
  | .smooth h p c w o rel => r.smooth h p c w o rel
  | .translate dx dy => (r.translate dx dy, none)
  | .rotate a c => (r.rotate ctx.num a c, none)
  | .scale s c => (r.scale s c, none)
  | .transform tr ro sc x a => (r.transform ctx.num tr ro sc x a, none)
  | .polygons => let x := r.getPolygons ctx; (x.1, errOf x.2)
  | .polygonset => let x := r.toPolygonset ctx; (x.1, errOf x.2)
  | .area => let x := r.area ctx; (x.1, errOf x.2)

end Order

end Gdspy
