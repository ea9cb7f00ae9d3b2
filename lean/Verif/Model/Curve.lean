import Verif.Model.Path

/-!
# Curve

Model of the class `Curve` (curve.py:38-955). A call returns the object as it is afterwards together with the
exception, if any. The sampling loops have fuel; running out of it is `unmodelled`.

Not modelled: arguments that are neither real nor complex numbers, and a real number followed by a complex one
(`unmodelled`; numpy raises TypeError or stores complex coordinates).
-/

namespace Gdspy

variable {K : Type}

/-- The numpy functions used by `Curve`; `pow08 x` is `x ** 0.8` for x ≥ 0. -/
structure CurveNum (K : Type) extends Num K where
  pow08 : K → K

/-- An argument: a real or a complex number. -/
inductive CArg (K : Type) where
  | re (x : K)
  | cx (z : Pt K)
  deriving DecidableEq

/-- curve.py:93-101: the attributes; `tol` is the square of the tolerance. -/
structure Curve (K : Type) where
  points : List (Pt K)
  tol : K
  lastC : Option (Pt K)
  lastQ : Option (Pt K)
  deriving DecidableEq

/-- curve.py:132-139 (the same in all methods): complex numbers count for a point, real numbers come in pairs
(`xy[i + 1]` raises IndexError). The points before the error are returned too. -/
def parseArgs : List (CArg K) → List (Pt K) × Option PyErr
  | [] => ([], none)
  | .cx z :: r => (z :: (parseArgs r).1, (parseArgs r).2)
  | .re x :: .re y :: r => ((x, y) :: (parseArgs r).1, (parseArgs r).2)
  | [.re _] => ([], some .indexError)
  | .re _ :: .cx _ :: _ => ([], some .unmodelled)

section Field

variable [Field K]

/-- curve.py:95-101 `__init__`. -/
def Curve.new (start : Pt K) (tolerance : K) : Curve K := ⟨[start], tolerance ^ 2, none, none⟩

/-- `self.points[-1]`. -/
def Curve.pen (c : Curve K) : Pt K := c.points.getLastD (0, 0)

/-- Points relative to the pen, or absolute. -/
def Curve.toAbs (rel : Bool) (c : Curve K) (p : Pt K) : Pt K :=
  if rel then (c.pen.1 + p.1, c.pen.2 + p.2) else p

/-- curve.py:131, 157, ...: `self.last_c = self.last_q = None`. -/
def Curve.forget (c : Curve K) : Curve K := { c with lastC := none, lastQ := none }

/-- curve.py:117-167 `L` and `l`. -/
def Curve.line (rel : Bool) (args : List (CArg K)) (c : Curve K) : Out (Curve K) :=
  ({ c.forget with points := c.points ++ (parseArgs args).1.map (c.toAbs rel) }, (parseArgs args).2)

/-- curve.py:169-206 `H` and `h`. -/
def Curve.hor (rel : Bool) (xs : List K) (c : Curve K) : Out (Curve K) :=
  ({ c.forget with points := c.points ++ xs.map fun x => ((if rel then c.pen.1 + x else x), c.pen.2) }, none)

/-- curve.py:208-245 `V` and `v`. -/
def Curve.ver (rel : Bool) (ys : List K) (c : Curve K) : Out (Curve K) :=
  ({ c.forget with points := c.points ++ ys.map fun y => (c.pen.1, (if rel then c.pen.2 + y else y)) }, none)

end Field

section Order

variable [Field K] [LinearOrder K]

/-- curve.py:103-115 `get_points`: the last point is left out if it is close to the first. -/
def Curve.getPoints (c : Curve K) : List (Pt K) :=
  if sqErr (c.points.getLastD (0, 0)) (c.points.headD (0, 0)) < c.tol then c.points.dropLast else c.points

/-- curve.py:283-291: a point of the ellipse, rotated. -/
def ellipsePt (t : Num K) (rx ry rotation a : K) : Pt K :=
  let x := rx * t.cos a
  let y := ry * t.sin a
  if rotation = 0 then (x, y) else (x * t.cos rotation - y * t.sin rotation, x * t.sin rotation + y * t.cos rotation)

/-- curve.py:247-294 `arc` with radii `rx`, `ry` (both the radius, if it is one number). -/
def Curve.arc [FloorRing K] (t : Num K) (rx ry initial final rotation : K) (c : Curve K) : Out (Curve K) :=
  let c := c.forget
  match arcSteps t |final - initial| (t.sqrt c.tol) (max rx ry) with
  | .error e => (c, some e)
  | .ok n =>
    let rot := (linspace (initial - rotation) (final - rotation) (max 3 (1 + n)).toNat).map
      (ellipsePt t rx ry rotation)
    let o := rot.headD (0, 0)
    ({ c with points := c.points ++ (rot.drop 1).map fun p => (p.1 - o.1 + c.pen.1, p.2 - o.2 + c.pen.2) }, none)

/-- curve.py:326-339: the refinement of a Bezier curve, started at the parameters `uu`; all samples but the first
are appended. -/
def Curve.addBez (fuel : Nat) (uu : List K) (ctrl : List (Pt K)) (c : Curve K) : Option (Curve K) :=
  match midSample (funcBezier ctrl) c.tol fuel uu 0 with
  | none => none
  | some r => some { c with points := c.points ++ (r.1.drop 1).map Prod.snd }

/-- curve.py:327. -/
def fiveParams : List K := [0, 1 / 5, 1 / 2, 4 / 5, 1]

/-- curve.py:314-339: the loop of `C` and `c`, with the second control point of the last group. -/
def cubicLoop (fuel : Nat) : List (Pt K) → Curve K → Option (Pt K) → Curve K × Option (Pt K) × Option PyErr
  | a :: b :: d :: r, c, lc =>
    match c.addBez fuel fiveParams [c.pen, a, b, d] with
    | none => (c, lc, some .unmodelled)
    | some c' => cubicLoop fuel r c' (some b)
  | [], c, lc => (c, lc, none)
  | _, c, lc => (c, lc, some .indexError)

/-- curve.py:296-390 `C` and `c`. Without arguments the last line raises UnboundLocalError. -/
def Curve.cubic (fuel : Nat) (rel : Bool) (args : List (CArg K)) (c : Curve K) : Out (Curve K) :=
  match cubicLoop fuel ((parseArgs args).1.map (c.toAbs rel)) { c with lastQ := none } none with
  | (c, _, some .unmodelled) => (c, some .unmodelled)
  | (c, _, some e) => (c, some ((parseArgs args).2.getD e))
  | (c, lc, none) =>
    match (parseArgs args).2, lc with
    | some e, _ => (c, some e)
    | none, none => (c, some .unboundLocal)
    | none, some b => ({ c with lastC := some b }, none)

/-- `2 * ctrl[0] - last`. -/
def reflectPt (o p : Pt K) : Pt K := (2 * o.1 - p.1, 2 * o.2 - p.2)

/-- curve.py:416-443: the loop of `S` and `s`; `last_c` is not `None` here. -/
def smoothCubicLoop (fuel : Nat) : List (Pt K) → Curve K → Out (Curve K)
  | b :: d :: r, c =>
    match c.addBez fuel fiveParams [c.pen, reflectPt c.pen (c.lastC.getD c.pen), b, d] with
    | none => (c, some .unmodelled)
    | some c' => smoothCubicLoop fuel r { c' with lastC := some b }
  | [], c => (c, none)
  | _, c => (c, some .indexError)

/-- An error of the loop, or the error of the arguments where the loop ends. -/
def mergeErr (e : Option PyErr) : Out (Curve K) → Out (Curve K)
  | (c, some .unmodelled) => (c, some .unmodelled)
  | (c, some e') => (c, some (e.getD e'))
  | (c, none) => (c, e)

/-- curve.py:392-500 `S` and `s`. -/
def Curve.smoothCubic (fuel : Nat) (rel : Bool) (args : List (CArg K)) (c : Curve K) : Out (Curve K) :=
  mergeErr (parseArgs args).2 (smoothCubicLoop fuel ((parseArgs args).1.map (c.toAbs rel))
    { c with lastQ := none, lastC := some (c.lastC.getD c.pen) })

/-- curve.py:519-544: the loop of `Q` and `q`. -/
def quadLoop (fuel : Nat) : List (Pt K) → Curve K → Option (Pt K) → Curve K × Option (Pt K) × Option PyErr
  | a :: d :: r, c, lq =>
    match c.addBez fuel fiveParams [c.pen, a, d] with
    | none => (c, lq, some .unmodelled)
    | some c' => quadLoop fuel r c' (some a)
  | [], c, lq => (c, lq, none)
  | _, c, lq => (c, lq, some .indexError)

/-- curve.py:502-594 `Q` and `q`. -/
def Curve.quad (fuel : Nat) (rel : Bool) (args : List (CArg K)) (c : Curve K) : Out (Curve K) :=
  match quadLoop fuel ((parseArgs args).1.map (c.toAbs rel)) { c with lastC := none } none with
  | (c, _, some .unmodelled) => (c, some .unmodelled)
  | (c, _, some e) => (c, some ((parseArgs args).2.getD e))
  | (c, lq, none) =>
    match (parseArgs args).2, lq with
    | some e, _ => (c, some e)
    | none, none => (c, some .unboundLocal)
    | none, some a => ({ c with lastQ := some a }, none)

/-- curve.py:618-644: the loop of `T` and `t`; `last_q` is not `None` here. -/
def smoothQuadLoop (fuel : Nat) : List (Pt K) → Curve K → Out (Curve K)
  | d :: r, c =>
    let a := reflectPt c.pen (c.lastQ.getD c.pen)
    match c.addBez fuel fiveParams [c.pen, a, d] with
    | none => (c, some .unmodelled)
    | some c' => smoothQuadLoop fuel r { c' with lastQ := some a }
  | [], c => (c, none)

/-- curve.py:596-698 `T` and `t`. -/
def Curve.smoothQuad (fuel : Nat) (rel : Bool) (args : List (CArg K)) (c : Curve K) : Out (Curve K) :=
  mergeErr (parseArgs args).2 (smoothQuadLoop fuel ((parseArgs args).1.map (c.toAbs rel))
    { c with lastC := none, lastQ := some (c.lastQ.getD c.pen) })

/-- curve.py:727-728: `0.5 * (1 + sign(v) * abs(v) ** 0.8)` for `linspace(-1, 1, n)`. -/
def bezParams (pow08 : K → K) (n : Nat) : List K :=
  (linspace (-1) 1 n).map fun v =>
    (1 + (if v < 0 then -1 else if v = 0 then 0 else 1) * pow08 |v|) / 2

/-- curve.py:700-786 `B` and `b`. -/
def Curve.general (t : CurveNum K) (fuel : Nat) (rel : Bool) (args : List (CArg K)) (c : Curve K) : Out (Curve K) :=
  match (parseArgs args).2 with
  | some e => (c.forget, some e)
  | none =>
    let ctrl := c.pen :: (parseArgs args).1.map (c.toAbs rel)
    match c.forget.addBez fuel (bezParams t.pow08 (ctrl.length + 1)) ctrl with
    | none => (c.forget, some .unmodelled)
    | some c' => (c', none)

/-- curve.py:853-869: the arguments of `C`. -/
def interpArgs (cycle : Bool) (pts cta ctb : List (Pt K)) : Py (List (CArg K)) := do
  let l ← (List.range (pts.length - 1)).mapM fun i => do
    let a ← idx cta i
    let b ← idx ctb i
    let p ← idx pts (i + 1)
    pure [CArg.re a.1, .re a.2, .re b.1, .re b.2, .re p.1, .re p.2]
  if cycle then
    let a ← idx cta (cta.length - 1)
    let b ← idx ctb (ctb.length - 1)
    let p ← idx pts 0
    pure (l.flatten ++ [CArg.re a.1, .re a.2, .re b.1, .re b.2, .re p.1, .re p.2])
  else pure l.flatten

/-- curve.py:788-955 `I` and `i`: the control points of `_hobby` (not modelled: any two lists) are given to `C`.
`vstack` with an empty list raises ValueError. -/
def Curve.interp (hobby : Hobby K) (fuel : Nat) (rel cycle : Bool) (points : List (Pt K)) (c : Curve K) :
    Out (Curve K) :=
  if points = [] then (c, some .valueError)
  else
    let pts := c.pen :: points.map (c.toAbs rel)
    match hobby pts with
    | .error e => (c, some e)
    | .ok (cta, ctb) =>
      match interpArgs cycle pts cta ctb with
      | .error e => (c, some e)
      | .ok args => Curve.cubic fuel false args c

/-- A call of one of the methods; `rel` for the names in lower case. -/
inductive CurveCmd (K : Type) where
  | line (rel : Bool) (args : List (CArg K))
  | hor (rel : Bool) (xs : List K)
  | ver (rel : Bool) (ys : List K)
  | arc (rx ry initial final rotation : K)
  | cubic (rel : Bool) (args : List (CArg K))
  | smoothCubic (rel : Bool) (args : List (CArg K))
  | quad (rel : Bool) (args : List (CArg K))
  | smoothQuad (rel : Bool) (args : List (CArg K))
  | general (rel : Bool) (args : List (CArg K))
  | interp (rel cycle : Bool) (hobby : Hobby K) (points : List (Pt K))

def Curve.run [FloorRing K] (t : CurveNum K) (fuel : Nat) (c : Curve K) : CurveCmd K → Out (Curve K)
  | .line rel args => c.line rel args
  | .hor rel xs => c.hor rel xs
  | .ver rel ys => c.ver rel ys
  | .arc rx ry i f r => c.arc t.toNum rx ry i f r
  | .cubic rel args => c.cubic fuel rel args
  | .smoothCubic rel args => c.smoothCubic fuel rel args
  | .quad rel args => c.quad fuel rel args
  | .smoothQuad rel args => c.smoothQuad fuel rel args
  | .general rel args => c.general t fuel rel args
  | .interp rel cycle hobby points => c.interp hobby fuel rel cycle points

end Order

end Gdspy
