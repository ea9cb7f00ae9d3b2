import Verif.Model.Hier

/-!
# Curve sampling

Model of `_func_bezier` (path.py:68-85), of the midpoint refinement loop shared by
`Path.parametric` and the methods of `Curve`, and of the loop with three test points in
`_SubPath.points` (path.py:147-165) and `FlexPath.parametric` (path.py:1533-1550).

A list with a running index `i` is kept as the element before the index (`p`), the elements before
that one in reverse (`done`) and the elements from the index on (`rest`): `i < len` is `rest ≠ []`,
`insert(i, v)` is `v :: rest`, `i += 1` moves the head of `rest`.

The loops need not end for a curve that is not continuous, so they have fuel: `none` is a loop that
has not ended yet.
-/

namespace Gdspy

variable {K : Type}

/-- `numpy.linspace(a, b, n)` in exact arithmetic. -/
def linspace [Field K] (a b : K) (n : Nat) : List K :=
  (List.range n).map fun (i : Nat) => a + (i : K) * ((b - a) / ((n : K) - 1))

section Bezier

variable [Field K]

/-- path.py:74: `p[1:] * u + p[:-1] * (1 - u)`. -/
def casteljauStep (u : K) : List (Pt K) → List (Pt K)
  | p :: q :: r => (q.1 * u + p.1 * (1 - u), q.2 * u + p.2 * (1 - u)) :: casteljauStep u (q :: r)
  | _ => []

/-- path.py:72-74: the step is repeated `ctrl.shape[0] - 1` times. -/
def casteljau (u : K) : Nat → List (Pt K) → List (Pt K)
  | 0, p => p
  | n + 1, p => casteljau u n (casteljauStep u p)

/-- path.py:68-85 `_func_bezier(ctrl)(u)`. `p[0]` of an empty array raises IndexError; every caller
has at least one control point, and here the value is the origin. -/
def funcBezier (ctrl : List (Pt K)) (u : K) : Pt K :=
  (casteljau u (ctrl.length - 1) ctrl).headD (0, 0)

end Bezier

section Mid

variable [Field K] [LinearOrder K]

/-- `test_err[0] ** 2 + test_err[1] ** 2`. -/
def sqErr (a b : Pt K) : K := (a.1 - b.1) ^ 2 + (a.2 - b.2) ^ 2

/-- `0.5 * (a + b)` of two points. -/
def midPt (a b : Pt K) : Pt K := ((a.1 + b.1) / 2, (a.2 + b.2) / 2)

/-- polygon.py:1702-1713 and curve.py:329-338 (and the same loop in every other method of `Curve`): the loop `while i < len(points)`. Returns the parameters with their values, and
`delta` (polygon.py:1708; unused in `Curve`). -/
def midLoop (f : K → Pt K) (err : K) :
    Nat → List (K × Pt K) → K × Pt K → List (K × Pt K) → K → Option (List (K × Pt K) × K)
  | _, done, p, [], delta => some ((p :: done).reverse, delta)
  | 0, _, _, _ :: _, _ => none
  | fuel + 1, done, p, q :: rest, delta =>
    let mid := (q.1 + p.1) / 2
    let v := f mid
    if sqErr (midPt q.2 p.2) v > err then
      midLoop f err fuel done p ((mid, v) :: q :: rest) (min delta (q.1 - mid))
    else
      midLoop f err fuel (p :: done) q rest delta

/-- The loop started on a list of parameters (`i = 1`). -/
def midSample (f : K → Pt K) (err : K) (fuel : Nat) (us : List K) (delta : K) :
    Option (List (K × Pt K) × K) :=
  match us with
  | [] => some ([], delta)
  | u :: us => midLoop f err fuel [] (u, f u) (us.map fun u => (u, f u)) delta

end Mid

section SubPath

variable [Field K] [LinearOrder K]

/-- A point at fraction `f` between two points (path.py:154-156). -/
def lerpPt (a b : Pt K) (f : K) : Pt K :=
  (a.1 * (1 - f) + b.1 * f, a.2 * (1 - f) + b.2 * f)

/-- path.py:152-163: the inner loop, `f` = 0.2, 0.5, 0.8: the first failing test point. -/
def fracTest (c : K → Pt K) (err : K) (p q : K × Pt K) : List K → Option (K × Pt K)
  | [] => none
  | f :: fs =>
    let u := p.1 * (1 - f) + q.1 * f
    let v := c u
    if sqErr (lerpPt p.2 q.2 f) v > err then some (u, v) else fracTest c err p q fs

/-- `len(pts) < self.max_evals`. -/
def underCap (n : Nat) : Option Nat → Bool
  | none => true
  | some m => n < m

/-- path.py:151-164: the outer loop `while i < len(pts) < self.max_evals`. When a test point is
inserted `f = 1` ends the inner loop and `i -= 1`, `i += 1` leave the index in place. In
`FlexPath.parametric` (path.py:1537-1550) there is no limit: `maxEvals = none`. -/
def subLoop (c : K → Pt K) (err : K) (maxEvals : Option Nat) :
    Nat → List (K × Pt K) → K × Pt K → List (K × Pt K) → Option (List (K × Pt K))
  | _, done, p, [] => some (p :: done).reverse
  | 0, done, p, q :: rest =>
    if underCap (done.length + 1 + (rest.length + 1)) maxEvals then none else some ((p :: done).reverse ++ q :: rest)
  | fuel + 1, done, p, q :: rest =>
    if underCap (done.length + 1 + (rest.length + 1)) maxEvals then
      match fracTest c err p q [1 / 5, 1 / 2, 4 / 5] with
      | some m => subLoop c err maxEvals fuel done p (m :: q :: rest)
      | none => subLoop c err maxEvals fuel (p :: done) q rest
    else some ((p :: done).reverse ++ q :: rest)

/-- path.py:147-165 `_SubPath.points(u0, u1, arm)`; `c` is the curve of that arm. -/
def subPoints (c : K → Pt K) (err : K) (maxEvals fuel : Nat) (u0 u1 : K) : Option (List (K × Pt K)) :=
  subLoop c err (some maxEvals) fuel [] (u0, c u0) [(u1, c u1)]

end SubPath

end Gdspy
