import Verif.Spec.Path
import Verif.Spec.Plane
import Verif.Spec.Flex
import Mathlib.Algebra.Order.Field.Basic
import Mathlib.Algebra.Order.AbsoluteValue.Basic

/-!
What the polygons of a path cover: bands of a given width along given lines.
-/

namespace Gdspy.Spec

variable {K : Type}

section

variable [Field K]

/-- From `a` at 0 to `b` at 1. -/
def mix (a b u : K) : K := (1 - u) * a + u * b

/-- The position of path `ii` of `n` paths at distance 1 of each other: paths are centred on the axis. -/
def lane (n ii : Nat) : K := (ii : K) - ((n : K) - 1) / 2

/-- The width of a path (the object stores half of it). -/
def widthOf (p : PPath K) : K := 2 * p.w

/-- The point reached by moving `l` ahead and `o` to the right. -/
def Turtle.at (m : Turtle K) (l o : K) : Pt K := (m.forward l o).pos

variable [LinearOrder K]

/-- The convex hull of the vertices. -/
def Hull (P : Pgon K) (p : Pt K) : Prop :=
  ∃ c : List K, c.length = P.length ∧ (∀ x ∈ c, 0 ≤ x) ∧ c.sum = 1 ∧
    p.1 = (List.zipWith (fun x v => x * v.1) c P).sum ∧ p.2 = (List.zipWith (fun x v => x * v.2) c P).sum

/-- The band of path `ii` of `n` along the line that goes `l` ahead and `o` to the right, with width from `w0` to `w1` and
distance between paths from `d0` to `d1`. -/
def SegmentBand (m : Turtle K) (l o w0 w1 d0 d1 : K) (n ii : Nat) (p : Pt K) : Prop :=
  ∃ u s, 0 ≤ u ∧ u ≤ 1 ∧ |s - lane n ii * mix d0 d1 u| ≤ mix w0 w1 u / 2 ∧ p = m.at (u * l) (u * o + s)

/-- `P` is an outline between the curves `side 1` and `side (-1)` from the parameter `u0` to `u1`: its vertices are points
of the one with increasing parameters, then points of the other with decreasing parameters, including the four corners. -/
def OutlineOf (side : K → K → Pt K) (u0 u1 : K) (P : Pgon K) : Prop :=
  ∃ l r : List K, P = l.map (side 1) ++ r.map (side (-1)) ∧ l.Pairwise (· < ·) ∧ r.Pairwise (· > ·) ∧
    (∀ u ∈ l ++ r, u0 ≤ u ∧ u ≤ u1) ∧ ∀ u ∈ [u0, u1], ∀ s ∈ [(1 : K), -1], side s u ∈ P

/-- The sides of path `ii` of `n` along an arc around `c`: radius, angle, width and distance change linearly. -/
def arcSide (t : Num K) (c : Pt K) (radius ia fa w0 w1 d0 d1 : K) (n ii : Nat) (s u : K) : Pt K :=
  (c.1 + (radius + lane n ii * mix d0 d1 u + s * mix w0 w1 u / 2) * t.cos (mix ia fa u),
   c.2 + (radius + lane n ii * mix d0 d1 u + s * mix w0 w1 u / 2) * t.sin (mix ia fa u))

/-- The sides of path `ii` of `n` along a curve with the given left normals, widths and distances. -/
def curveSide (f normal : K → Pt K) (width dist : K → K) (n ii : Nat) (s u : K) : Pt K :=
  ((f u).1 + (normal u).1 * (lane n ii * dist u + s * width u / 2),
   (f u).2 + (normal u).2 * (lane n ii * dist u + s * width u / 2))

/-- What `final_width` and `final_distance` ask for at the parameter `u`: the current value, a linear change to the given
one, or the value of the given function. -/
def wanted (cur : K) (a : FinArg K) (u : K) : K :=
  match a with
  | .none => cur
  | .num b => mix cur b u
  | .fn f => f u

/-- The slope of a curve over [0, 1]: the derivative if it is given, else the difference of values at distance `δ`, to both
sides inside and to the inner side at the ends. -/
def slope (f : K → Pt K) (deriv : Option (K → Pt K)) (δ u : K) : Pt K :=
  match deriv with
  | some g => g u
  | none =>
    let a := if u = 1 then u else u + δ
    let b := if u = 0 then u else u - δ
    ((f a).1 - (f b).1, (f a).2 - (f b).2)

/-- The unit vector to the left of `v`. -/
def toLeft (t : Num K) (v : Pt K) : Pt K :=
  (-v.2 / t.sqrt (v.1 ^ 2 + v.2 ^ 2), v.1 / t.sqrt (v.1 ^ 2 + v.2 ^ 2))

/-- `q` is `p` continued along the curve `F` over [0, 1] with the given slopes, widths and distances between the paths: the
end point, the width, the distance and the direction are those of the end of the curve, and the polygons that were added
are outlines of the bands over consecutive parts of [0, 1], one for each parallel path. -/
structure Drawn (t : Num K) (F slp : K → Pt K) (width dist : K → K) (p q : PPath K) : Prop where
  paths : q.n = p.n
  endPoint : (q.x, q.y) = F 1
  endWidth : widthOf q = width 1
  endDistance : q.distance = dist 1
  endDirection : Num.Polar t → slp 1 ≠ (0, 0) → ∃ r : K, 0 < r ∧
    slp 1 = (r * (q.direction.vec t).1, r * (q.direction.vec t).2)
  pieces : ∃ (cuts : List K) (rounds : List (List (Pgon K))), cuts.head? = some 0 ∧ cuts.getLast? = some 1 ∧
    cuts.Pairwise (· < ·) ∧ cuts.length = rounds.length + 1 ∧ q.polygons = p.polygons ++ rounds.flatten ∧
    ∀ (jj : Nat) (round : List (Pgon K)) (a b : K), rounds[jj]? = some round → cuts[jj]? = some a →
      cuts[jj + 1]? = some b → round.length = p.n ∧ ∀ (ii : Nat) (P : Pgon K), round[ii]? = some P →
        OutlineOf (curveSide F (fun u => toLeft t (slp u)) width dist p.n ii) a b P

/-- The control points of the derivative of a Bezier curve. -/
def hodograph (ctrl : List (Pt K)) : List (Pt K) :=
  (List.range (ctrl.length - 1)).map fun i =>
    let a := ctrl.getD i (0, 0)
    let b := ctrl.getD (i + 1) (0, 0)
    (((ctrl.length - 1 : Nat) : K) * (b.1 - a.1), ((ctrl.length - 1 : Nat) : K) * (b.2 - a.2))

/-- The entry of `final_widths` or `final_distances` for curve `i` (the last entry for the closing curve); no change
without a list. -/
def PickedFor (o : Option (List (FinArg K))) (i : Nat) (closing : Bool) (x : FinArg K) : Prop :=
  match o with
  | none => x = .none
  | some l => if closing then l.getLast? = some x else l[i]? = some x

/-- The angle of a turn, positive to the left. -/
def turnAngle (t : Num K) : TurnArg K → K
  | .l => t.halfpi
  | .ll => 2 * t.halfpi
  | .r => -t.halfpi
  | .rr => -(2 * t.halfpi)
  | .num a => a

/-- The sides of path `ii` of `n` along a turn: after the part `u` of the turn, across the direction reached there. In a
turn to the left, path 0 is the leftmost one, as in a segment; in a turn to the right it is the rightmost one. -/
def turnSide (t : Num K) (m : Turtle K) (r a w0 w1 d0 d1 : K) (n ii : Nat) (s u : K) : Pt K :=
  if 0 ≤ a then (m.left t r (u * a)).at 0 (lane n ii * mix d0 d1 u + s * mix w0 w1 u / 2)
  else (m.right t r (u * -a)).at 0 (-(lane n ii * mix d0 d1 u + s * mix w0 w1 u / 2))

/-- The sides of path `ii` of a segment that starts or ends at `m`: it is `lane n ii * d` to the right. -/
def segSide (m : Turtle K) (w d : K) (n ii : Nat) (s : K) : Pt K := m.at 0 (lane n ii * d + s * w / 2)

/-- `p'` is the path `p` transformed by `g`, which multiplies distances by `k`: so are its polygons, its width, its end point
and what is ahead of it and aside. (`sgn` is -1 for a map that exchanges left and right, else 1.) -/
structure PathMoved (t : Num K) (g : Pt K → Pt K) (k sgn : K) (p p' : PPath K) : Prop where
  polygons : p'.polygons = p.polygons.map (List.map g)
  layers : p'.layers = p.layers ∧ p'.datatypes = p.datatypes
  paths : p'.n = p.n
  width : widthOf p' = k * widthOf p
  ahead : ∀ l o, (turtleOf t p').at (k * l) (sgn * k * o) = g ((turtleOf t p).at l o)

end

end Gdspy.Spec
