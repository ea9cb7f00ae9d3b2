import Verif.Spec.Outline
import Verif.Model.PolyPath

/-!
# What the outline of a `PolyPath` should be

The sides of a path are straight between the corners. A side that is given from corner to corner by straight sides is drawn
from where two of them meet to where the next two meet.
-/

namespace Gdspy.Spec

variable {K : Type} [Field K] [LinearOrder K]

/-- `p` is farther than the end of `a` (seen from `x`) and before the beginning of `b`. -/
def OuterCorner (x : Pt K) (a b : Side K) (p : Pt K) : Prop :=
  0 < (p.1 - a.2.1) * (a.2.1 - x.1) + (p.2 - a.2.2) * (a.2.2 - x.2) ∧
    (p.1 - b.1.1) * b.vec.1 + (p.2 - b.1.2) * b.vec.2 < 0

/-- The points of a side after the point `x`, which goes along the straight sides of the list. -/
inductive Flank (bevel : Bool) : Pt K → List (Side K) → List (Pt K) → Prop
  /-- The side ends where the last straight side ends. -/
  | last {x : Pt K} {a : Side K} : Flank bevel x [a] [a.2]
  /-- Where it does not turn (measured by the area between the two directions), there is no point. -/
  | straight {x : Pt K} {a b : Side K} {l : List (Side K)} {pts : List (Pt K)} :
      |Side.turn (x, a.2) b| ≤ 1 / 10 ^ 30 → Flank bevel x (b :: l) pts → Flank bevel x (a :: b :: l) pts
  /-- It turns where the line so far and the next straight side meet. -/
  | miter {x : Pt K} {a b : Side K} {l : List (Side K)} {pts : List (Pt K)} {p : Pt K} :
      1 / 10 ^ 30 < |Side.turn (x, a.2) b| → OnLine x a.2 p → OnLine b.1 b.2 p → ¬ (bevel = true ∧ OuterCorner x a b p) →
      Flank bevel p (b :: l) pts → Flank bevel x (a :: b :: l) (p :: pts)
  /-- Bevelled corners are cut off if they are outer ones. -/
  | bevel {x : Pt K} {a b : Side K} {l : List (Side K)} {pts : List (Pt K)} {p : Pt K} :
      1 / 10 ^ 30 < |Side.turn (x, a.2) b| → OnLine x a.2 p → OnLine b.1 b.2 p → bevel = true → OuterCorner x a b p →
      Flank bevel b.1 (b :: l) pts → Flank bevel x (a :: b :: l) (a.2 :: b.1 :: pts)

/-- The straight sides at distances `f i` to the left of the line of points, `i` counted from the index of the first point. -/
def flankSides (t : Num K) (f : Nat → K) : Nat → List (Pt K) → List (Side K)
  | i, p :: q :: r => beside t p q (f i) (f (i + 1)) :: flankSides t f (i + 1) (q :: r)
  | _, _ => []

/-- The polygon between two sides; points where they coincide are not repeated. -/
def outlineBetween (s0 s1 : List (Pt K)) : Pgon K :=
  let s := if s0.head? = s1.head? then s1.drop 1 else s1
  s0 ++ (if s0.getLast? = s.getLast? then s.dropLast else s).reverse

/-- The polygons are the pieces of the area between two sides that have been cut across a number of times. -/
inductive Pieces : List (Pt K) → List (Pt K) → List (Pgon K) → Prop
  | whole {s0 s1 : List (Pt K)} : Pieces s0 s1 [outlineBetween s0 s1]
  | cut {a b a' b' : List (Pt K)} {p p' : Pt K} {gs : List (Pgon K)} : Pieces (p :: b) (p' :: b') gs →
      Pieces (a ++ p :: b) (a' ++ p' :: b') (outlineBetween (a ++ [p]) (a' ++ [p']) :: gs)

/-- A list of values used cyclically. -/
def cyc (l : List K) (j : Nat) : K := l.getD (j % l.length) 0

/-- The distance of a side of path `ii` of `n` from the line at point `j`: `σ` is -1 for the right one and 1 for the left one. -/
def flankOff (widths dists : List K) (n ii : Nat) (σ : K) (j : Nat) : K := lane n ii * cyc dists j + σ * (cyc widths j / 2)

/-- The polygons are the pieces of the area between the two sides at distances `f0` and `f1` of the line. -/
def Ribbon (t : Num K) (bevel : Bool) (f0 f1 : Nat → K) (pts : List (Pt K)) (gs : List (Pgon K)) : Prop :=
  ∃ a b r l, (flankSides t f0 0 pts).head? = some a ∧ (flankSides t f1 0 pts).head? = some b ∧
    Flank bevel a.1 (flankSides t f0 0 pts) r ∧ Flank bevel b.1 (flankSides t f1 0 pts) l ∧ Pieces (a.1 :: r) (b.1 :: l) gs

/-- Half of a disc of radius `r` around `c`, drawn with 33 vertices, from the direction `u` counterclockwise to the opposite one. -/
def HalfDisc (t : Num K) (c : Pt K) (r : K) (u : Pt K) (g : Pgon K) : Prop :=
  ∃ α : K, (t.cos α, t.sin α) = u ∧
    g = c :: (List.range 32).map fun (i : Nat) => (c.1 + r * t.cos (α + i * (2 * t.halfpi / 31)), c.2 + r * t.sin (α + i * (2 * t.halfpi / 31)))

/-- The line is longer by `w0` at its beginning and by `w1` at its end. -/
structure Lengthened (t : Num K) (w0 w1 : K) (pts pts' : List (Pt K)) : Prop where
  length : pts'.length = pts.length
  inner : ∀ i, 0 < i → i + 1 < pts.length → pts'.getD i (0, 0) = pts.getD i (0, 0)
  first : pts'.getD 0 (0, 0) = Side.ahead t (pts.getD 1 (0, 0), pts.getD 0 (0, 0)) (pts.getD 0 (0, 0)) w0
  last : pts'.getD (pts.length - 1) (0, 0) =
    Side.ahead t (pts'.getD (pts.length - 2) (0, 0), pts.getD (pts.length - 1) (0, 0)) (pts.getD (pts.length - 1) (0, 0)) w1

/-- The point `s` to the left of `p`, seen in the direction from `a` to `b`. -/
def leftPt (t : Num K) (p a b : Pt K) (s : K) : Pt K :=
  (p.1 + s * (toLeft t (b.1 - a.1, b.2 - a.2)).1, p.2 + s * (toLeft t (b.1 - a.1, b.2 - a.2)).2)

/-- Half discs at both ends of each path. -/
def RoundEnds (t : Num K) (widths dists : List K) (n : Nat) (pts : List (Pt K)) (one two : Nat → Pgon K) : Prop :=
  ∀ ii < n,
    HalfDisc t (leftPt t (pts.getD 0 (0, 0)) (pts.getD 0 (0, 0)) (pts.getD 1 (0, 0)) (lane n ii * cyc dists 0)) (cyc widths 0 / 2)
      (leftPt t (0, 0) (pts.getD 0 (0, 0)) (pts.getD 1 (0, 0)) 1) (one ii) ∧
    HalfDisc t (leftPt t (pts.getD (pts.length - 1) (0, 0)) (pts.getD (pts.length - 2) (0, 0)) (pts.getD (pts.length - 1) (0, 0))
        (lane n ii * cyc dists (pts.length - 1))) (cyc widths (pts.length - 1) / 2)
      (leftPt t (0, 0) (pts.getD (pts.length - 2) (0, 0)) (pts.getD (pts.length - 1) (0, 0)) (-1)) (two ii)

/-- What the ends are: the line that is followed, and the additional polygons with the tags of their paths. -/
def EndsOf {τ : Type} (t : Num K) (widths dists : List K) (n : Nat) (tag : Nat → τ) (ends : PolyEnd) (pts pts' : List (Pt K))
    (caps : List (Pgon K × τ)) : Prop :=
  ((ends = .flush ∨ ends = .code 0) ∧ pts' = pts ∧ caps = []) ∨
  ((ends = .round ∨ ends = .code 1) ∧ pts' = pts ∧ ∃ one two : Nat → Pgon K,
    caps = ((List.range n).map fun ii => (one ii, tag ii)) ++ ((List.range n).map fun ii => (two ii, tag ii)) ∧
    RoundEnds t widths dists n pts one two) ∨
  ((ends = .extended ∨ ends = .code 2) ∧ Lengthened t (cyc widths 0 / 2) (cyc widths (pts.length - 1) / 2) pts pts' ∧ caps = [])

end Gdspy.Spec
