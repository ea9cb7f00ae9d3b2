import Mathlib.Algebra.Order.Field.Basic
import Mathlib.Algebra.Order.AbsoluteValue.Basic
import Verif.Spec.Plane

/-!
# Specification: bands along the axes

A walk goes straight ahead, turns left or right, goes on. The turn also says by which factor the band is wider
on the next section. The sides of a band are at the distances `o` to the left of the walk (negative: to the right), times
the factor of the section; two sections meet in a corner.
-/

namespace Gdspy.Spec

variable {K : Type} [Field K] [LinearOrder K]

/-- The heading turned by a quarter to the left. -/
def leftOf (h : Pt K) : Pt K := (-h.2, h.1)

/-- The heading after a turn: to the left if positive, to the right if not. -/
def headingAfter (h : Pt K) (t : K) : Pt K := if t > 0 then leftOf h else (h.2, -h.1)

/-- `p + a u + b v` -/
def off (p : Pt K) (a : K) (u : Pt K) (b : K) (v : Pt K) : Pt K := (p.1 + a * u.1 + b * v.1, p.2 + a * u.2 + b * v.2)

/-- The side at distance `o` from the position `pos` on, without its first point. `f` is the factor of this section. -/
def sideRest (o : K) : K → Pt K → Pt K → List K → List K → List (Pt K)
  | f, pos, head, len :: lens, turn :: turns =>
    let c := off pos len head 0 head
    off c (o * f) (leftOf head) (o * |turn|) (leftOf (headingAfter head turn)) ::
      sideRest o |turn| c (headingAfter head turn) lens turns
  | f, pos, head, [len], [] => [off pos len head (o * f) (leftOf head)]
  | _, _, _, _, _ => []

/-- The side at distance `o` of the whole walk. -/
def sideOf (o : K) (pos head : Pt K) (lens turns : List K) : List (Pt K) :=
  off pos o (leftOf head) 0 head :: sideRest o 1 pos head lens turns

/-- The two sides of a piece of a band, the right one first. -/
abbrev Sides (K : Type) := List (Pt K) × List (Pt K)

/-- The polygon between two sides. -/
def Sides.outline (s : Sides K) : Pgon K := s.1 ++ s.2.reverse

/-- Parallel bands of one width are `distance` apart and centred on the walk; the first one is at the right. -/
def bandAt (n ii : Nat) (distance width : K) (pos head : Pt K) (lens turns : List K) : Sides K :=
  let o := ((ii : K) - ((n : K) - 1) / 2) * distance
  (sideOf (o - width / 2) pos head lens turns, sideOf (o + width / 2) pos head lens turns)

/-- A band is cut across: from `a` to `b` on the right side and from `a'` to `b'` on the left side it goes along `h`; the cut
goes from `c` to `c'`, at right angles to `h`, half way between the beginning of one of the two sides and the end of one of
them, those that are closest along `h`. Any of the pieces after the cut may be cut again. -/
inductive CutInto : Sides K → List (Sides K) → Prop
  | whole (s : Sides K) : CutInto s [s]
  | cut {ra rb la lb : List (Pt K)} {a b c a' b' c' h s e : Pt K} {ps : List (Sides K)} (x y z z' : K)
      (same : ra.length = la.length) (unit : h.1 ^ 2 + h.2 ^ 2 = 1)
      (right : b = off a x h 0 h) (left : b' = off a' y h 0 h)
      (rightCut : c = off a z h 0 h) (leftCut : c' = off a' z' h 0 h)
      (across : (c'.1 - c.1) * h.1 + (c'.2 - c.2) * h.2 = 0)
      (start : s = a ∨ s = a') (stop : e = b ∨ e = b')
      (closest : ∀ s' e', (s' = a ∨ s' = a') → (e' = b ∨ e' = b') →
        |(s.1 - e.1) * h.1 + (s.2 - e.2) * h.2| ≤ |(s'.1 - e'.1) * h.1 + (s'.2 - e'.2) * h.2|)
      (half : 2 * (c.1 * h.1 + c.2 * h.2) = (s.1 * h.1 + s.2 * h.2) + (e.1 * h.1 + e.2 * h.2))
      (rest : CutInto (c :: b :: rb, c' :: b' :: lb) ps) :
      CutInto (ra ++ a :: b :: rb, la ++ a' :: b' :: lb) ((ra ++ [a, c], la ++ [a', c']) :: ps)

/-- The sum of (length of a section times its factor), without what the corners take away at distance `o`. -/
def bandLength (o : K) : K → List K → List K → K
  | f, len :: lens, turn :: turns => f * len - 2 * o * (f * turn) + bandLength o |turn| lens turns
  | f, [len], [] => f * len
  | _, _, _ => 0

end Gdspy.Spec
