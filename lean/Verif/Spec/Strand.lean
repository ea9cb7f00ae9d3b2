import Verif.Spec.Outline
import Verif.Spec.Curve
import Verif.Model.Robust

/-!
# What the outline of a RobustPath should be

The sides of a path are curves, one for each section. They are drawn one after the other, cut or extended where
they meet.
-/

namespace Gdspy.Spec

variable {K : Type}

section

variable [Field K] [LinearOrder K]

/-- One side of a section: a curve, and its direction at the beginning and at the end. -/
structure Strand (K : Type) where
  curve : K → Pt K
  first : Pt K
  last : Pt K

/-- The chord from `p` to `q` passes the three tests of the tolerance. -/
def ChordOk (c : K → Pt K) (err : K) (p q : K × Pt K) : Prop :=
  CloseAt c err (1 / 5) p q ∧ CloseAt c err (1 / 2) p q ∧ CloseAt c err (4 / 5) p q

/-- Points of the curve from `a` to `b`, as many as the tolerance requires or the limit allows. -/
def Sampled (c : K → Pt K) (err : K) (limit : Nat) (a b : K) (pts : List (Pt K)) : Prop :=
  ∃ l, Samples c a b l ∧ pts = l.map Prod.snd ∧ l.length ≤ max limit 2 ∧
    (l.IsChain (ChordOk c err) ∨ l.length = max limit 2)

/-- The end of `A` and the beginning of `B` are no farther apart than the tolerance, or the sine of the angle between their
directions is less than one millionth. -/
def Strand.Even (tol : K) (A B : Strand K) : Prop :=
  dist2 (A.curve 1) (B.curve 0) ≤ tol ^ 2 ∨
    (A.last.1 * B.first.2 - A.last.2 * B.first.1) ^ 2 <
      1 / 10 ^ 12 * (A.last.1 ^ 2 + A.last.2 ^ 2) * (B.first.1 ^ 2 + B.first.2 ^ 2)

/-- `x` is where the line along the end of `A` meets that along the beginning of `B`, at `p`: after the end of `A` if `x`
is positive, before the beginning of `B` if `y` is negative. -/
def Strand.Cross (A B : Strand K) (x y : K) (p : Pt K) : Prop :=
  p = ((A.curve 1).1 + x * A.last.1, (A.curve 1).2 + x * A.last.2) ∧
  p = ((B.curve 0).1 + y * B.first.1, (B.curve 0).2 + y * B.first.2)

/-- How side `A` is followed by side `B`: `A` is drawn up to `b`, without the last point if `cut`, then `between`, then `B`
from `a`. -/
inductive StrandJoin (tol : K) (A B : Strand K) : (b a : K) → (cut : Bool) → (between : List (Pt K)) → Prop
  /-- The sides fit together (or have the same direction): one goes on where the other ends. -/
  | even : A.Even tol B → StrandJoin tol A B 1 0 true []
  /-- An inner corner: both are cut at a common point. -/
  | inside {x y : K} {p : Pt K} {b a : K} : ¬ A.Even tol B → A.Cross B x y p → x < 0 → 0 < y → b ≤ 1 → 0 ≤ a →
      dist2 (A.curve b) (B.curve a) ≤ tol ^ 2 → StrandJoin tol A B b a true []
  /-- An inner corner where no common point is found (with a warning). -/
  | lost {x y : K} {p : Pt K} {b a : K} : ¬ A.Even tol B → A.Cross B x y p → x < 0 → 0 < y → b ≤ 1 → 0 ≤ a →
      tol ^ 2 < dist2 (A.curve b) (B.curve a) → dist2 (A.curve b) (B.curve a) ≤ dist2 (A.curve (1 + x)) (B.curve y) →
      StrandJoin tol A B b a true []
  /-- The lines meet at the end of `A` or the beginning of `B`. -/
  | touch {x y : K} {p : Pt K} : ¬ A.Even tol B → A.Cross B x y p → x ≤ 0 → 0 ≤ y → x = 0 ∨ y = 0 →
      StrandJoin tol A B (1 + x) y true []
  /-- An outer corner: both are extended to the point where they meet. -/
  | outside {x y : K} {p : Pt K} : ¬ A.Even tol B → A.Cross B x y p → 0 < x → y < 0 → StrandJoin tol A B 1 0 false [p]
  /-- `A` would have to be extended and `B` to be cut (with a warning). -/
  | short {x y : K} {p : Pt K} : ¬ A.Even tol B → A.Cross B x y p → 0 < x → 0 ≤ y → StrandJoin tol A B 1 y false []
  /-- `A` would have to be cut and `B` to be extended (with a warning). -/
  | long {x y : K} {p : Pt K} : ¬ A.Even tol B → A.Cross B x y p → x ≤ 0 → y < 0 → StrandJoin tol A B (1 + x) 0 false []

/-- The points of a side that follows several curves, the first from `a`. Nothing is said about a section of which
nothing is left. -/
inductive StrandRun (tol : K) (limit : Nat) : K → List (Strand K) → List (Pt K) → Prop
  | last {a : K} {A : Strand K} {pts : List (Pt K)} : (a < 1 → Sampled A.curve (tol ^ 2) limit a 1 pts) → StrandRun tol limit a [A] pts
  | next {a b a' : K} {cut : Bool} {A B : Strand K} {l : List (Strand K)} {pts between rest : List (Pt K)} :
      StrandJoin tol A B b a' cut between → (a < b → Sampled A.curve (tol ^ 2) limit a b pts) → StrandRun tol limit a' (B :: l) rest →
      StrandRun tol limit a (A :: B :: l) ((if cut then pts.dropLast else pts) ++ between ++ rest)

/-- The line of a section, before its transformation: `off` to the right of the curve. -/
def centreLine (t : Num K) (s : Sub K) (u : K) : Pt K :=
  let n := toLeft t (s.dx u s.h)
  ((s.x u).1 - s.off u * n.1, (s.x u).2 - s.off u * n.2)

/-- The direction of the line of a section, from a small step back to a small step ahead. -/
def lineHeading (t : Num K) (s : Sub K) (u : K) : Pt K :=
  let p := centreLine t s (max 0 (u - s.h))
  let q := centreLine t s (min 1 (u + s.h))
  (q.1 - p.1, q.2 - p.2)

/-- A point of a section as drawn: half of the width to the left of its line (`side` 1), to the right (-1) or on it (0). -/
def edge (t : Num K) (s : Sub K) (side : K) (u : K) : Pt K :=
  let c := centreLine t s u
  let n := toLeft t (lineHeading t s u)
  s.tr.app (c.1 + side * (s.wid u / 2) * n.1, c.2 + side * (s.wid u / 2) * n.2)

/-- The slope of a curve over a small step to both sides, inside of [0, 1]. -/
def stepSlope (h : K) (c : K → Pt K) (u : K) : Pt K :=
  let u0 := max 0 (u - h)
  let u1 := min 1 (u + h)
  (((c u1).1 - (c u0).1) / (u1 - u0), ((c u1).2 - (c u0).2) / (u1 - u0))

/-- A vector of length 1. -/
def unitVec (t : Num K) (v : Pt K) : Pt K :=
  (v.1 / t.sqrt (v.1 ^ 2 + v.2 ^ 2), v.2 / t.sqrt (v.1 ^ 2 + v.2 ^ 2))

/-- The direction out of a section: ahead at its end (`u` is 1), back at its beginning (`u` is 0). -/
def outward (t : Num K) (s : Sub K) (u : K) : Pt K :=
  let v := unitVec t (stepSlope s.h (edge t s 0) u)
  ((2 * u - 1) * v.1, (2 * u - 1) * v.2)

/-- A side of a section as drawn. -/
def strand (t : Num K) (side : K) (s : Sub K) : Strand K :=
  ⟨edge t s side, stepSlope s.h (edge t s side) 0, stepSlope s.h (edge t s side) 1⟩

/-- The extension given for an end (`u` is 0 at the beginning and 1 at the end). -/
def extension (fin : FlexEnd K) (u : K) : K :=
  match fin with
  | .pair a b => if u = 0 then a else b
  | _ => 0

/-- The outline of the sections from `s` to `e`, of the widths `w0` at the beginning and `w1` at the end: across the end, back along
the left side, across the beginning and along the right side. -/
def RobustOutlineOk (t : Num K) (tol : K) (limit : Nat) (fin : FlexEnd K) (path : List (Sub K)) (s e : Sub K) (w0 w1 : K)
    (P : Pgon K) : Prop :=
  ∃ left right begins ends : List (Pt K),
    P = (ends.drop 1).dropLast ++ left.reverse ++ (begins.drop 1).dropLast ++ right ∧
    StrandRun tol limit 0 (path.map (strand t 1)) left ∧
    StrandRun tol limit 0 (path.map (strand t (-1))) right ∧
    EndOk fin (edge t s 0 0) (edge t s 1 0) (edge t s (-1) 0) (outward t s 0) w0 (extension fin 0) begins ∧
    EndOk fin (edge t e 0 1) (edge t e (-1) 1) (edge t e 1 1) (outward t e 1) w1 (extension fin 1) ends

end

end Gdspy.Spec
