import Verif.Model.Curve
import Verif.Spec.Curve

/-!
# Specification for `Curve`: drawing with a pen

A curve is a sequence of sections, each of which starts where the one before ends. What the control points of the
smooth commands are depends only on the section before.
-/

namespace Gdspy.Spec

variable {K : Type}

/-- Points given as arguments: complex numbers or pairs of real numbers. -/
inductive PointArgs : List (CArg K) → List (Pt K) → Prop
  | nil : PointArgs [] []
  | complex (z : Pt K) {r pts} : PointArgs r pts → PointArgs (.cx z :: r) (z :: pts)
  | pair (x y : K) {r pts} : PointArgs r pts → PointArgs (.re x :: .re y :: r) ((x, y) :: pts)

/-- A section of a curve, in absolute coordinates. -/
inductive Sec (K : Type) where
  | line (a b : Pt K)
  | quad (a b c : Pt K)
  | cubic (a b c d : Pt K)
  | general (ctrl : List (Pt K))
  | ellipse (start : Pt K) (rx ry rotation a0 a1 : K)

section Field

variable [Field K]

/-- A point of the ellipse with half-axes `rx` and `ry` around the origin, rotated: at angle `a`, which is counted
from the x axis of the page. -/
def ellipseAt (t : Num K) (rx ry rotation a : K) : Pt K :=
  (t.cos rotation * (rx * t.cos (a - rotation)) - t.sin rotation * (ry * t.sin (a - rotation)),
   t.sin rotation * (rx * t.cos (a - rotation)) + t.cos rotation * (ry * t.sin (a - rotation)))

/-- The points of a section, for parameters from 0 to 1. -/
def Sec.curve (t : Num K) : Sec K → K → Pt K
  | .line a b => bezier [a, b]
  | .quad a b c => bezier [a, b, c]
  | .cubic a b c d => bezier [a, b, c, d]
  | .general ctrl => bezier ctrl
  | .ellipse s rx ry rot a0 a1 => fun u =>
    (s.1 + ((ellipseAt t rx ry rot (a0 + u * (a1 - a0))).1 - (ellipseAt t rx ry rot a0).1),
     s.2 + ((ellipseAt t rx ry rot (a0 + u * (a1 - a0))).2 - (ellipseAt t rx ry rot a0).2))

/-- Where a section ends. -/
def Sec.endPt (t : Num K) (s : Sec K) : Pt K := s.curve t 1

/-- What is added to a curve, in absolute coordinates. -/
inductive PenItem (K : Type) where
  | lineTo (p : Pt K)
  | quadTo (a p : Pt K)
  | smoothQuadTo (p : Pt K)
  | cubicTo (a b p : Pt K)
  | smoothTo (b p : Pt K)
  | generalTo (pts : List (Pt K))
  | arcTo (rx ry rotation a0 a1 : K)

/-- `p` reflected in `o`. -/
def mirrored (o p : Pt K) : Pt K := (o.1 + (o.1 - p.1), o.2 + (o.2 - p.2))

/-- The section drawn from `pen` after the section `prev`. The first control point of a smooth section is the
reflection of the last control point of the section before, if that is of the same degree, else it is the pen. -/
def PenItem.sec (pen : Pt K) (prev : Option (Sec K)) : PenItem K → Sec K
  | .lineTo p => .line pen p
  | .quadTo a p => .quad pen a p
  | .smoothQuadTo p =>
    match prev with
    | some (.quad _ b _) => .quad pen (mirrored pen b) p
    | _ => .quad pen pen p
  | .cubicTo a b p => .cubic pen a b p
  | .smoothTo b p =>
    match prev with
    | some (.cubic _ _ c _) => .cubic pen (mirrored pen c) b p
    | _ => .cubic pen pen b p
  | .generalTo pts => .general (pen :: pts)
  | .arcTo rx ry rot a0 a1 => .ellipse pen rx ry rot a0 a1

/-- The sections drawn one after the other. -/
def walk (t : Num K) : Pt K → Option (Sec K) → List (PenItem K) → List (Sec K)
  | _, _, [] => []
  | pen, prev, i :: r => i.sec pen prev :: walk t ((i.sec pen prev).endPt t) (some (i.sec pen prev)) r

/-- The pen after some sections. -/
def penAfter (t : Num K) (pen : Pt K) (secs : List (Sec K)) : Pt K :=
  match secs.getLast? with
  | some s => s.endPt t
  | none => pen

/-- A point given as an argument: relative to the pen, or absolute. -/
def placed (rel : Bool) (pen p : Pt K) : Pt K := if rel then (pen.1 + p.1, pen.2 + p.2) else p

/-- What the commands mean, with the pen at `pen` when the method is called. -/
inductive Denotes [LinearOrder K] (pen : Pt K) : CurveCmd K → List (PenItem K) → Prop
  | line (rel : Bool) {args pts} : PointArgs args pts → pts ≠ [] →
      Denotes pen (.line rel args) (pts.map fun p => .lineTo (placed rel pen p))
  | hor (rel : Bool) {xs} : xs ≠ [] →
      Denotes pen (.hor rel xs) (xs.map fun x => .lineTo (if rel then pen.1 + x else x, pen.2))
  | ver (rel : Bool) {ys} : ys ≠ [] →
      Denotes pen (.ver rel ys) (ys.map fun y => .lineTo (pen.1, if rel then pen.2 + y else y))
  | arc (rx ry i f r) : Denotes pen (.arc rx ry i f r) [.arcTo rx ry r i f]
  | cubic (rel : Bool) {args} {l : List (Pt K × Pt K × Pt K)} :
      PointArgs args (l.flatMap fun q => [q.1, q.2.1, q.2.2]) → l ≠ [] →
      Denotes pen (.cubic rel args)
        (l.map fun q => .cubicTo (placed rel pen q.1) (placed rel pen q.2.1) (placed rel pen q.2.2))
  | smoothCubic (rel : Bool) {args} {l : List (Pt K × Pt K)} : PointArgs args (l.flatMap fun q => [q.1, q.2]) →
      l ≠ [] → Denotes pen (.smoothCubic rel args) (l.map fun q => .smoothTo (placed rel pen q.1) (placed rel pen q.2))
  | quad (rel : Bool) {args} {l : List (Pt K × Pt K)} : PointArgs args (l.flatMap fun q => [q.1, q.2]) →
      l ≠ [] → Denotes pen (.quad rel args) (l.map fun q => .quadTo (placed rel pen q.1) (placed rel pen q.2))
  | smoothQuad (rel : Bool) {args pts} : PointArgs args pts → pts ≠ [] →
      Denotes pen (.smoothQuad rel args) (pts.map fun p => .smoothQuadTo (placed rel pen p))
  | general (rel : Bool) {args pts} : PointArgs args pts → pts ≠ [] →
      Denotes pen (.general rel args) [.generalTo (pts.map (placed rel pen))]
  | interp (rel cycle : Bool) (hobby : Hobby K) {points} {l : List (Pt K × Pt K)} : points ≠ [] →
      hobby (pen :: points.map (placed rel pen)) = .ok (l.map Prod.fst, l.map Prod.snd) →
      l.length = points.length + (if cycle then 1 else 0) →
      Denotes pen (.interp rel cycle hobby points)
        ((l.zip (points.map (placed rel pen) ++ [pen])).map fun q => .cubicTo q.1.1 q.1.2 q.2)

/-- What a sequence of commands means. -/
inductive Means [LinearOrder K] (t : Num K) : Pt K → Option (Sec K) → List (CurveCmd K) → List (Sec K) → Prop
  | nil (pen prev) : Means t pen prev [] []
  | cons {pen prev cmd cmds items secs} : Denotes pen cmd items →
      Means t (penAfter t pen (walk t pen prev items)) ((walk t pen prev items).getLast?.or prev) cmds secs →
      Means t pen prev (cmd :: cmds) (walk t pen prev items ++ secs)

variable [LinearOrder K]

/-- The vertices by which a section is represented, without its start. Straight lines are exact; ellipses are
sampled at equal angles; other curves such that the middle of each chord is within the tolerance. -/
def Vertices (t : Num K) (err : K) (s : Sec K) (pts : List (Pt K)) : Prop :=
  match s with
  | .line _ b => pts = [b]
  | .ellipse _ _ _ _ _ _ => ∃ n : Nat, 2 ≤ n ∧ pts = (List.range n).map fun (i : Nat) => s.curve t (((i : K) + 1) / n)
  | s => ∃ l, Samples (s.curve t) 0 1 l ∧ l.IsChain (CloseAt (s.curve t) err (1 / 2)) ∧ pts = (l.drop 1).map Prod.snd

end Field

end Gdspy.Spec
