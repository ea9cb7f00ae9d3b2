import Verif.Spec.Hier
import Mathlib.Data.List.Rotate
import Mathlib.Algebra.BigOperators.Group.List.Basic

/-!
Specification vocabulary for plane geometry: mirror images, distances, the shoelace formula.
-/

namespace Gdspy.Spec

variable {K : Type}

section

variable [Field K]

/-- Square of the distance. -/
def dist2 (p q : Pt K) : K := (p.1 - q.1) ^ 2 + (p.2 - q.2) ^ 2

/-- `q` is the mirror image of `p` over the line through `a` and `b`: the segment from `p` to `q` is
perpendicular to the line, and its midpoint is on the line. -/
def IsMirror (a b p q : Pt K) : Prop :=
  (q.1 - p.1) * (b.1 - a.1) + (q.2 - p.2) * (b.2 - a.2) = 0 ∧
  ((p.1 + q.1) / 2 - a.1) * (b.2 - a.2) - ((p.2 + q.2) / 2 - a.2) * (b.1 - a.1) = 0

/-- `p` is on the line through `a` and `b`. -/
def OnLine (a b p : Pt K) : Prop := ∃ s, p = (a.1 + s * (b.1 - a.1), a.2 + s * (b.2 - a.2))

/-- The map `A` performed with the point `c` in the place of the origin. -/
def Aff.about (c : Pt K) (A : Aff K) : Aff K := (Aff.shift c).comp (A.comp (Aff.shift (-c.1, -c.2)))

/-- Twice the signed area of a polygon: the sum over its edges (the last one closes the polygon) of
the cross product of the end points. -/
def shoelace (p : Pgon K) : K := (List.zipWith (fun a b : Pt K => a.1 * b.2 - b.1 * a.2) p (p.rotate 1)).sum

end

end Gdspy.Spec
