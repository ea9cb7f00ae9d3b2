import Mathlib.Algebra.Order.Field.Basic
import Mathlib.Algebra.BigOperators.Group.List.Basic
import Mathlib.Data.List.Rotate
import Verif.Model.PolygonSet

/-!
Which points a polygon covers. The winding number of a polygon around a point `p` counts the edges that
cross the horizontal half-line from `p` to the right, with sign: +1 upwards, -1 downwards. On the outline the
number is that of the points just to the right and below, so regions are half-open and can be
partitioned exactly.
-/

namespace Gdspy.Spec

variable {K : Type} [Field K] [LinearOrder K]

/-- The abscissa at which the line through `a` and `b` has ordinate `y`. -/
def xAt (a b : Pt K) (y : K) : K := a.1 + (y - a.2) * (b.1 - a.1) / (b.2 - a.2)

/-- The edge from `a` to `b` goes up through the half-line from `p` to the right. -/
def CrossUp (p a b : Pt K) : Prop := a.2 < p.2 ∧ p.2 ≤ b.2 ∧ p.1 < xAt a b p.2

/-- The edge from `a` to `b` goes down through the half-line. -/
def CrossDown (p a b : Pt K) : Prop := b.2 < p.2 ∧ p.2 ≤ a.2 ∧ p.1 < xAt a b p.2

instance (p a b : Pt K) : Decidable (CrossUp p a b) := by unfold CrossUp; infer_instance
instance (p a b : Pt K) : Decidable (CrossDown p a b) := by unfold CrossDown; infer_instance

def edgeWind (p : Pt K) (e : Pt K × Pt K) : Int :=
  if CrossUp p e.1 e.2 then 1 else if CrossDown p e.1 e.2 then -1 else 0

/-- The closed outline of a polygon. -/
def edges {α : Type} (P : List α) : List (α × α) := P.zip (P.rotate 1)

/-- The winding number. -/
def wind (P : Pgon K) (p : Pt K) : Int := ((edges P).map (edgeWind p)).sum

/-- The number of edges that cross the half-line. -/
def crossings (P : Pgon K) (p : Pt K) : Nat :=
  (edges P).countP fun e => decide (CrossUp p e.1 e.2) || decide (CrossDown p e.1 e.2)

/-- The points that some polygon of the list covers. -/
def Covers (L : List (Pgon K)) (p : Pt K) : Prop := ∃ P ∈ L, wind P p ≠ 0

/-- `p` lies on the segment from `a` to `b`. -/
def OnSegment (p a b : Pt K) : Prop :=
  ∃ s : K, 0 ≤ s ∧ s ≤ 1 ∧ p.1 = a.1 + s * (b.1 - a.1) ∧ p.2 = a.2 + s * (b.2 - a.2)

/-- `p` lies on the outline. -/
def OnOutline (P : Pgon K) (p : Pt K) : Prop := ∃ e ∈ edges P, OnSegment p e.1 e.2

/-- A polygon with integer coordinates. -/
def ofGrid (P : List (Int × Int)) : Pgon K := P.map fun v => ((v.1 : K), (v.2 : K))

/-- The sum of the winding numbers of a list of polygons. -/
def total (L : List (Pgon K)) (p : Pt K) : Int := (L.map (wind · p)).sum

end Gdspy.Spec
