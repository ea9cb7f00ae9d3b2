import Verif.Spec.Plane
import Verif.Spec.Region
import Verif.Model.Clip

/-!
What an exact clipping engine does, and the region vocabulary of C50 and C51.
-/

namespace Gdspy.Spec

variable {K : Type} [Field K] [LinearOrder K]

/-- The set operation that an operation name stands for. -/
def _root_.Gdspy.ClipOp.holds : ClipOp → Prop → Prop → Prop
  | .or, a, b => a ∨ b
  | .and, a, b => a ∧ b
  | .xor, a, b => (a ∧ ¬ b) ∨ (b ∧ ¬ a)
  | .not, a, b => a ∧ ¬ b

/-- All sides are horizontal or vertical. -/
def Rectilinear (P : List IPt) : Prop := ∀ e ∈ edges P, e.1.1 = e.2.1 ∨ e.1.2 = e.2.2

/-- An exact clipper with non-zero fill, for operands of the class `C`: the result covers the points for
which the operation holds of the two winding numbers, and contains no empty polygons. -/
structure Exact (C : List IPt → Prop) (e : Engine K) : Prop where
  covers : ∀ op A B, (∀ P ∈ A, C P) → (∀ P ∈ B, C P) → ∀ p, Covers (e.clip op A B) p ↔
    op.holds (total (A.map ofGrid) p ≠ 0) (total (B.map ofGrid) p ≠ 0)
  nonempty : ∀ op A B, (∀ P ∈ A, C P) → (∀ P ∈ B, C P) → ∀ q ∈ e.clip op A B, ∃ p, wind q p ≠ 0

/-- The results for operands of the class `C` are on the grid and in `C` again. -/
def StaysOnGrid (C : List IPt → Prop) (e : Engine K) : Prop :=
  ∀ op A B, (∀ P ∈ A, C P) → (∀ P ∈ B, C P) → ∀ q ∈ e.clip op A B, ∃ Q, C Q ∧ q = ofGrid Q

/-- A class of polygons that contains the rectangles and does not depend on the direction. -/
structure Class (C : List IPt → Prop) : Prop where
  rect : ∀ x0 x1 y0 y1, C [(x0, y0), (x1, y0), (x1, y1), (x0, y1)]
  rev : ∀ P, C P → C P.reverse

variable [FloorRing K]

/-- The nearest multiple of the precision (see `C54_nearest`). -/
def snap (precision x : K) : K := precision * (clipRound (1 / precision * x) : Int)

/-- The polygon with its vertices moved to the grid. -/
def snapPoly (precision : K) (P : Pgon K) : Pgon K := P.map fun v => (snap precision v.1, snap precision v.2)

/-- The point is past the cut line at `a` (on the line counts for a vertical line, and does not for a
horizontal one: the convention of `wind`). -/
def Past (axis : Nat) (a : K) (v : Pt K) : Prop := if axis = 0 then a ≤ v.1 else a < v.2

/-- The point is between the cut lines number `i - 1` and `i`, where they exist. -/
def InSlab (axis : Nat) (c : List K) (i : Nat) (v : Pt K) : Prop :=
  (∀ j lo, i = j + 1 → c[j]? = some lo → Past axis lo v) ∧ (∀ hi, c[i]? = some hi → ¬ Past axis hi v)

/-- The values given as positions. -/
def _root_.Gdspy.PosArg.vals : PosArg K → List K
  | .one x => [x]
  | .list l => l

/-- The winding numbers of the polygon have the sign of its area, as for every outline that does not
cross itself. -/
def Directed (P : Pgon K) : Prop :=
  (0 ≤ shoelace P ∧ ∀ v, 0 ≤ wind P v) ∨ (shoelace P < 0 ∧ ∀ v, wind P v ≤ 0)

end Gdspy.Spec
