import Verif.Spec.Plane
import Mathlib.Analysis.SpecialFunctions.Trigonometric.Basic

/-!
Specification for the resolution of round shapes: circles and ellipses over the reals.
-/

namespace Gdspy.Spec

/-- The point of an ellipse with the given parameter. -/
noncomputable def ovalAt (c r : Pt ℝ) (a : ℝ) : Pt ℝ := (c.1 + r.1 * Real.cos a, c.2 + r.2 * Real.sin a)

/-- The point at the part `s` of the way from `a` to `b`. -/
def between (a b : Pt ℝ) (s : ℝ) : Pt ℝ := (a.1 + s * (b.1 - a.1), a.2 + s * (b.2 - a.2))

/-- Some point of the segment from `a` to `b` is at distance at most `d` of `x`. -/
def NearSegment (a b x : Pt ℝ) (d : ℝ) : Prop := 0 ≤ d ∧ ∃ s, 0 ≤ s ∧ s ≤ 1 ∧ dist2 x (between a b s) ≤ d ^ 2

/-- The chain of points `l` runs along the part from `a0` to `a1` of the ellipse: it has vertices on it, in order, from the
one end to the other, and every point of this part is at distance at most `d` from the chain. -/
def Follows (c r : Pt ℝ) (a0 a1 d : ℝ) (l : List (Pt ℝ)) : Prop :=
  (∃ as : List ℝ, l = as.map (ovalAt c r) ∧ as.head? = some a0 ∧ as.getLast? = some a1 ∧ as.Pairwise (· < ·)) ∧
  ∀ a, a0 ≤ a → a ≤ a1 → ∃ i x y, l[i]? = some x ∧ l[i + 1]? = some y ∧ NearSegment x y (ovalAt c r a) d

end Gdspy.Spec
