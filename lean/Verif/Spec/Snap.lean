import Verif.Spec.Import

/-!
Specification of rounding to the database grid.
-/

namespace Gdspy.Spec

/-- A rounding rule: monotone, never further than half a step away, fixing integers. -/
structure Rounding (r : ℚ → ℤ) : Prop where
  monotone : ∀ x y, x ≤ y → r x ≤ r y
  near : ∀ x, |x - r x| ≤ 1 / 2
  fixes : ∀ n : ℤ, r (n : ℚ) = n

/-- A point after a write/read cycle: coordinates are multiplied by `m`, rounded and multiplied
by `f`. -/
def snap2 (r : ℚ → ℤ) (m f : ℚ) (p : ℚ × ℚ) : ℚ × ℚ := (f * r (p.1 * m), f * r (p.2 * m))

/-- The coordinate fits the 32-bit grid. -/
def OnMap (m x : ℚ) : Prop := |x * m| ≤ 2147483647

def OnMap2 (m : ℚ) (p : ℚ × ℚ) : Prop := OnMap m p.1 ∧ OnMap m p.2

end Gdspy.Spec
