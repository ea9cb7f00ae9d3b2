import Verif.Spec.Real8

/-!
Specification of the rounding of IEEE-754 double-precision arithmetic.
-/

namespace Gdspy.Spec

/-- `fl` rounds to the nearest number with a significand of 53 bits; ties are rounded either way.
(The range of exponents is not limited: neither overflow nor numbers below `2 ^ -1022`.) -/
structure Nearest (fl : ℚ → ℚ) : Prop where
  double : ∀ x, IsDouble (fl x)
  nearest : ∀ x d, IsDouble d → |fl x - x| ≤ |d - x|

end Gdspy.Spec
