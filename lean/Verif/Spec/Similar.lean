import Verif.Spec.Flatten
import Verif.Spec.Flex

/-!
Specification for transformed paths: similarities of the plane.
-/

namespace Gdspy.Spec

variable {K : Type}

section

variable [Field K]

/-- The linear part of an affine map. -/
def Aff.lin (A : Aff K) (v : Pt K) : Pt K := (A.a * v.1 + A.b * v.2, A.c * v.1 + A.d * v.2)

variable [LinearOrder K]

/-- A similarity with the factor `k`; `e` is 1 if it keeps the orientation and -1 if it reverses it. -/
structure Similar (A : Aff K) (k e : K) : Prop where
  pos : 0 < k
  sign : e = 1 ∨ e = -1
  d : A.d = e * A.a
  b : A.b = -e * A.c
  size : A.a ^ 2 + A.c ^ 2 = k ^ 2

end

end Gdspy.Spec
