import Mathlib.Data.Rat.Floor
import Mathlib.Data.Int.Log

/-! Specification vocabulary for stored real numbers (independent of the model). -/

namespace Gdspy.Spec

/-- `v` has a 53-bit significand, as every finite IEEE-754 double has. -/
def IsDouble (v : ℚ) : Prop := ∃ n k : ℤ, |n| < 2 ^ 53 ∧ v = n * (2 : ℚ) ^ k

/-- Range of the GDSII 8-byte real: 7-bit excess-64 base-16 exponent, normalised mantissa. -/
def InRange (v : ℚ) : Prop := v = 0 ∨ ((16 : ℚ) ^ (-65 : ℤ) ≤ |v| ∧ |v| < (16 : ℚ) ^ (63 : ℤ))

/-- The numbers that gdspy can store and recover. -/
def Storable (v : ℚ) : Prop := IsDouble v ∧ InRange v

end Gdspy.Spec
