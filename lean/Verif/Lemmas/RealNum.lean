import Verif.Spec.Path
import Mathlib.Analysis.SpecialFunctions.Trigonometric.Inverse
import Mathlib.Analysis.SpecialFunctions.Complex.Arg
import Mathlib.Algebra.Order.Floor.Ring

/-!
The laws of the numpy functions assumed in the theorems about paths hold for the real numbers.
-/

namespace Gdspy

open Spec

/-- The functions of numpy over the reals, angles in radians. -/
noncomputable def realNum : Num ℝ where
  cos := Real.cos
  sin := Real.sin
  cardinal _ := false
  halfpi := Real.pi / 2
  sqrt := Real.sqrt
  atan2 y x := Complex.arg ⟨x, y⟩
  acos x := by
    classical
    exact if -1 ≤ x ∧ x ≤ 1 then some (Real.arccos x) else none

theorem realNum_laws : Spec.Num.Laws realNum where
  trig :=
    { pyth := fun a => Real.cos_sq_add_sin_sq a
      zero := ⟨Real.cos_zero, Real.sin_zero⟩
      neg := fun a => ⟨Real.cos_neg a, Real.sin_neg a⟩
      add := fun a b => ⟨Real.cos_add a b, Real.sin_add a b⟩
      card := fun a h => by simp [realNum] at h }
  pos := by
    show 0 < Real.pi / 2
    have := Real.pi_pos
    linarith
  cosHalf := Real.cos_pi_div_two
  sinHalf := Real.sin_pi_div_two

end Gdspy
