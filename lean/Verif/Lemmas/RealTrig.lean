import Verif.Spec.Hier
import Mathlib.Analysis.SpecialFunctions.Trigonometric.Basic

/-!
The laws of cosine and sine assumed in the geometric theorems hold for the real numbers.
-/

namespace Gdspy

open Spec

/-- Cosine and sine of an angle in degrees over the reals. -/
noncomputable def realTrig : Trig ℝ where
  cos a := Real.cos (a * Real.pi / 180)
  sin a := Real.sin (a * Real.pi / 180)
  cardinal a := by
    classical
    exact decide (∃ k : ℤ, a = 90 * k)

/-- The laws assumed by some theorems hold. -/
theorem realTrig_laws : Spec.Trig.Laws realTrig where
  pyth a := Real.cos_sq_add_sin_sq _
  zero := by simp [realTrig]
  neg a := by
    have : -a * Real.pi / 180 = -(a * Real.pi / 180) := by ring
    simp only [realTrig, this]
    exact ⟨Real.cos_neg _, Real.sin_neg _⟩
  add a b := by
    have : (a + b) * Real.pi / 180 = a * Real.pi / 180 + b * Real.pi / 180 := by ring
    simp only [realTrig, this]
    exact ⟨Real.cos_add _ _, Real.sin_add _ _⟩
  card a h := by
    simp only [realTrig, decide_eq_true_eq] at h ⊢
    obtain ⟨k, rfl⟩ := h
    have : (90 * (k : ℝ)) * Real.pi / 180 = k * (Real.pi / 2) := by ring
    rw [this]
    rcases Int.even_or_odd k with ⟨m, rfl⟩ | ⟨m, rfl⟩
    · right
      have : ((m + m : ℤ) : ℝ) * (Real.pi / 2) = m * Real.pi := by push_cast; ring
      rw [this]
      exact Real.sin_int_mul_pi m
    · left
      have : ((2 * m + 1 : ℤ) : ℝ) * (Real.pi / 2) = m * Real.pi + Real.pi / 2 := by push_cast; ring
      rw [this, Real.cos_add_pi_div_two, Real.sin_int_mul_pi, neg_zero]

end Gdspy
