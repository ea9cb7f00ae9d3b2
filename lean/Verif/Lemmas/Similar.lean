import Verif.Spec.Similar
import Verif.Model.Flex
import Mathlib.Tactic.LinearCombination
import Mathlib.Tactic.Ring
import Mathlib.Tactic.Linarith
import Mathlib.Tactic.Positivity
import Mathlib.Tactic.FieldSimp
import Mathlib.Algebra.Order.Field.Basic

/-!
Similarities and the vector operations of `get_polygons`.
-/

set_option linter.unusedSectionVars false

namespace Gdspy

open Spec

variable {K : Type}

section

variable [Field K]

theorem app_padd (A : Aff K) (p v : Pt K) : A.app (padd p v) = padd (A.app p) (A.lin v) := by
  unfold Aff.app Aff.lin padd; refine Prod.ext ?_ ?_ <;> simp only <;> ring

theorem app_psub_vec (A : Aff K) (p v : Pt K) : A.app (psub p v) = psub (A.app p) (A.lin v) := by
  unfold Aff.app Aff.lin psub; refine Prod.ext ?_ ?_ <;> simp only <;> ring

theorem app_psub (A : Aff K) (p q : Pt K) : psub (A.app p) (A.app q) = A.lin (psub p q) := by
  unfold Aff.app Aff.lin psub; refine Prod.ext ?_ ?_ <;> simp only <;> ring

theorem lin_psmul (A : Aff K) (c : K) (v : Pt K) : A.lin (psmul c v) = psmul c (A.lin v) := by
  unfold Aff.lin psmul; refine Prod.ext ?_ ?_ <;> simp only <;> ring

theorem lin_padd (A : Aff K) (p v : Pt K) : A.lin (padd p v) = padd (A.lin p) (A.lin v) := by
  unfold Aff.lin padd; refine Prod.ext ?_ ?_ <;> simp only <;> ring

theorem lin_psub (A : Aff K) (p v : Pt K) : A.lin (psub p v) = psub (A.lin p) (A.lin v) := by
  unfold Aff.lin psub; refine Prod.ext ?_ ?_ <;> simp only <;> ring

theorem lin_pneg (A : Aff K) (v : Pt K) : A.lin (pneg v) = pneg (A.lin v) := by
  unfold Aff.lin pneg; refine Prod.ext ?_ ?_ <;> simp only <;> ring

theorem psmul_psmul (a b : K) (v : Pt K) : psmul a (psmul b v) = psmul (a * b) v := by
  unfold psmul; refine Prod.ext ?_ ?_ <;> simp only <;> ring

theorem app_halfway (A : Aff K) (h2 : (2 : K) ≠ 0) (p q : Pt K) :
    A.app (halfway p q) = halfway (A.app p) (A.app q) := by
  unfold Aff.app halfway; refine Prod.ext ?_ ?_ <;> simp only <;> field_simp <;> ring

end

section

variable [Field K] [LinearOrder K] [IsStrictOrderedRing K]

theorem Spec.Similar.sign_sq {A : Aff K} {k e : K} (h : Similar A k e) : e * e = 1 := by
  rcases h.sign with h | h <;> rw [h] <;> norm_num

theorem Spec.Similar.id : Similar (Aff.id : Aff K) 1 1 :=
  ⟨one_pos, .inl rfl, by simp [Aff.id], by simp [Aff.id], by simp [Aff.id]⟩

theorem Spec.Similar.shift (v : Pt K) : Similar (Aff.shift v) 1 1 :=
  ⟨one_pos, .inl rfl, by simp [Aff.shift], by simp [Aff.shift], by simp [Aff.shift]⟩

theorem Spec.Similar.rotate {c s : K} (h : c ^ 2 + s ^ 2 = 1) : Similar (Aff.rotate c s) 1 1 :=
  ⟨one_pos, .inl rfl, by simp [Aff.rotate], by simp [Aff.rotate], by simp [Aff.rotate, h]⟩

theorem Spec.Similar.scale {s : K} (h : 0 < s) : Similar (Aff.scale s) s 1 :=
  ⟨h, .inl rfl, by simp [Aff.scale], by simp [Aff.scale], by simp [Aff.scale]⟩

theorem Spec.Similar.reflect : Similar (Aff.reflect : Aff K) 1 (-1) :=
  ⟨one_pos, .inr rfl, by simp [Aff.reflect], by simp [Aff.reflect], by simp [Aff.reflect]⟩

theorem Spec.Similar.comp {A B : Aff K} {k e k' e' : K} (h : Similar A k e) (h' : Similar B k' e') :
    Similar (A.comp B) (k * k') (e * e') := by
  have hs := h.sign_sq
  refine ⟨mul_pos h.pos h'.pos, ?_, ?_, ?_, ?_⟩
  · rcases h.sign with h | h <;> rcases h'.sign with h' | h' <;> simp [h, h']
  · simp only [Aff.comp, h.d, h.b, h'.d, h'.b]; linear_combination (A.c * B.c * e') * hs
  · simp only [Aff.comp, h.d, h.b, h'.d, h'.b]; linear_combination (A.a * B.c * e') * hs
  · simp only [Aff.comp, h.d, h.b]
    linear_combination (A.c ^ 2 + A.a ^ 2) * B.c ^ 2 * hs + (B.a ^ 2 + B.c ^ 2) * h.size + k ^ 2 * h'.size

theorem Spec.Similar.ne {A : Aff K} {k e : K} (h : Similar A k e) : k ≠ 0 := h.pos.ne'

theorem Spec.Similar.sign_ne {A : Aff K} {k e : K} (h : Similar A k e) : e ≠ 0 := by
  rcases h.sign with h | h <;> rw [h] <;> norm_num

theorem Spec.Similar.norm {A : Aff K} {k e : K} (h : Similar A k e) (v : Pt K) :
    normSq (A.lin v) = k ^ 2 * normSq v := by
  unfold Gdspy.normSq Aff.lin
  simp only
  rw [h.b, h.d]
  linear_combination (v.1 ^ 2 + v.2 ^ 2) * h.size + ((A.c ^ 2 + A.a ^ 2) * v.2 ^ 2) * h.sign_sq

theorem Spec.Similar.cross {A : Aff K} {k e : K} (h : Similar A k e) (v w : Pt K) :
    vcross (A.lin v) (A.lin w) = e * k ^ 2 * vcross v w := by
  unfold Gdspy.vcross Aff.lin
  simp only
  rw [h.b, h.d]
  linear_combination e * (v.1 * w.2 - v.2 * w.1) * h.size

theorem Spec.Similar.inj {A : Aff K} {k e : K} (h : Similar A k e) {p q : Pt K} (hpq : A.app p = A.app q) : p = q := by
  have h1 : A.lin (psub p q) = (0, 0) := by rw [← app_psub, hpq]; unfold psub; simp
  have h2 := h.norm (psub p q)
  rw [h1] at h2
  have h3 : normSq (psub p q) = 0 := by
    have h4 : k ^ 2 ≠ 0 := pow_ne_zero 2 h.ne
    have h5 : k ^ 2 * normSq (psub p q) = 0 := by rw [← h2]; unfold Gdspy.normSq; simp
    exact (mul_eq_zero.1 h5).resolve_left h4
  unfold Gdspy.normSq psub at h3
  simp only at h3
  have h6 : p.1 - q.1 = 0 := by nlinarith [sq_nonneg (p.1 - q.1), sq_nonneg (p.2 - q.2)]
  have h7 : p.2 - q.2 = 0 := by nlinarith [sq_nonneg (p.1 - q.1), sq_nonneg (p.2 - q.2)]
  exact Prod.ext (by linarith) (by linarith)

theorem normSq_nonneg (v : Pt K) : 0 ≤ normSq v := by unfold normSq; positivity

theorem sqrt_scale {t : Num K} (ht : Num.Polar t) {k x : K} (hk : 0 < k) (hx : 0 ≤ x) :
    t.sqrt (k ^ 2 * x) = k * t.sqrt x := by
  have h1 := ht.sqrtSq (k ^ 2 * x) (by positivity)
  have h2 := ht.sqrtSq x hx
  have h3 := ht.sqrtNonneg (k ^ 2 * x)
  have h4 : 0 ≤ k * t.sqrt x := mul_nonneg hk.le (ht.sqrtNonneg x)
  have h5 : t.sqrt (k ^ 2 * x) ^ 2 = (k * t.sqrt x) ^ 2 := by rw [h1, mul_pow, h2]
  exact (pow_left_inj₀ h3 h4 (by norm_num)).1 h5

theorem Spec.Similar.root {t : Num K} (ht : Num.Polar t) {A : Aff K} {k e : K} (h : Similar A k e) (v : Pt K) :
    t.sqrt (normSq (A.lin v)) = k * t.sqrt (normSq v) := by
  rw [h.norm, sqrt_scale ht h.pos (normSq_nonneg v)]

/-- The normal of the image of a vector. -/
theorem Spec.Similar.normal {t : Num K} (ht : Num.Polar t) {A : Aff K} {k e : K} (h : Similar A k e) (v : Pt K)
    (w : K) : psmul (e * (k * w)) (unitNormal t (A.lin v)) = A.lin (psmul w (unitNormal t v)) := by
  have hs := h.root ht v
  unfold Gdspy.normSq at hs
  unfold unitNormal
  simp only
  rw [hs]
  have hk := h.ne
  by_cases hz : t.sqrt (v.1 ^ 2 + v.2 ^ 2) = 0
  · rw [hz]
    unfold psmul Aff.lin
    refine Prod.ext ?_ ?_ <;> simp
  · unfold psmul Aff.lin
    simp only
    rw [h.b, h.d]
    refine Prod.ext ?_ ?_ <;> simp only <;> field_simp
    · linear_combination (-(w * A.a * v.2)) * h.sign_sq
    · linear_combination (-(w * A.c * v.2)) * h.sign_sq

/-- The unit vector along the image of a vector. -/
theorem Spec.Similar.unit {t : Num K} (ht : Num.Polar t) {A : Aff K} {k e : K} (h : Similar A k e) (v : Pt K)
    (w : K) : psmul (k * w / t.sqrt (normSq (A.lin v))) (A.lin v) = A.lin (psmul (w / t.sqrt (normSq v)) v) := by
  rw [h.root ht, lin_psmul, mul_div_mul_left _ _ h.ne]

end

end Gdspy
