import Verif.Model.Path
import Verif.Spec.Curve
import Verif.Spec.Compose
import Mathlib.Algebra.BigOperators.Intervals
import Mathlib.Data.Nat.Choose.Basic
import Mathlib.Algebra.BigOperators.Ring.Finset
import Mathlib.Algebra.Order.BigOperators.Group.Finset
import Mathlib.Analysis.Calculus.Deriv.Mul
import Mathlib.Analysis.Calculus.Deriv.Add
import Mathlib.Tactic.Ring
import Mathlib.Tactic.LinearCombination
import Mathlib.Tactic.Linarith
import Mathlib.Tactic.FieldSimp
import Mathlib.Algebra.Field.Rat

/-!
# C58: Bezier curves
-/

set_option linter.unusedSectionVars false

namespace Gdspy

open Spec

variable {K : Type} [Field K]

theorem bern_zero (g : Nat → K) (u : K) : bern 0 g u = g 0 := by simp [bern]

theorem bern_succ (n : Nat) (g : Nat → K) (u : K) :
    bern (n + 1) g u = bern n (fun i => g (i + 1) * u + g i * (1 - u)) u := by
  unfold bern
  have e1 : ∀ i ∈ Finset.range (n + 1), (n.choose i : K) * u ^ i * (1 - u) ^ (n - i) * (g (i + 1) * u + g i * (1 - u))
      = (n.choose i : K) * u ^ (i + 1) * (1 - u) ^ (n - i) * g (i + 1)
        + (n.choose i : K) * u ^ i * (1 - u) ^ (n + 1 - i) * g i := by
    intro i hi
    have : n + 1 - i = (n - i) + 1 := by have := Finset.mem_range.1 hi; omega
    rw [this]
    ring
  rw [Finset.sum_congr rfl e1, Finset.sum_add_distrib, Finset.sum_range_succ' _ (n + 1)]
  have e2 : ∀ i ∈ Finset.range (n + 1), ((n + 1).choose (i + 1) : K) * u ^ (i + 1) * (1 - u) ^ (n + 1 - (i + 1)) * g (i + 1)
      = (n.choose i : K) * u ^ (i + 1) * (1 - u) ^ (n - i) * g (i + 1)
        + (n.choose (i + 1) : K) * u ^ (i + 1) * (1 - u) ^ (n + 1 - (i + 1)) * g (i + 1) := by
    intro i _
    rw [Nat.choose_succ_succ, Nat.add_sub_add_right]
    push_cast
    ring
  rw [Finset.sum_congr rfl e2, Finset.sum_add_distrib, add_assoc]
  congr 1
  have e3 := Finset.sum_range_succ' (fun i => (n.choose i : K) * u ^ i * (1 - u) ^ (n + 1 - i) * g i) (n + 1)
  simp only [Nat.choose_zero_right] at e3 ⊢
  rw [← e3, Finset.sum_range_succ]
  simp

theorem casteljauStep_length (u : K) (l : List (Pt K)) : (casteljauStep u l).length = l.length - 1 := by
  induction l with
  | nil => rfl
  | cons p l ih =>
    cases l with
    | nil => rfl
    | cons q r =>
      rw [casteljauStep, List.length_cons, ih]
      simp

theorem casteljauStep_getD (u : K) (l : List (Pt K)) (i : Nat) (hi : i + 1 < l.length) :
    (casteljauStep u l).getD i (0, 0) =
      ((l.getD (i + 1) (0, 0)).1 * u + (l.getD i (0, 0)).1 * (1 - u),
       (l.getD (i + 1) (0, 0)).2 * u + (l.getD i (0, 0)).2 * (1 - u)) := by
  induction l generalizing i with
  | nil => cases hi
  | cons p l ih =>
    cases l with
    | nil => simp at hi
    | cons q r =>
      rw [casteljauStep]
      cases i with
      | zero => rfl
      | succ i =>
        rw [List.getD_cons_succ, ih i (by simpa using hi)]
        rfl

theorem bern_congr {n : Nat} {g g' : Nat → K} (h : ∀ i, i ≤ n → g i = g' i) (u : K) : bern n g u = bern n g' u := by
  unfold bern
  refine Finset.sum_congr rfl fun i hi => ?_
  rw [h i (Nat.lt_succ_iff.1 (Finset.mem_range.1 hi))]

theorem casteljau_bern (u : K) (n : Nat) (l : List (Pt K)) (hl : l.length = n + 1) :
    (casteljau u n l).headD (0, 0) =
      (bern n (fun i => (l.getD i (0, 0)).1) u, bern n (fun i => (l.getD i (0, 0)).2) u) := by
  induction n generalizing l with
  | zero =>
    cases l with
    | nil => simp at hl
    | cons p l => simp [casteljau, bern_zero]
  | succ n ih =>
    rw [casteljau, ih _ (by rw [casteljauStep_length, hl]; rfl), bern_succ, bern_succ]
    refine Prod.ext ?_ ?_
    · refine bern_congr (fun i hi => ?_) u
      rw [casteljauStep_getD u l i (by omega)]
    · refine bern_congr (fun i hi => ?_) u
      rw [casteljauStep_getD u l i (by omega)]

/-- **C58.** The values computed by `_func_bezier` are those of the Bernstein formula, for every degree. -/
theorem C58_formula (ctrl : List (Pt K)) (h : ctrl ≠ []) (u : K) : funcBezier ctrl u = bezier ctrl u := by
  have : ctrl.length = ctrl.length - 1 + 1 := by
    have := List.length_pos_iff.2 h
    omega
  exact casteljau_bern u _ ctrl this

theorem bern_at_zero (n : Nat) (g : Nat → K) : bern n g 0 = g 0 := by
  unfold bern
  rw [Finset.sum_range_succ']
  simp

theorem bern_reflect (n : Nat) (g : Nat → K) (u : K) : bern n (fun i => g (n - i)) u = bern n g (1 - u) := by
  unfold bern
  rw [← Finset.sum_range_reflect]
  refine Finset.sum_congr rfl fun i hi => ?_
  have hi : i ≤ n := Nat.lt_succ_iff.1 (Finset.mem_range.1 hi)
  have e1 : n + 1 - 1 - i = n - i := by omega
  have e2 : n - (n - i) = i := by omega
  simp only [e1, e2, Nat.choose_symm hi]
  ring

theorem bern_at_one (n : Nat) (g : Nat → K) : bern n g 1 = g n := by
  have := bern_reflect n g 0
  rw [sub_zero] at this
  rw [← this, bern_at_zero]
  rfl

/-- **C58.** A Bezier curve starts at its first control point. -/
theorem C58_start (p : Pt K) (ctrl : List (Pt K)) : funcBezier (p :: ctrl) 0 = p := by
  rw [C58_formula _ (by simp)]
  unfold bezier
  rw [bern_at_zero, bern_at_zero]
  rfl

/-- **C58.** A Bezier curve ends at its last control point. -/
theorem C58_end (ctrl : List (Pt K)) (h : ctrl ≠ []) : funcBezier ctrl 1 = ctrl.getLast h := by
  rw [C58_formula _ h]
  unfold bezier
  rw [bern_at_one, bern_at_one, List.getLast_eq_getElem, List.getD_eq_getElem?_getD, List.getElem?_eq_getElem]
  rfl

/-- **C58.** Reversed control points give the reversed curve. -/
theorem C58_reverse (ctrl : List (Pt K)) (u : K) : funcBezier ctrl.reverse u = funcBezier ctrl (1 - u) := by
  by_cases h : ctrl = []
  · subst h; rfl
  rw [C58_formula _ (by simpa using h), C58_formula _ h]
  have hpos := List.length_pos_iff.2 h
  have key : ∀ i, i ≤ ctrl.length - 1 → ctrl.reverse.getD i (0, 0) = ctrl.getD (ctrl.length - 1 - i) (0, 0) := by
    intro i hi
    rw [List.getD_eq_getElem?_getD, List.getD_eq_getElem?_getD, List.getElem?_reverse (by omega)]
  unfold bezier
  rw [List.length_reverse, ← bern_reflect, ← bern_reflect]
  refine Prod.ext ?_ ?_
  · exact bern_congr (fun i hi => by rw [key i hi]) u
  · exact bern_congr (fun i hi => by rw [key i hi]) u

theorem bern_add (n : Nat) (g g' : Nat → K) (u : K) : bern n (fun i => g i + g' i) u = bern n g u + bern n g' u := by
  unfold bern
  rw [← Finset.sum_add_distrib]
  exact Finset.sum_congr rfl fun i _ => by ring

theorem bern_mul (n : Nat) (c : K) (g : Nat → K) (u : K) : bern n (fun i => c * g i) u = c * bern n g u := by
  unfold bern
  rw [Finset.mul_sum]
  exact Finset.sum_congr rfl fun i _ => by ring

theorem bern_const (n : Nat) (c : K) (u : K) : bern n (fun _ => c) u = c := by
  induction n with
  | zero => exact bern_zero _ _
  | succ n ih =>
    rw [bern_succ]
    refine Eq.trans (bern_congr (fun i _ => ?_) u) ih
    ring

/-- **C58.** Bezier curves are affine invariant: transforming the control points transforms the curve. -/
theorem C58_affine (A : Aff K) (ctrl : List (Pt K)) (h : ctrl ≠ []) (u : K) :
    funcBezier (ctrl.map A.app) u = A.app (funcBezier ctrl u) := by
  rw [C58_formula _ (by simpa using h), C58_formula _ h]
  have hpos := List.length_pos_iff.2 h
  have key : ∀ i, i ≤ ctrl.length - 1 → (ctrl.map A.app).getD i (0, 0) = A.app (ctrl.getD i (0, 0)) := by
    intro i hi
    rw [List.getD_eq_getElem?_getD, List.getD_eq_getElem?_getD, List.getElem?_map,
      List.getElem?_eq_getElem (by omega)]
    rfl
  unfold bezier
  rw [List.length_map]
  refine Prod.ext ?_ ?_
  · refine Eq.trans (bern_congr (fun i hi => congrArg Prod.fst (key i hi)) u) ?_
    unfold Aff.app
    simp only
    rw [bern_add, bern_add, bern_mul, bern_mul, bern_const]
  · refine Eq.trans (bern_congr (fun i hi => congrArg Prod.snd (key i hi)) u) ?_
    unfold Aff.app
    simp only
    rw [bern_add, bern_add, bern_mul, bern_mul, bern_const]

section Order

variable [LinearOrder K] [IsStrictOrderedRing K]

theorem bern_mono (n : Nat) (g g' : Nat → K) (h : ∀ i, i ≤ n → g i ≤ g' i) (u : K) (h0 : 0 ≤ u) (h1 : u ≤ 1) :
    bern n g u ≤ bern n g' u := by
  unfold bern
  refine Finset.sum_le_sum fun i hi => ?_
  refine mul_le_mul_of_nonneg_left (h i (Nat.lt_succ_iff.1 (Finset.mem_range.1 hi))) ?_
  have : 0 ≤ 1 - u := by linarith
  positivity

/-- **C58.** The curve stays in the convex hull of its control points: in every half-plane that has them. -/
theorem C58_hull (ctrl : List (Pt K)) (h : ctrl ≠ []) (u : K) (h0 : 0 ≤ u) (h1 : u ≤ 1) (a b c : K)
    (hc : ∀ p ∈ ctrl, a * p.1 + b * p.2 ≤ c) : a * (funcBezier ctrl u).1 + b * (funcBezier ctrl u).2 ≤ c := by
  rw [C58_formula _ h]
  have hpos := List.length_pos_iff.2 h
  unfold bezier
  rw [← bern_mul, ← bern_mul, ← bern_add, ← bern_const (ctrl.length - 1) c u]
  refine bern_mono _ _ _ (fun i hi => ?_) u h0 h1
  rw [List.getD_eq_getElem?_getD, List.getElem?_eq_getElem (by omega)]
  exact hc _ (List.getElem_mem _)

/-- **C58.** In particular, it stays in the bounding box. -/
theorem C58_box (ctrl : List (Pt K)) (h : ctrl ≠ []) (u : K) (h0 : 0 ≤ u) (h1 : u ≤ 1) (lo hi : Pt K)
    (hc : ∀ p ∈ ctrl, lo.1 ≤ p.1 ∧ p.1 ≤ hi.1 ∧ lo.2 ≤ p.2 ∧ p.2 ≤ hi.2) :
    lo.1 ≤ (funcBezier ctrl u).1 ∧ (funcBezier ctrl u).1 ≤ hi.1 ∧
      lo.2 ≤ (funcBezier ctrl u).2 ∧ (funcBezier ctrl u).2 ≤ hi.2 := by
  refine ⟨?_, ?_, ?_, ?_⟩
  · have := C58_hull ctrl h u h0 h1 (-1) 0 (-lo.1) fun p hp => by have := (hc p hp).1; linarith
    linarith
  · have := C58_hull ctrl h u h0 h1 1 0 hi.1 fun p hp => by have := (hc p hp).2.1; linarith
    linarith
  · have := C58_hull ctrl h u h0 h1 0 (-1) (-lo.2) fun p hp => by have := (hc p hp).2.2.1; linarith
    linarith
  · have := C58_hull ctrl h u h0 h1 0 1 hi.2 fun p hp => by have := (hc p hp).2.2.2; linarith
    linarith

end Order

/-- **C58.** The formulas for two, three and four control points. -/
theorem C58_low (p q r s : Pt K) (u : K) :
    funcBezier [p, q] u = ((1 - u) * p.1 + u * q.1, (1 - u) * p.2 + u * q.2) ∧
    funcBezier [p, q, r] u = ((1 - u) ^ 2 * p.1 + 2 * u * (1 - u) * q.1 + u ^ 2 * r.1,
      (1 - u) ^ 2 * p.2 + 2 * u * (1 - u) * q.2 + u ^ 2 * r.2) ∧
    funcBezier [p, q, r, s] u =
      ((1 - u) ^ 3 * p.1 + 3 * u * (1 - u) ^ 2 * q.1 + 3 * u ^ 2 * (1 - u) * r.1 + u ^ 3 * s.1,
       (1 - u) ^ 3 * p.2 + 3 * u * (1 - u) ^ 2 * q.2 + 3 * u ^ 2 * (1 - u) * r.2 + u ^ 3 * s.2) := by
  simp only [funcBezier, casteljau, casteljauStep, List.length_cons, List.length_nil, Nat.add_one_sub_one,
    Nat.reduceAdd, List.headD_cons, Prod.mk.injEq]
  refine ⟨⟨?_, ?_⟩, ⟨?_, ?_⟩, ?_, ?_⟩ <;> ring

theorem bern_split (n : Nat) (g : Nat → K) (u : K) :
    bern (n + 1) g u = u * bern n (fun i => g (i + 1)) u + (1 - u) * bern n g u := by
  rw [bern_succ, ← bern_mul, ← bern_mul, ← bern_add]
  exact bern_congr (fun i _ => by ring) u

theorem bern_sub (n : Nat) (g g' : Nat → K) (u : K) : bern n (fun i => g i - g' i) u = bern n g u - bern n g' u := by
  have := bern_add n (fun i => g i - g' i) g' u
  simp only [sub_add_cancel] at this
  rw [eq_sub_iff_add_eq]
  exact this.symm

theorem bern_deriv (n : Nat) (g : Nat → ℝ) (u : ℝ) :
    HasDerivAt (bern (n + 1) g) (((n : ℝ) + 1) * bern n (fun i => g (i + 1) - g i) u) u := by
  induction n generalizing g with
  | zero =>
    have e : bern 1 g = fun u => u * g 1 + (1 - u) * g 0 := by
      funext u
      rw [bern_split, bern_zero, bern_zero]
    rw [e, bern_zero]
    have h := ((hasDerivAt_id u).mul_const (g 1)).add (((hasDerivAt_id u).const_sub 1).mul_const (g 0))
    have e2 : ((0 : Nat) : ℝ) + 1 = 1 := by norm_num
    rw [e2]
    refine h.congr_deriv ?_
    ring
  | succ n ih =>
    have e : bern (n + 1 + 1) g = fun u => u * bern (n + 1) (fun i => g (i + 1)) u + (1 - u) * bern (n + 1) g u := by
      funext u
      rw [bern_split]
    rw [e]
    have h := ((hasDerivAt_id u).mul (ih fun i => g (i + 1))).add (((hasDerivAt_id u).const_sub 1).mul (ih g))
    refine h.congr_deriv ?_
    have e1 : bern (n + 1) (fun i => g (i + 1) - g i) u
        = bern (n + 1) (fun i => g (i + 1)) u - bern (n + 1) g u := bern_sub _ _ _ _
    have e2 := bern_split n (fun i => g (i + 1) - g i) u
    push_cast
    simp only [id] at *
    linear_combination (-1) * e1 - ((n : ℝ) + 1) * e2

/-- **C58.** The gradient given by `Path.bezier` to `Path.parametric` is the derivative of the curve. -/
theorem C58_derivative (ctrl : List (Pt ℝ)) (h : 2 ≤ ctrl.length) (u : ℝ) :
    HasDerivAt (fun v => (funcBezier ctrl v).1) (funcBezier (bezierDerivCtrl ctrl) u).1 u ∧
    HasDerivAt (fun v => (funcBezier ctrl v).2) (funcBezier (bezierDerivCtrl ctrl) u).2 u := by
  obtain ⟨n, hn⟩ : ∃ n, ctrl.length = n + 1 + 1 := ⟨ctrl.length - 2, by omega⟩
  have hlen : (bezierDerivCtrl ctrl).length = n + 1 := by
    unfold bezierDerivCtrl
    simp [hn]
  have hne : ctrl ≠ [] := by intro e; rw [e] at hn; cases hn
  have hne' : bezierDerivCtrl ctrl ≠ [] := by intro e; rw [e] at hlen; cases hlen
  have key : ∀ i, i ≤ n → (bezierDerivCtrl ctrl).getD i (0, 0) =
      (((n : ℝ) + 1) * ((ctrl.getD (i + 1) (0, 0)).1 - (ctrl.getD i (0, 0)).1),
       ((n : ℝ) + 1) * ((ctrl.getD (i + 1) (0, 0)).2 - (ctrl.getD i (0, 0)).2)) := by
    intro i hi
    unfold bezierDerivCtrl
    have hn' : ((ctrl.length : ℝ) - 1) = (n : ℝ) + 1 := by rw [hn]; push_cast; ring
    rw [hn', List.getD_eq_getElem?_getD, List.getD_eq_getElem?_getD, List.getD_eq_getElem?_getD, List.getElem?_zipWith,
      List.getElem?_drop, List.getElem?_eq_getElem (by omega : i < ctrl.length), Nat.add_comm 1 i,
      List.getElem?_eq_getElem (by omega : i + 1 < ctrl.length)]
    rfl
  have hc : ∀ v, funcBezier ctrl v = bezier ctrl v := C58_formula ctrl hne
  simp only [hc]
  rw [C58_formula _ hne']
  unfold bezier
  simp only [hlen, hn, Nat.add_one_sub_one]
  constructor
  · refine (bern_deriv n _ u).congr_deriv ?_
    rw [← bern_mul]
    exact bern_congr (fun i hi => by rw [key i hi]) u
  · refine (bern_deriv n _ u).congr_deriv ?_
    rw [← bern_mul]
    exact bern_congr (fun i hi => by rw [key i hi]) u

example : funcBezier [((0 : ℚ), 0), (1, 3), (4, 3), (5, 0), (7, 7)] (1 / 2) =
    bezier [((0 : ℚ), 0), (1, 3), (4, 3), (5, 0), (7, 7)] (1 / 2) := C58_formula _ (by simp) _

example : funcBezier [((0 : ℚ), 0), (1, 3), (4, 3), (5, 0), (7, 7)] (1 / 2) = (55 / 16, 37 / 16) := by
  decide +kernel

end Gdspy
