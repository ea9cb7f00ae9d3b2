import Verif.Props.C76Cases

/-!
C76: rectangles.
-/

set_option linter.unusedSectionVars false

namespace Gdspy

open Spec

variable {K : Type} [Field K] [LinearOrder K] [IsStrictOrderedRing K]

/-- The counterclockwise rectangle. -/
def rectPath (x0 y0 x1 y1 : Int) : List IPt := [(x0, y0), (x1, y0), (x1, y1), (x0, y1)]

theorem rectPath_outline {x0 y0 x1 y1 : Int} (hx : x0 < x1) (hy : y0 < y1) : Outline (rectPath x0 y0 x1 y1) := by
  have e1 : ∀ e ∈ edges (rectPath x0 y0 x1 y1), (e.1.1 = e.2.1 ∨ e.1.2 = e.2.2) ∧ e.1 ≠ e.2 := by
    intro e he
    rw [rectPath, edges_four] at he
    simp only [List.mem_cons, List.not_mem_nil, or_false] at he
    rcases he with rfl | rfl | rfl | rfl <;> refine ⟨by simp, fun h => ?_⟩ <;> rw [Prod.ext_iff] at h <;> simp only at h <;> omega
  refine ⟨fun e he => (e1 e he).1, fun e he => (e1 e he).2, ?_, by simp [rectPath]⟩
  intro c hc
  left
  rw [rectPath, corners_four] at hc
  simp only [List.mem_cons, List.not_mem_nil, or_false] at hc
  have h := mul_pos (sub_pos.2 hx) (sub_pos.2 hy)
  rcases hc with rfl | rfl | rfl | rfl <;> simp only [turn] <;> nlinarith

theorem rectPath_wind (x0 y0 x1 y1 : Int) (p : Pt K) : wind (ofGrid (rectPath x0 y0 x1 y1)) p =
    (rightOf p x1 - rightOf p x0) * (notBelow p y1 - notBelow p y0) := by
  unfold rectPath
  rw [rectWind_four p (x0, y0) (x1, y0) (x1, y1) (x0, y1) (Or.inr rfl) (Or.inl rfl) (Or.inr rfl) (Or.inl rfl)]
  simp only [rectWind]
  ring

theorem rectPath_area (x0 y0 x1 y1 : Int) : shoelace (ofGrid (rectPath x0 y0 x1 y1) : Pgon K) = 2 * ((x1 - x0) * (y1 - y0)) := by
  rw [← clipArea_eq (by simp [rectPath])]
  have : clipArea (rectPath x0 y0 x1 y1) = 2 * ((x1 - x0) * (y1 - y0)) := by
    simp only [clipArea, rectPath, List.length_cons, List.length_nil]
    norm_num
    ring
  rw [this]
  push_cast
  rfl

theorem in_rect {x0 y0 x1 y1 : Int} (p : Pt K) : (rightOf p x1 = 1 ∧ rightOf p x0 = 0) ∧ (notBelow p y1 = 1 ∧ notBelow p y0 = 0) ↔
    ((x0 : K) ≤ p.1 ∧ p.1 < x1) ∧ (y0 : K) < p.2 ∧ p.2 ≤ y1 := by
  unfold rightOf notBelow
  simp only [ite_eq_left_iff, ite_eq_right_iff, not_lt, not_le, zero_ne_one, imp_false, one_ne_zero]
  tauto

variable [FloorRing K]

/-- The moved outline of a rectangle. -/
theorem rect_shift {x0 y0 x1 y1 : Int} (hx : x0 < x1) (hy : y0 < y1) (d : K) (p : Pt K) :
    0 < wind (ofGrid (rectPath x0 y0 x1 y1)) p + shift d (rectPath x0 y0 x1 y1) p ↔
      ((clipRound ((x0 : K) - d) : K) ≤ p.1 ∧ p.1 < clipRound ((x1 : K) + d)) ∧
        (clipRound ((y0 : K) - d) : K) < p.2 ∧ p.2 ≤ clipRound ((y1 : K) + d) := by
  have ho := rectPath_outline hx hy
  have hs : wind (ofGrid (rectPath x0 y0 x1 y1)) p + shift d (rectPath x0 y0 x1 y1) p =
      wind (ofGrid (movedOutline d (rectPath x0 y0 x1 y1))) p := by
    unfold shift
    by_cases hd : 0 < d
    · rw [if_pos hd, moved_right ho hd.le]
    · rw [if_neg hd, moved_left ho (not_lt.1 hd)]; ring
  rw [hs, (moved_wind ho d p).2, rectPath_wind, rectPath, edges_four, corners_four]
  simp only [List.map_cons, List.map_nil, List.sum_cons, List.sum_nil]
  rw [band_horiz p d (a := (x0, y0)) (b := (x1, y0)) hx.ne rfl, band_vert p d (a := (x1, y0)) (b := (x1, y1)) rfl,
    band_horiz p d (a := (x1, y1)) (b := (x0, y1)) hx.ne' rfl, band_vert p d (a := (x0, y1)) (b := (x0, y0)) rfl]
  simp only [if_pos hx, if_pos hy, if_neg (not_lt.2 hx.le), if_neg (not_lt.2 hy.le), ← sub_eq_add_neg]
  rw [← in_rect]
  have t := mul_pos (sub_pos.2 hx) (sub_pos.2 hy)
  have hgap : ∀ c ∈ corners (rectPath x0 y0 x1 y1), Gap d c ↔ 0 < d := by
    intro c hc
    have : (0 : K) < turn c.1 c.2.1 c.2.2 := by
      rw [rectPath, corners_four] at hc
      simp only [List.mem_cons, List.not_mem_nil, or_false] at hc
      have : 0 < turn c.1 c.2.1 c.2.2 := by
        rcases hc with rfl | rfl | rfl | rfl <;> simp only [turn] <;> nlinarith
      exact_mod_cast this
    unfold Gap
    exact mul_pos_iff_of_pos_left this
  rw [rectPath, corners_four] at hgap
  unfold boxWind
  rw [if_congr (hgap _ (by simp)) rfl rfl, if_congr (hgap _ (by simp)) rfl rfl, if_congr (hgap _ (by simp)) rfl rfl,
    if_congr (hgap _ (by simp)) rfl rfl]
  have rx := rightOf_mono p hx.le
  have ry := notBelow_mono p hy.le
  have b01 : ∀ x, rightOf p x = 0 ∨ rightOf p x = 1 := by intro x; unfold rightOf; split <;> simp
  have c01 : ∀ x, notBelow p x = 0 ∨ notBelow p x = 1 := by intro x; unfold notBelow; split <;> simp
  by_cases hd : 0 < d
  · have box : ∀ x y X Y : Int, (wind (ofGrid [(x, y), (X, y), (X, Y), (x, Y)]) p = (rightOf p X - rightOf p x) * (notBelow p Y - notBelow p y)) ∧
        (wind (ofGrid [(x, y), (x, Y), (X, Y), (X, y)]) p = -((rightOf p X - rightOf p x) * (notBelow p Y - notBelow p y))) := by
      intro x y X Y
      constructor
      · exact rectPath_wind x y X Y p
      · rw [rectWind_four p (x, y) (x, Y) (X, Y) (X, y) (Or.inl rfl) (Or.inr rfl) (Or.inl rfl) (Or.inr rfl)]
        simp only [rectWind]
        ring
    unfold cornerBox
    simp only [if_pos hd, stepOut, if_pos hx, if_pos hy, if_neg (not_lt.2 hx.le), if_neg (not_lt.2 hy.le), ← sub_eq_add_neg, if_neg hx.ne,
      if_neg hx.ne', if_true, (box _ _ _ _).1, (box _ _ _ _).2]
    have e1 := rightOf_mono p (by simpa [sub_eq_add_neg] using clipRound_down (neg_nonpos.2 hd.le) x0 : clipRound ((x0 : K) - d) ≤ x0)
    have e2 := rightOf_mono p (clipRound_up hd.le x1)
    have e3 := notBelow_mono p (by simpa [sub_eq_add_neg] using clipRound_down (neg_nonpos.2 hd.le) y0 : clipRound ((y0 : K) - d) ≤ y0)
    have e4 := notBelow_mono p (clipRound_up hd.le y1)
    have hX := b01 (clipRound ((x0 : K) - d))
    generalize rightOf p (clipRound ((x0 : K) - d)) = X0 at *
    have q1 := b01 (clipRound ((x1 : K) + d))
    generalize rightOf p (clipRound ((x1 : K) + d)) = X1 at *
    have q2 := c01 (clipRound ((y0 : K) - d))
    generalize notBelow p (clipRound ((y0 : K) - d)) = Y0 at *
    have q3 := c01 (clipRound ((y1 : K) + d))
    generalize notBelow p (clipRound ((y1 : K) + d)) = Y1 at *
    have q4 := b01 x0
    have q5 := b01 x1
    have q6 := c01 y0
    have q7 := c01 y1
    generalize rightOf p x0 = a0 at *
    generalize rightOf p x1 = a1 at *
    generalize notBelow p y0 = b0 at *
    generalize notBelow p y1 = b1 at *
    rcases q1 with rfl | rfl <;> rcases q2 with rfl | rfl <;> rcases q3 with rfl | rfl <;> rcases hX with rfl | rfl <;>
      rcases q4 with rfl | rfl <;> rcases q5 with rfl | rfl <;> rcases q6 with rfl | rfl <;> rcases q7 with rfl | rfl <;> omega
  · simp only [if_neg hd]
    have hd' := not_lt.1 hd
    have e1 := rightOf_mono p (by simpa [sub_eq_add_neg] using clipRound_up (neg_nonneg.2 hd') x0 : x0 ≤ clipRound ((x0 : K) - d))
    have e2 := rightOf_mono p (clipRound_down hd' x1)
    have e3 := notBelow_mono p (by simpa [sub_eq_add_neg] using clipRound_up (neg_nonneg.2 hd') y0 : y0 ≤ clipRound ((y0 : K) - d))
    have e4 := notBelow_mono p (clipRound_down hd' y1)
    have q0 := b01 (clipRound ((x0 : K) - d))
    generalize rightOf p (clipRound ((x0 : K) - d)) = X0 at *
    have q1 := b01 (clipRound ((x1 : K) + d))
    generalize rightOf p (clipRound ((x1 : K) + d)) = X1 at *
    have q2 := c01 (clipRound ((y0 : K) - d))
    generalize notBelow p (clipRound ((y0 : K) - d)) = Y0 at *
    have q3 := c01 (clipRound ((y1 : K) + d))
    generalize notBelow p (clipRound ((y1 : K) + d)) = Y1 at *
    have q4 := b01 x0
    have q5 := b01 x1
    have q6 := c01 y0
    have q7 := c01 y1
    generalize rightOf p x0 = a0 at *
    generalize rightOf p x1 = a1 at *
    generalize notBelow p y0 = b0 at *
    generalize notBelow p y1 = b1 at *
    rcases q1 with rfl | rfl <;> rcases q2 with rfl | rfl <;> rcases q3 with rfl | rfl <;> rcases q0 with rfl | rfl <;>
      rcases q4 with rfl | rfl <;> rcases q5 with rfl | rfl <;> rcases q6 with rfl | rfl <;> rcases q7 with rfl | rfl <;> omega

theorem rectPath_counterclockwise {precision : K} {P : Pgon K} {x0 y0 x1 y1 : Int} (hx : x0 < x1) (hy : y0 < y1)
    (hP : P.map (gridPt (1 / precision)) = rectPath x0 y0 x1 y1 ∨ P.map (gridPt (1 / precision)) = (rectPath x0 y0 x1 y1).reverse) :
    Counterclockwise precision P (rectPath x0 y0 x1 y1) := by
  refine ⟨?_, rectPath_outline hx hy, ?_, ?_⟩
  · rcases hP with h | h
    · exact Or.inl h.symm
    · right; rw [h, List.reverse_reverse]
  · rw [rectPath_area]
    have h1 : (0 : K) < (x1 : K) - x0 := sub_pos.2 (by exact_mod_cast hx)
    have h2 : (0 : K) < (y1 : K) - y0 := sub_pos.2 (by exact_mod_cast hy)
    positivity
  · intro p
    rw [rectPath_wind]
    exact (mul_unit (rightOf_mono p hx.le) (notBelow_mono p hy.le)).1

/-- **C76 (rectangles).** `offset` moves each side of a rectangle by the distance, outwards if it is positive, inwards if it is
negative, rounded to the grid; the result is None if the sides meet. -/
theorem C76_rectangle {t : Num K} (ht : Num.Polar t) {e : UnionEngine} (he : ExactUnion K e)
    {sort : List (List IPt) → List (List IPt)} (hsort : SortsByLeft sort) {clip : Engine K} (hclip : Exact Rectilinear clip) {precision : K}
    (hp : 0 < precision) (o : Operand K) (hf : ¬ HasFlex o) (hb : ¬ BareVertices o) {P : Pgon K} (ho : operandPolys o = [P])
    {x0 y0 x1 y1 : Int} (hx : x0 < x1) (hy : y0 < y1)
    (hP : P.map (gridPt (1 / precision)) = rectPath x0 y0 x1 y1 ∨ P.map (gridPt (1 / precision)) = (rectPath x0 y0 x1 y1).reverse)
    (distance tolerance : K) (fuel maxPoints : Nat) (layer datatype : Int) (hgrid : maxPoints ≤ 4 ∨ StaysOnGrid Rectilinear clip) :
    ∃ r, offsetOp t e sort clip fuel o distance (some .miter) tolerance precision false maxPoints layer datatype = .ok r ∧
      (maxPoints ≤ 4 → r ≠ .outOfFuel) ∧
      (r ≠ .outOfFuel → IsResult r (fun v =>
        ((clipRound ((x0 : K) - distance / precision) : K) ≤ v.1 / precision ∧
          v.1 / precision < clipRound ((x1 : K) + distance / precision)) ∧
        (clipRound ((y0 : K) - distance / precision) : K) < v.2 / precision ∧
          v.2 / precision ≤ clipRound ((y1 : K) + distance / precision)) layer datatype maxPoints) := by
  obtain ⟨r, h1, h2, h3⟩ := offset_apart ht he hsort hclip hp o hf hb (L := [rectPath x0 y0 x1 y1])
    (by rw [ho]; exact .cons (rectPath_counterclockwise hx hy hP) .nil) distance tolerance fuel maxPoints layer datatype hgrid
  refine ⟨r, h1, h2, fun hr => isResult_congr (fun v => ?_) (h3 hr)⟩
  have := rect_shift hx hy (distance / precision) (unit precision v)
  simp only [List.map_cons, List.map_nil, total_cons, List.sum_cons, List.sum_nil, add_zero]
  have h0 : total ([] : List (Pgon K)) (unit precision v) = 0 := rfl
  rw [h0, add_zero, this]
  simp [unit, div_eq_inv_mul]

end Gdspy
