import Verif.Props.C76Rect

/-!
C76: examples, and overlapping polygons.
-/

set_option linter.unusedSectionVars false

namespace Gdspy

open Spec

/-! ## Two squares that overlap -/

/-- The outline of the union of the squares from (0, 0) to (100, 100) and from (50, 50) to (150, 150). -/
def stepsPath : List IPt := [(0, 0), (100, 0), (100, 50), (150, 50), (150, 150), (50, 150), (50, 100), (0, 100)]

def squarePaths : List (List IPt) := [rectPath 0 0 100 100, rectPath 50 50 150 150]

theorem stepsPath_outline : Outline stepsPath := by
  refine ⟨?_, ?_, ?_, by decide⟩
  · have : ∀ e ∈ edges stepsPath, e.1.1 = e.2.1 ∨ e.1.2 = e.2.2 := by decide +kernel
    exact this
  · decide +kernel
  · decide +kernel

section
variable {K : Type} [Field K] [LinearOrder K] [IsStrictOrderedRing K]

variable [FloorRing K]

theorem stepsPath_wind (p : Pt K) : wind (ofGrid stepsPath) p = if 0 < total (squarePaths.map ofGrid) p then 1 else 0 := by
  have e : edges stepsPath = [((0, 0), (100, 0)), ((100, 0), (100, 50)), ((100, 50), (150, 50)), ((150, 50), (150, 150)),
      ((150, 150), (50, 150)), ((50, 150), (50, 100)), ((50, 100), (0, 100)), ((0, 100), (0, 0))] := rfl
  rw [wind_rect p stepsPath_outline.rectilinear, e]
  simp only [squarePaths, List.map_cons, List.map_nil, List.sum_cons, List.sum_nil, total_cons, rectPath_wind, rectWind]
  have h0 : total ([] : List (Pgon K)) p = 0 := rfl
  rw [h0]
  have b01 : ∀ x, rightOf p x = 0 ∨ rightOf p x = 1 := by intro x; unfold rightOf; split <;> simp
  have c01 : ∀ x, notBelow p x = 0 ∨ notBelow p x = 1 := by intro x; unfold notBelow; split <;> simp
  have m1 := rightOf_mono p (by norm_num : (0 : Int) ≤ 50)
  have m2 := rightOf_mono p (by norm_num : (50 : Int) ≤ 100)
  have m3 := rightOf_mono p (by norm_num : (100 : Int) ≤ 150)
  have n1 := notBelow_mono p (by norm_num : (0 : Int) ≤ 50)
  have n2 := notBelow_mono p (by norm_num : (50 : Int) ≤ 100)
  have n3 := notBelow_mono p (by norm_num : (100 : Int) ≤ 150)
  have q0 := b01 0
  have q1 := b01 50
  have q2 := b01 100
  have q3 := b01 150
  have r0 := c01 0
  have r1 := c01 50
  have r2 := c01 100
  have r3 := c01 150
  generalize rightOf p 0 = a0 at *
  generalize rightOf p 50 = a1 at *
  generalize rightOf p 100 = a2 at *
  generalize rightOf p 150 = a3 at *
  generalize notBelow p 0 = b0 at *
  generalize notBelow p 50 = b1 at *
  generalize notBelow p 100 = b2 at *
  generalize notBelow p 150 = b3 at *
  rcases q0 with rfl | rfl <;> rcases q1 with rfl | rfl <;> first | omega | skip
  all_goals rcases q2 with rfl | rfl <;> first | omega | skip
  all_goals rcases q3 with rfl | rfl <;> omega

theorem stepsPath_area : shoelace (ofGrid stepsPath : Pgon K) = 35000 := by
  rw [← clipArea_eq (by decide)]
  have : clipArea stepsPath = 35000 := by decide +kernel
  rw [this]
  norm_num

theorem grid_one (Q : List IPt) : (ofGrid Q : Pgon K).map (gridPt (1 / 1)) = Q := by
  unfold ofGrid
  rw [List.map_map]
  conv_rhs => rw [← List.map_id Q]
  apply List.map_congr_left
  intro q _
  simp [gridPt, clipRound_int]

theorem stepsPath_counterclockwise : Counterclockwise (1 : K) (ofGrid stepsPath) stepsPath := by
  refine ⟨Or.inl (grid_one _).symm, stepsPath_outline, ?_, fun p => ?_⟩
  · rw [stepsPath_area]; norm_num
  · rw [stepsPath_wind]; split <;> simp

theorem squarePaths_counterclockwise :
    List.Forall₂ (Counterclockwise (1 : K)) [ofGrid (rectPath 0 0 100 100), ofGrid (rectPath 50 50 150 150)] squarePaths :=
  .cons (rectPath_counterclockwise (by norm_num) (by norm_num) (Or.inl (grid_one _)))
    (.cons (rectPath_counterclockwise (by norm_num) (by norm_num) (Or.inl (grid_one _))) .nil)

end

/-- The two squares. -/
noncomputable def squares : Operand ℝ := .list [.set (.new [ofGrid (rectPath 0 0 100 100)] 0 0), .verts (ofGrid (rectPath 50 50 150 150))]

theorem squares_polys : operandPolys squares = [ofGrid (rectPath 0 0 100 100), ofGrid (rectPath 50 50 150 150)] := by
  simp [operandPolys, squares, polysOf, PolySet.new]

/-- Expanding an outline with six left turns and two right turns, with all assumptions met. -/
example : ∃ clip, Exact Rectilinear clip ∧ ∃ r,
    offsetOp realNum (cellEngine ℝ) leftSort clip 100 (.one (.robust [ofGrid stepsPath])) 10 (some .miter) 2 1 false 199 3 4 = .ok r ∧
      (r ≠ .outOfFuel → IsResult r (fun v => ∃ Q ∈ [stepsPath], wind (ofGrid Q) (unit 1 v) ≠ 0 ∨ InMargin (10 / 1) Q (unit 1 v)) 3 4 199) := by
  obtain ⟨clip, -, h1, h2⟩ := exact_engine_exists (K := ℝ)
  obtain ⟨r, h3, -, h4⟩ := C76_grow_partial realNum_polar exact_union_exists leftSort_sorts h1 (precision := 1) one_pos
    (.one (.robust [ofGrid stepsPath])) (by simp [HasFlex]) (by simp [BareVertices]) (L := [stepsPath])
    (.cons stepsPath_counterclockwise .nil) (distance := 10) (by norm_num) 2 100 199 3 4 (Or.inr h2)
  exact ⟨clip, h1, r, h3, h4⟩

/-- Shrinking it. -/
example : ∃ clip, Exact Rectilinear clip ∧ ∃ r,
    offsetOp realNum (cellEngine ℝ) leftSort clip 100 (.one (.robust [ofGrid stepsPath])) (-10) (some .miter) 2 1 false 199 3 4 = .ok r ∧
      (r ≠ .outOfFuel → IsResult r (fun v => (∃ Q ∈ [stepsPath], wind (ofGrid Q) (unit 1 v) ≠ 0) ∧
        ∀ Q ∈ [stepsPath], ¬ InMargin (-10 / 1) Q (unit 1 v)) 3 4 199) := by
  obtain ⟨clip, -, h1, h2⟩ := exact_engine_exists (K := ℝ)
  obtain ⟨r, h3, -, h4⟩ := C76_shrink_partial realNum_polar exact_union_exists leftSort_sorts h1 (precision := 1) one_pos
    (.one (.robust [ofGrid stepsPath])) (by simp [HasFlex]) (by simp [BareVertices]) (L := [stepsPath])
    (.cons stepsPath_counterclockwise .nil) (fun p => by
      simp only [List.map_cons, List.map_nil, total_cons, stepsPath_wind]
      have h0 : total ([] : List (Pgon ℝ)) p = 0 := rfl
      rw [h0]
      split <;> simp)
    (distance := -10) (by norm_num) 2 100 199 3 4 (Or.inr h2)
  exact ⟨clip, h1, r, h3, h4⟩

theorem real_round (n m : Int) (x : ℝ) (h : (n : ℝ) + x = m) : clipRound ((n : ℝ) + x) = m := by rw [h, clipRound_int]

/-- **C76 does not hold for shrinking polygons that overlap, without `join_first`:** when the two squares are shrunk by 10, the point
(55, 55) is not in the result, although all points less than 45 away are in one of the squares. -/
theorem C76_shrink_overlap {e : UnionEngine} (he : ExactUnion ℝ e) {sort : List (List IPt) → List (List IPt)} (hsort : SortsByLeft sort)
    {clip : Engine ℝ} (hclip : Exact Rectilinear clip) (fuel : Nat) (layer datatype : Int) :
    (∃ r, offsetOp realNum e sort clip fuel squares (-10) (some .miter) 2 1 false 0 layer datatype = .ok r ∧
      ¬ ∃ ps, r = .set ps ∧ Covers ps.polygons (55, 55)) ∧
    ∀ q : Pt ℝ, |q.1 - 55| < 45 → |q.2 - 55| < 45 → Covers (operandPolys squares) q := by
  constructor
  · obtain ⟨r, h1, h2, h3⟩ := C76_shrink_count realNum_polar he hsort hclip (precision := 1) one_pos squares (by simp [HasFlex, squares])
      (by simp [BareVertices, squares]) (L := squarePaths) (by rw [squares_polys]; exact squarePaths_counterclockwise)
      (distance := -10) (by norm_num) 2 fuel 0 layer datatype (Or.inl (by norm_num))
    refine ⟨r, h1, ?_⟩
    rw [(h3 (h2 (by norm_num))).1]
    have hu : unit (1 : ℝ) ((55 : ℝ), (55 : ℝ)) = ((55 : ℝ), (55 : ℝ)) := by simp [unit]
    beta_reduce
    rw [hu]
    have hm : 2 ≤ margin (-10 / 1 : ℝ) (rectPath 50 50 150 150) ((55 : ℝ), (55 : ℝ)) := by
      have w1 : wind (ofGrid (band (-10 / 1 : ℝ) ((50, 50), (150, 50)))) ((55 : ℝ), (55 : ℝ)) ≠ 0 := by
        rw [band_horiz _ _ (a := (50, 50)) (b := (150, 50)) (by norm_num) rfl, real_round 50 60 _ (by norm_num)]
        simp [rightOf, notBelow]
        norm_num
      have w2 : wind (ofGrid (band (-10 / 1 : ℝ) ((50, 150), (50, 50)))) ((55 : ℝ), (55 : ℝ)) ≠ 0 := by
        rw [band_vert _ _ (a := (50, 150)) (b := (50, 50)) rfl, real_round 50 60 _ (by norm_num)]
        simp [rightOf, notBelow]
        norm_num
      unfold margin
      rw [rectPath, edges_four]
      simp only [List.countP_cons, List.countP_nil, w1, w2, ne_eq, not_false_eq_true, decide_true, if_true]
      omega
    have h0 : total ([] : List (Pgon ℝ)) ((55 : ℝ), (55 : ℝ)) = 0 := rfl
    simp only [squarePaths, List.map_cons, List.map_nil, List.sum_cons, List.sum_nil, total_cons, rectPath_wind, h0]
    have a1 : (rightOf ((55 : ℝ), (55 : ℝ)) 100 - rightOf ((55 : ℝ), (55 : ℝ)) 0) = 1 := by simp [rightOf]; norm_num
    have a2 : (rightOf ((55 : ℝ), (55 : ℝ)) 150 - rightOf ((55 : ℝ), (55 : ℝ)) 50) = 1 := by simp [rightOf]; norm_num
    have b1 : (notBelow ((55 : ℝ), (55 : ℝ)) 100 - notBelow ((55 : ℝ), (55 : ℝ)) 0) = 1 := by simp [notBelow]; norm_num
    have b2 : (notBelow ((55 : ℝ), (55 : ℝ)) 150 - notBelow ((55 : ℝ), (55 : ℝ)) 50) = 1 := by simp [notBelow]; norm_num
    rw [a1, a2, b1, b2]
    omega
  · intro q h1 h2
    rw [abs_lt] at h1 h2
    rw [squares_polys]
    refine ⟨_, List.mem_cons_self, ?_⟩
    rw [rectPath_wind]
    have a1 : rightOf q 100 - rightOf q 0 = 1 := by
      unfold rightOf
      rw [if_pos (by push_cast; linarith [h1.2]), if_neg (by push_cast; linarith [h1.1])]; rfl
    have a2 : notBelow q 100 - notBelow q 0 = 1 := by
      unfold notBelow
      rw [if_pos (by push_cast; linarith [h2.2]), if_neg (by push_cast; linarith [h2.1])]; rfl
    rw [a1, a2]
    decide

/-- A class `Clipper` that gives the outline of the union of the two squares. -/
noncomputable def stepsEngine : UnionEngine :=
  { cellEngine ℝ with flat := fun _ A => [A.getLastD [], stepsPath] }

theorem stepsEngine_exact : ExactUnion ℝ stepsEngine := by
  have h := exact_union_exists (K := ℝ)
  exact ⟨h.bounds, h.positive, h.negative⟩

theorem stepsEngine_outlines : UnionOutlines ℝ stepsEngine squarePaths [stepsPath] := by
  refine ⟨fun b _ => ⟨_, rfl⟩, ?_, ?_, ?_⟩
  · intro P hP
    rw [List.mem_singleton.1 hP]
    exact stepsPath_outline
  · intro p
    simp only [List.map_cons, List.map_nil, total_cons, stepsPath_wind]
    have h0 : total ([] : List (Pgon ℝ)) p = 0 := rfl
    rw [h0, add_zero]
  · intro P hP _
    rw [List.mem_singleton.1 hP, stepsPath_area]
    norm_num

/-- With `join_first` the two squares are shrunk like the outline of their union. -/
example : ∃ clip, Exact Rectilinear clip ∧ ∃ r,
    offsetOp realNum stepsEngine leftSort clip 100 squares (-10) (some .miter) 2 1 true 199 3 4 = .ok r ∧
      (r ≠ .outOfFuel → IsResult r (fun v => if (0 : ℝ) < -10 then
          (∃ Q ∈ squarePaths, wind (ofGrid Q) (unit 1 v) ≠ 0) ∨ ∃ Q ∈ [stepsPath], InMargin (-10 / 1) Q (unit 1 v)
        else (∃ Q ∈ squarePaths, wind (ofGrid Q) (unit 1 v) ≠ 0) ∧ ∀ Q ∈ [stepsPath], ¬ InMargin (-10 / 1) Q (unit 1 v)) 3 4 199) := by
  obtain ⟨clip, -, h1, h2⟩ := exact_engine_exists (K := ℝ)
  obtain ⟨r, h3, -, h4⟩ := C76_join_first_partial realNum_polar stepsEngine_exact leftSort_sorts h1 (precision := 1) one_pos squares
    (by simp [HasFlex, squares]) (by simp [BareVertices, squares]) (A := squarePaths) (L := [stepsPath])
    (by rw [squares_polys]; exact squarePaths_counterclockwise) stepsEngine_outlines (-10) 2 100 199 3 4 (Or.inr h2)
  exact ⟨clip, h1, r, h3, h4⟩

/-- A distance of less than half a unit. -/
example : ∃ clip, Exact Rectilinear clip ∧ ∃ r,
    offsetOp realNum (cellEngine ℝ) leftSort clip 100 squares (1 / 4) (some .miter) 2 1 false 199 3 4 = .ok r ∧
      (r ≠ .outOfFuel → IsResult r (Region 1 (operandPolys squares)) 3 4 199) := by
  obtain ⟨clip, -, h1, h2⟩ := exact_engine_exists (K := ℝ)
  obtain ⟨r, h3, -, h4⟩ := C76_zero realNum_polar exact_union_exists leftSort_sorts h1 (precision := 1) one_pos squares
    (by simp [HasFlex, squares]) (by simp [BareVertices, squares]) (L := squarePaths)
    (by rw [squares_polys]; exact squarePaths_counterclockwise) (distance := 1 / 4) (by norm_num) (by norm_num) 2 100 199 3 4 (Or.inr h2)
  exact ⟨clip, h1, r, h3, h4⟩

/-- An unknown join. -/
example (clip : Engine ℝ) : offsetOp realNum (cellEngine ℝ) leftSort clip 100 squares 10 none 2 1 false 199 3 4 = .error .typeError :=
  (C76_errors realNum (cellEngine ℝ) leftSort clip 100 squares (by simp [BareVertices, squares]) 10 2 1 false 199 3 4).1 one_ne_zero

/-- A rectangle of 100 by 50 shrunk by 30 is None. -/
example : ∃ clip, Exact Rectilinear clip ∧
    offsetOp realNum (cellEngine ℝ) leftSort clip 100 (.one (.set (.new [ofGrid (rectPath 0 0 100 50)] 0 0))) (-30) (some .miter) 2 1 false 0
      3 4 = .ok .none := by
  obtain ⟨clip, -, h1, h2⟩ := exact_engine_exists (K := ℝ)
  obtain ⟨r, h3, h5, h4⟩ := C76_rectangle realNum_polar exact_union_exists leftSort_sorts h1 (precision := 1) one_pos
    (.one (.set (.new [ofGrid (rectPath 0 0 100 50)] 0 0))) (by simp [HasFlex]) (by simp [BareVertices]) (P := ofGrid (rectPath 0 0 100 50)) rfl
    (x0 := 0) (y0 := 0) (x1 := 100) (y1 := 50) (by norm_num) (by norm_num) (Or.inl (grid_one _)) (-30) 2 100 0 3 4 (Or.inr h2)
  refine ⟨clip, h1, ?_⟩
  rw [h3, (h4 (h5 (by norm_num))).2.1.2]
  rintro v ⟨-, h6, h7⟩
  rw [sub_eq_add_neg, real_round 0 30 _ (by norm_num)] at h6
  rw [real_round 50 20 _ (by norm_num)] at h7
  push_cast at h6 h7
  linarith

end Gdspy
