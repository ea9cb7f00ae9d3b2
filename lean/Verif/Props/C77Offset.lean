import Verif.Props.C77

/-!
C77: the contours of `offset`.
-/

namespace Gdspy.Spec

/-- The points per turn of round joins when polygons shrink. -/
noncomputable def shrinkPoints (δ : ℝ) : ℝ := min (Real.pi / Real.arccos (1 - 1 / (4 * |δ|))) (|δ| * Real.pi)

/-- How far the points of joins are from the corners, as multiples of the distance. -/
noncomputable def joinReach (tol : ℝ) : JoinKind → ℝ
  | .miter => tol
  | .square => √2
  | .round => 1

/-- What follows the union: contours in user units, fractured. -/
noncomputable def finish (clip : Engine ℝ) (fuel : Nat) (precision : ℝ) (maxPoints : Nat) (layer datatype : Int) (l : List (List IPt)) :
    Py (BoolOut ℝ) :=
  if l = [] then .ok .none
  else do
    let r ← fractured clip fuel maxPoints precision (l.map fun P => P.map fun v => ((v.1 : ℝ) * precision, (v.2 : ℝ) * precision)) layer datatype
    .ok (BoolOut.ofFracture r)

end Gdspy.Spec

namespace Gdspy

open Spec

theorem arc_ok {y δ : ℝ} (hy : 0 ≤ y) (hd : 0 < |δ|) (h : y ≤ 2 * |δ|) : realNum.acos (1 - y / |δ|) = some (Real.arccos (1 - y / |δ|)) := by
  simp only [realNum]
  rw [if_pos]
  constructor
  · rw [le_sub_comm, div_le_iff₀ hd]; linarith
  · have : 0 ≤ y / |δ| := by positivity
    linarith

/-- The settings. -/
theorem offsetCfg_ok (join : JoinKind) {tolerance δ : ℝ} (hd : 1 / 10 ^ 20 ≤ |δ|) (hround : join = .round → tolerance ≠ 0 ∧ 1 / 8 ≤ |δ|) :
    ∃ c N, offsetCfg realNum join tolerance δ = .ok c ∧ c.join = join ∧ c.delta = δ ∧ CfgFor c tolerance N ∧
      (join = .round → 0 < δ → 5 ≤ tolerance → tolerance ≤ Real.pi * δ → N = tolerance) ∧
      (join = .round → δ < 0 → N = shrinkPoints δ) := by
  have hpi := Real.pi_pos
  have hpos : 0 < |δ| := lt_of_lt_of_le (by norm_num) hd
  have h0 : δ ≠ 0 := abs_pos.1 hpos
  cases join with
  | miter => exact ⟨_, 0, rfl, rfl, rfl, ⟨fun _ => rfl, by simp, h0⟩, by simp, by simp⟩
  | square => exact ⟨_, 0, rfl, rfl, rfl, ⟨by simp, by simp, h0⟩, by simp, by simp⟩
  | round =>
    obtain ⟨ht, h8⟩ := hround rfl
    have hbig : ¬ (δ > -(1 / 10 ^ 20) ∧ δ < 1 / 10 ^ 20) := fun h => not_lt.2 hd (abs_lt.2 h)
    have hp2 : 2 * realNum.halfpi = Real.pi := by simp only [realNum]; ring
    have hcos : realNum.cos = Real.cos := rfl
    have hsin : realNum.sin = Real.sin := rfl
    unfold offsetCfg
    simp only [ht, if_false]
    rw [if_neg hbig]
    unfold clipArcSteps
    simp only [hp2, hcos, hsin]
    set y := if δ * (1 - Real.cos (Real.pi / tolerance)) ≤ 0 then 1 / 4
      else if δ * (1 - Real.cos (Real.pi / tolerance)) > |δ| * (1 / 4) then |δ| * (1 / 4) else δ * (1 - Real.cos (Real.pi / tolerance)) with hy
    have hy0 : 0 ≤ y ∧ y ≤ 2 * |δ| := by
      rw [hy]
      split
      · exact ⟨by norm_num, by linarith⟩
      · split
        · exact ⟨by positivity, by linarith⟩
        · constructor <;> linarith
    rw [arc_ok hy0.1 hpos hy0.2]
    simp only [py_bind_ok]
    have hmin : ∀ a b : ℝ, (if a > b then b else a) = min a b := by
      intro a b
      split
      · rename_i h; rw [min_eq_right h.le]
      · rename_i h; rw [min_eq_left (not_lt.1 h)]
    rw [hmin]
    refine ⟨_, min (Real.pi / Real.arccos (1 - y / |δ|)) (|δ| * Real.pi), rfl, rfl, rfl, ⟨by simp, fun _ => rfl, h0⟩, fun _ h1 h2 h3 => ?_,
      fun _ h1 => ?_⟩
    · have hpt : 0 < Real.pi / tolerance := by positivity
      have hc5 : (3 : ℝ) / 4 ≤ Real.cos (Real.pi / tolerance) := by
        have hle : Real.cos (Real.pi / 5) ≤ Real.cos (Real.pi / tolerance) := by
          apply Real.cos_le_cos_of_nonneg_of_le_pi hpt.le
          · linarith
          · exact div_le_div_of_nonneg_left hpi.le (by norm_num) h2
        rw [Real.cos_pi_div_five] at hle
        have : (2 : ℝ) ≤ √5 := by
          rw [show (2 : ℝ) = √4 by rw [show (4 : ℝ) = 2 ^ 2 by norm_num, Real.sqrt_sq (by norm_num)]]
          exact Real.sqrt_le_sqrt (by norm_num)
        linarith
      have hc1 : Real.cos (Real.pi / tolerance) < 1 := by
        rw [← Real.cos_zero]
        apply Real.cos_lt_cos_of_nonneg_of_le_pi (le_refl 0) _ hpt
        rw [div_le_iff₀ (by linarith)]
        nlinarith
      rw [abs_of_pos h1] at hy ⊢
      have hyv : y = δ * (1 - Real.cos (Real.pi / tolerance)) := by
        rw [hy, if_neg (by nlinarith), if_neg (by nlinarith)]
      have e : 1 - y / δ = Real.cos (Real.pi / tolerance) := by rw [hyv]; field_simp; ring
      rw [e, Real.arccos_cos hpt.le (by rw [div_le_iff₀ (by linarith)]; nlinarith)]
      have e2 : Real.pi / (Real.pi / tolerance) = tolerance := by field_simp
      rw [e2, min_eq_left (by linarith)]
    · have hyv : y = 1 / 4 := by
        rw [hy, if_pos]
        exact mul_nonpos_of_nonpos_of_nonneg h1.le (by linarith [Real.cos_le_one (Real.pi / tolerance)])
      rw [hyv]
      unfold shrinkPoints
      congr 4
      field_simp

theorem parses_grid {precision : ℝ} {A : List (Pgon ℝ)} {L : List (List IPt)} (h : List.Forall₂ (GridOutline precision) A L) :
    A.map (parsePolygon (1 / precision) true) = L := by
  induction h with
  | nil => rfl
  | @cons P Q _ _ h _ ih =>
    rw [List.map_cons, ih]
    congr 1
    change orientPath (P.map (gridPt (1 / precision))) = Q
    unfold orientPath
    have hpos := h.positive
    rcases h.same with hs | hs
    · rw [hs, ← orientation_shoelace] at hpos
      have : 0 < orientation (P.map (gridPt (1 / precision))) := by exact_mod_cast hpos
      rw [if_neg (by omega), hs]
    · rw [hs, ofGrid_reverse, shoelace_neg_reverse, ← orientation_shoelace] at hpos
      have : orientation (P.map (gridPt (1 / precision))) < 0 := by
        have : (0 : ℝ) < ((-orientation (P.map (gridPt (1 / precision))) : Int) : ℝ) := by push_cast; exact hpos
        have : 0 < -orientation (P.map (gridPt (1 / precision))) := by exact_mod_cast this
        omega
      rw [if_pos this, hs]

theorem offsetPaths_distinct {L : List (List IPt)} (h : ∀ P ∈ L, (∀ e ∈ edges P, e.1 ≠ e.2) ∧ 3 ≤ P.length) : offsetPaths L = L := by
  unfold offsetPaths
  induction L with
  | nil => rfl
  | cons P L ih =>
    rw [List.filterMap_cons, offsetPath_distinct (h P (by simp)).1 (h P (by simp)).2, ih fun Q hQ => h Q (List.mem_cons_of_mem _ hQ)]

/-- **C77 (joins).** `offset` draws a contour around each polygon, with all sides moved by the distance and the join asked for at each
corner, and returns the union of these contours (with a negative distance, that of the inner contours: everything with negative winding
number in a rectangle around them). Points of miter joins are at most `tolerance` (at least 2) times the distance away from the corner,
before they are cut; round joins have `tolerance` points per turn, at least 5, when the distance is positive and they are not
too close together for the precision. -/
theorem C77_joins {precision : ℝ} (hp : 0 < precision) (o : Operand ℝ) (hf : ¬ HasFlex o) (hb : ¬ BareVertices o) {L : List (List IPt)}
    (hL : List.Forall₂ (GridOutline precision) (operandPolys o) L) (join : JoinKind) {distance tolerance : ℝ}
    (hd : 1 / 10 ^ 20 ≤ |distance / precision|) (hround : join = .round → tolerance ≠ 0 ∧ 1 / 8 ≤ |distance / precision|) :
    ∃ N D, List.Forall₂ (Contour (distance / precision) (max 2 tolerance) N join) L D ∧
      (join = .round → 0 < distance → 5 ≤ tolerance → tolerance ≤ Real.pi * (distance / precision) → N = tolerance) ∧
      (join = .round → distance < 0 → N = shrinkPoints (distance / precision)) ∧
      ∀ e sort clip fuel maxPoints layer datatype,
        offsetOp realNum e sort clip fuel o distance (some join) tolerance precision false maxPoints layer datatype =
          treePaths sort (if 0 < distance then e.tree false D
            else match e.tree true (D ++ [clockwise ⟨(e.bounds D).x0 - 10, (e.bounds D).x1 + 10, (e.bounds D).y0 - 10, (e.bounds D).y1 + 10⟩]) with
              | [.mk _ (n :: l)] => n :: l
              | _ => []) >>= finish clip fuel precision maxPoints layer datatype := by
  have hgood : ∀ Q ∈ L, (∀ e ∈ edges Q, e.1 ≠ e.2) ∧ 3 ≤ Q.length := fun Q hQ => by
    obtain ⟨P, _, h⟩ := forall2_right hL Q hQ
    exact ⟨h.distinct, h.three⟩
  have hfix : fixOrientations L = L := fixOrientations_self (K := ℝ) fun Q hQ => by
    obtain ⟨P, _, h⟩ := forall2_right hL Q (lowestPath_mem hQ)
    exact ⟨h.three, h.positive.le⟩
  obtain ⟨c, N, h1, h2, h3, h4, h5, h6⟩ := offsetCfg_ok join hd hround
  have hbig : ¬ (c.delta > -(1 / 10 ^ 20) ∧ c.delta < 1 / 10 ^ 20) := fun h => not_lt.2 hd (abs_lt.2 (by rw [← h3]; exact h))
  have hdo : doOffset realNum c L = L.map (offsetContour realNum c) := by
    unfold doOffset
    rw [if_neg hbig]
  have hsgn : 0 < distance ↔ 0 < distance / precision := (div_pos_iff_of_pos_right hp).symm
  have hsgn' : distance < 0 ↔ distance / precision < 0 := by
    rw [div_lt_iff₀ hp, zero_mul]
  refine ⟨N, L.map (offsetContour realNum c), ?_, fun a b => h5 a (hsgn.1 b), fun a b => h6 a (hsgn'.1 b), ?_⟩
  · rw [List.forall₂_map_right_iff, List.forall₂_same]
    intro Q hQ
    have := offsetContour_drawn h4 (P := Q) (by intro h; have := (hgood Q hQ).2; rw [h] at this; simp at this) (hgood Q hQ).1
    rw [h2, h3] at this
    exact this
  · intro e sort clip fuel maxPoints layer datatype
    have hd' : distance * (1 / precision) = distance / precision := by ring
    have hex : executeTree realNum e c L = if 0 < distance then e.tree false (L.map (offsetContour realNum c))
            else match e.tree true (L.map (offsetContour realNum c) ++ [clockwise ⟨(e.bounds (L.map (offsetContour realNum c))).x0 - 10, (e.bounds (L.map (offsetContour realNum c))).x1 + 10, (e.bounds (L.map (offsetContour realNum c))).y0 - 10, (e.bounds (L.map (offsetContour realNum c))).y1 + 10⟩]) with
              | [.mk _ (n :: l)] => n :: l
              | _ => [] := by
      unfold executeTree
      rw [hfix, hdo, h3]
      simp only [gt_iff_lt, ← hsgn]
      rfl
    rw [← hex]
    have hpar : ∀ l : List (Pgon ℝ), (l.map Gathered.poly).mapM (Gathered.parse (1 / precision) true) =
      .ok (l.map (parsePolygon (1 / precision) true)) := fun l => mapM_parse ..
    unfold offsetOp
    rw [C53_gather_partial o hf hb, py_bind_ok, if_neg hp.ne']
    unfold clipperOffset
    simp only [hpar, py_bind_ok, hd', h1, parses_grid hL, offsetInput, offsetPaths_distinct hgood, Bool.false_eq_true, if_false]
    cases treePaths sort (executeTree realNum e c L) with
    | error x => rfl
    | ok l =>
      simp only [py_bind_ok]
      unfold finish buildTuple
      rw [List.map_map]
      have e1 : (fun P : Pgon ℝ => P.map fun v => (v.1 / (1 / precision), v.2 / (1 / precision))) ∘
          (fun P : List IPt => P.map fun v => ((v.1 : ℝ), (v.2 : ℝ))) = fun P => P.map fun v => ((v.1 : ℝ) * precision, (v.2 : ℝ) * precision) := by
        funext P
        simp only [Function.comp, List.map_map]
        apply List.map_congr_left
        intro v _
        simp
      rw [e1]
      by_cases hl : l = []
      · rw [hl]; rfl
      · rw [if_neg (by simpa using hl), if_neg hl]

/-! ## How far joins reach -/

theorem cut_far {δ : ℝ} {k j : IPt × IPt} {v p q : IPt} (hk : dotP (rightward k) (rightward k) = 1) (hj : dotP (rightward j) (rightward j) = 1)
    (hs : sinTurn k j ≠ 0 ∨ cosTurn k j ≤ 0) (h : Cut δ k j v p q) :
    (∃ d, Near v d p ∧ dotP d d ≤ 2 * δ ^ 2) ∧ ∃ d, Near v d q ∧ dotP d d ≤ 2 * δ ^ 2 := by
  obtain ⟨u, d, d', h1, h2, h3, h4, h5, h6, h7, h8, h9⟩ := h
  have key : ∀ (s : IPt × IPt) (d : Pt ℝ), dotP (rightward s) (rightward s) = 1 → 0 ≤ dotP u (rightward s) → dotP u (rightward s) ≠ 1 →
      dotP d (rightward s) = δ → dotP d u = δ → dotP d d ≤ 2 * δ ^ 2 := by
    intro s d g1 g2 g3 g4 g5
    have e : dotP d d * (dotP u u * dotP (rightward s) (rightward s) - dotP u (rightward s) ^ 2) =
        dotP d (rightward s) ^ 2 * dotP u u + dotP d u ^ 2 * dotP (rightward s) (rightward s) -
          2 * dotP d (rightward s) * dotP d u * dotP u (rightward s) := by
      unfold dotP; ring
    have hcs : dotP u (rightward s) ^ 2 ≤ dotP u u * dotP (rightward s) (rightward s) := by
      unfold dotP
      nlinarith [sq_nonneg (u.1 * (rightward s).2 - u.2 * (rightward s).1)]
    rw [g4, g5, h1, g1] at e
    rw [h1, g1] at hcs
    generalize dotP u (rightward s) = c at *
    have hc1 : c < 1 := lt_of_le_of_ne (by nlinarith) g3
    have hc2 : (1 - c) * (dotP d d * (1 + c) - 2 * δ ^ 2) = 0 := by linarith
    have hc3 := (mul_eq_zero.1 hc2).resolve_left (by linarith)
    have hn : 0 ≤ dotP d d := by unfold dotP; nlinarith [sq_nonneg d.1, sq_nonneg d.2]
    nlinarith
  have hne : dotP u (rightward k) ≠ 1 := by
    intro h
    have hu : ∀ s : IPt × IPt, dotP (rightward s) (rightward s) = 1 → dotP u (rightward s) = 1 → u = rightward s := by
      intro s g1 g2
      unfold dotP at g1 g2 h1
      have : (u.1 - (rightward s).1) ^ 2 + (u.2 - (rightward s).2) ^ 2 = 0 := by linarith
      have a1 : u.1 - (rightward s).1 = 0 := by nlinarith [sq_nonneg (u.1 - (rightward s).1), sq_nonneg (u.2 - (rightward s).2)]
      have a2 : u.2 - (rightward s).2 = 0 := by nlinarith [sq_nonneg (u.1 - (rightward s).1), sq_nonneg (u.2 - (rightward s).2)]
      exact Prod.ext (by linarith) (by linarith)
    have e1 := hu k hk h
    have e2 := hu j hj (by rw [← h2, h])
    rcases hs with hs | hs
    · apply hs
      unfold sinTurn crossP
      rw [← e1, ← e2]
      ring
    · unfold cosTurn at hs
      rw [← e1, ← e2, h1] at hs
      linarith
  exact ⟨⟨d, h6, key k d hk h3 hne h4 h5⟩, ⟨d', h9, key j d' hj (h2 ▸ h3) (h2 ▸ hne) h7 h8⟩⟩

theorem join_far {δ tol N : ℝ} (htol : 2 ≤ tol) {k j : IPt × IPt} (hk : dotP (rightward k) (rightward k) = 1)
    (hj : dotP (rightward j) (rightward j) = 1) (hs : 1 ≤ |sinTurn k j * δ| ∨ cosTurn k j ≤ 0) {v : IPt} {join : JoinKind} {pts : List IPt}
    (h : JoinAt δ tol N k j v join pts) : ∀ p ∈ pts, ∃ d, Near v d p ∧ √(dotP d d) ≤ joinReach tol join * |δ| := by
  have hs' : sinTurn k j ≠ 0 ∨ cosTurn k j ≤ 0 := by
    rcases hs with h | h
    · left; intro h0; rw [h0] at h; simp at h; linarith
    · exact Or.inr h
  have hside : ∀ (a : ℝ) (s : IPt × IPt), dotP (rightward s) (rightward s) = 1 →
      √(dotP (δ * (Real.cos a * (rightward s).1 - Real.sin a * (rightward s).2), δ * (Real.sin a * (rightward s).1 + Real.cos a * (rightward s).2))
        (δ * (Real.cos a * (rightward s).1 - Real.sin a * (rightward s).2), δ * (Real.sin a * (rightward s).1 + Real.cos a * (rightward s).2))) = |δ| := by
    intro a s h1
    rw [← Real.sqrt_sq_eq_abs]
    congr 1
    unfold dotP at *
    linear_combination δ ^ 2 * ((rightward s).1 * (rightward s).1 + (rightward s).2 * (rightward s).2) * (Real.sin_sq_add_cos_sq a) + δ ^ 2 * h1
  have hside0 : ∀ s : IPt × IPt, dotP (rightward s) (rightward s) = 1 →
      √(dotP (δ * (rightward s).1, δ * (rightward s).2) (δ * (rightward s).1, δ * (rightward s).2)) = |δ| := by
    intro s h1
    have := hside 0 s h1
    simpa using this
  have hone : 1 ≤ joinReach tol join := by
    cases join with
    | miter => exact le_trans (by norm_num) htol
    | square => exact Real.one_le_sqrt.2 (by norm_num)
    | round => exact le_refl _
  have h1 : |δ| ≤ joinReach tol join * |δ| := le_mul_of_one_le_left (abs_nonneg δ) hone
  have h2 : ∀ x, √2 ≤ x → ∀ d, dotP d d ≤ 2 * δ ^ 2 → √(dotP d d) ≤ x * |δ| := by
    intro x hx d hd
    refine le_trans (Real.sqrt_le_sqrt hd) ?_
    rw [Real.sqrt_mul (by norm_num), Real.sqrt_sq_eq_abs]
    exact mul_le_mul_of_nonneg_right hx (abs_nonneg δ)
  have h3 : √2 ≤ tol := le_trans ((Real.sqrt_le_left (by norm_num)).2 (by norm_num)) htol
  cases h with
  | inner _ g1 g2 =>
    intro p hp
    simp only [List.mem_cons, List.not_mem_nil, or_false] at hp
    rcases hp with rfl | rfl | rfl
    · exact ⟨_, g1, (hside0 k hk).trans_le h1⟩
    · exact ⟨(0, 0), ⟨by simp, by simp⟩, by simpa [dotP] using le_trans (abs_nonneg δ) h1⟩
    · exact ⟨_, g2, (hside0 j hj).trans_le h1⟩
  | miter d _ _ _ g1 g2 =>
    intro p hp
    rw [List.mem_singleton.1 hp]
    exact ⟨d, g2, g1⟩
  | cut _ _ g =>
    obtain ⟨⟨d, g1, g2⟩, ⟨d', g3, g4⟩⟩ := cut_far hk hj hs' g
    intro p hp
    simp only [List.mem_cons, List.not_mem_nil, or_false] at hp
    rcases hp with rfl | rfl
    · exact ⟨d, g1, h2 tol h3 d g2⟩
    · exact ⟨d', g3, h2 tol h3 d' g4⟩
  | square _ g =>
    obtain ⟨⟨d, g1, g2⟩, ⟨d', g3, g4⟩⟩ := cut_far hk hj hs' g
    intro p hp
    simp only [List.mem_cons, List.not_mem_nil, or_false] at hp
    rcases hp with rfl | rfl
    · exact ⟨d, g1, h2 _ le_rfl d g2⟩
    · exact ⟨d', g3, h2 _ le_rfl d' g4⟩
  | round _ g =>
    obtain ⟨A, _, _, _, _, n, _, _, arc, q, rfl, _, g1, g2⟩ := g
    intro p hp
    rcases List.mem_append.1 hp with hp | hp
    · obtain ⟨i, hi⟩ := List.mem_iff_getElem?.1 hp
      obtain ⟨a, _, g3⟩ := g1 i p hi
      exact ⟨_, g3, (hside a k hk).trans_le h1⟩
    · rw [List.mem_singleton.1 hp]
      exact ⟨_, g2, (hside0 j hj).trans_le h1⟩

theorem along_far {δ tol N : ℝ} (htol : 2 ≤ tol) {join : JoinKind} {k : IPt × IPt} {l : List (IPt × IPt)} {D : List IPt} (hk : k.1 ≠ k.2)
    (hl : ∀ e ∈ l, e.1 ≠ e.2) (h : Along δ tol N join k l D) :
    ∀ p ∈ D, ∃ e ∈ l, ∃ d, Near e.1 d p ∧ √(dotP d d) ≤ joinReach tol join * |δ| := by
  induction h with
  | nil => simp
  | @straight k j l p r h1 h2 h3 _ ih =>
    intro x hx
    rcases List.mem_cons.1 hx with rfl | hx
    · refine ⟨j, by simp, _, h3, ?_⟩
      have e : dotP (δ * (rightward k).1, δ * (rightward k).2) (δ * (rightward k).1, δ * (rightward k).2) = δ ^ 2 := by
        have := rightward_unit hk
        unfold dotP at *
        linear_combination δ ^ 2 * this
      rw [e, Real.sqrt_sq_eq_abs]
      refine le_mul_of_one_le_left (abs_nonneg δ) ?_
      cases join with
      | miter => exact le_trans (by norm_num) htol
      | square => exact Real.one_le_sqrt.2 (by norm_num)
      | round => exact le_refl _
    · obtain ⟨e, he, h⟩ := ih hk (fun e he => hl e (List.mem_cons_of_mem _ he)) x hx
      exact ⟨e, List.mem_cons_of_mem _ he, h⟩
  | @corner k j l pts r h1 h2 _ ih =>
    intro x hx
    rcases List.mem_append.1 hx with hx | hx
    · exact ⟨j, by simp, join_far htol (rightward_unit hk) (rightward_unit (hl j (by simp))) h1 h2 x hx⟩
    · obtain ⟨e, he, h⟩ := ih (hl j (by simp)) (fun e he => hl e (List.mem_cons_of_mem _ he)) x hx
      exact ⟨e, List.mem_cons_of_mem _ he, h⟩

/-- **C77 (reach).** Every point that is drawn is near a vertex of the polygon: at most `tolerance` times the distance away with
miter joins, `√2` times with square joins, and not farther than the distance with round joins, up to rounding. -/
theorem C77_reach {δ tol N : ℝ} (htol : 2 ≤ tol) {join : JoinKind} {P D : List IPt} (hP : ∀ e ∈ edges P, e.1 ≠ e.2)
    (h : Contour δ tol N join P D) : ∀ p ∈ D, ∃ v ∈ P, ∃ d, Near v d p ∧ √(dotP d d) ≤ joinReach tol join * |δ| := by
  obtain ⟨k, hk, h⟩ := h
  intro p hp
  obtain ⟨e, he, h⟩ := along_far htol (hP k (List.mem_of_getLast? hk)) hP h p hp
  exact ⟨e.1, (List.of_mem_zip he).1, h⟩

/-- **C77 (round joins of shrinking polygons).** The tolerance has no effect on round joins when the distance is negative. -/
theorem C77_shrink_ignores_tolerance (e : UnionEngine) (sort : List (List IPt) → List (List IPt)) (clip : Engine ℝ) (fuel : Nat) (o : Operand ℝ)
    {distance precision : ℝ} (hd : distance < 0) (hp : 0 < precision) {tolerance tolerance' : ℝ} (ht : tolerance ≠ 0) (ht' : tolerance' ≠ 0)
    (joinFirst : Bool) (maxPoints : Nat) (layer datatype : Int) :
    offsetOp realNum e sort clip fuel o distance (some .round) tolerance precision joinFirst maxPoints layer datatype =
      offsetOp realNum e sort clip fuel o distance (some .round) tolerance' precision joinFirst maxPoints layer datatype := by
  have key : ∀ x, x ≠ 0 → ∀ δ : ℝ, δ < 0 → clipArcSteps realNum (δ * (1 - realNum.cos (2 * realNum.halfpi / x))) δ = clipArcSteps realNum 0 δ := by
    intro x _ δ h
    have hn : δ * (1 - realNum.cos (2 * realNum.halfpi / x)) ≤ 0 :=
      mul_nonpos_of_nonpos_of_nonneg h.le (sub_nonneg.2 (Real.cos_le_one _))
    unfold clipArcSteps
    rw [if_pos hn, if_pos le_rfl]
  have hneg : distance * (1 / precision) < 0 := mul_neg_of_neg_of_pos hd (by positivity)
  unfold offsetOp clipperOffset offsetCfg
  simp only [ht, ht', if_false, key tolerance ht _ hneg, key tolerance' ht' _ hneg]

/-- A triangle with a slanted side; it is given in clockwise direction. -/
theorem triangle_outline : GridOutline 1 [(0, 0), (0, 100), (100, 0)] [(100, 0), (0, 100), (0, 0)] := by
  refine ⟨Or.inr ?_, by decide +kernel, by decide, ?_⟩
  · have : ∀ n : Int, clipRound (n : ℝ) = n := clipRound_int
    have h0 := this 0
    have h1 := this 100
    push_cast at h0 h1
    simp [gridPt, h0, h1]
  · rw [← clipArea_eq (by decide)]
    have : clipArea [(100, 0), (0, 100), (0, 0)] = 10000 := by decide +kernel
    rw [this]
    norm_num

/-- The triangle, expanded with round joins of 48 points per turn. -/
example : ∃ D, Contour 30 48 48 .round [(100, 0), (0, 100), (0, 0)] D := by
  obtain ⟨N, D, h1, h2, -, -⟩ := C77_joins (precision := 1) one_pos (.list [.verts [(0, 0), (0, 100), (100, 0)]]) (by simp [HasFlex])
    (by simp [BareVertices]) (L := [[(100, 0), (0, 100), (0, 0)]]) (.cons triangle_outline .nil) .round (distance := 30) (tolerance := 48)
    (by rw [div_one, abs_of_pos (by norm_num)]; norm_num) (fun _ => ⟨by norm_num, by rw [div_one, abs_of_pos (by norm_num)]; norm_num⟩)
  have hN := h2 rfl (by norm_num) (by norm_num) (by linarith [Real.two_le_pi])
  rw [hN, div_one, max_eq_right (by norm_num)] at h1
  cases h1 with
  | cons h _ => exact ⟨_, h⟩

/-- At the right angle of the triangle, expanded by 10 with miter joins, the moved sides meet at (-10, -10), which is nearer than 20. -/
example : JoinAt 10 2 0 ((0, 100), (0, 0)) ((0, 0), (100, 0)) (0, 0) .miter [(-10, -10)] := by
  have h100 : (100 : ℝ) ≠ 0 := by norm_num
  have e1 : rightward ((0, 100), (0, 0)) = (-1, 0) := by simp [rightward, h100]
  have e2 : rightward ((0, 0), (100, 0)) = (0, -1) := by simp [rightward, h100]
  refine .miter (-10, -10) ?_ ?_ ?_ ?_ ?_
  · simp [sinTurn, crossP, e1, e2]
  · simp [AtDistance, dotP, e1]
  · simp [AtDistance, dotP, e2]
  · rw [Real.sqrt_le_left (by positivity), abs_of_pos (by norm_num)]
    norm_num [dotP]
  · simp [Near]

end Gdspy
