import Verif.Lemmas.Offset
import Verif.Lemmas.Tree

/-!
`ClipperOffset` on rectilinear outlines with miter joins.
-/

set_option linter.unusedSectionVars false

namespace Gdspy

open Spec

variable {K : Type} [Field K] [LinearOrder K] [IsStrictOrderedRing K] [FloorRing K]

theorem sqrt_abs {t : Num K} (ht : Num.Polar t) (x : K) : t.sqrt (x * x) = |x| := by
  have h1 := ht.sqrtSq (x * x) (mul_self_nonneg x)
  have h2 := ht.sqrtNonneg (x * x)
  have : t.sqrt (x * x) ^ 2 = |x| ^ 2 := by rw [h1, sq_abs]; ring
  exact (pow_left_inj₀ h2 (abs_nonneg x) (by norm_num)).1 this

/-- The unit normal of a vertical side. -/
theorem normal_vert {t : Num K} (ht : Num.Polar t) {a b : IPt} (h : a.1 = b.1) (hn : a ≠ b) :
    edgeNormal t a b = (if a.2 < b.2 then 1 else -1, 0) := by
  have h2 : a.2 ≠ b.2 := fun h' => hn (Prod.ext h h')
  unfold edgeNormal
  rw [if_neg (fun h' => h2 h'.2.symm)]
  have e1 : (((b.1 - a.1 : Int) : K)) = 0 := by rw [h]; simp
  rw [e1]
  simp only [mul_zero, zero_add, zero_mul, neg_zero]
  rw [sqrt_abs ht]
  have h0 : ((b.2 - a.2 : Int) : K) ≠ 0 := by
    rw [Ne, Int.cast_eq_zero]; omega
  refine Prod.ext ?_ rfl
  simp only []
  split
  · rename_i h3
    have : (0 : K) < ((b.2 - a.2 : Int) : K) := by rw [Int.cast_pos]; omega
    rw [abs_of_pos this]; field_simp
  · rename_i h3
    have : ((b.2 - a.2 : Int) : K) < 0 := by rw [Int.cast_lt_zero]; omega
    rw [abs_of_neg this]; field_simp

/-- The unit normal of a horizontal side. -/
theorem normal_horiz {t : Num K} (ht : Num.Polar t) {a b : IPt} (h : a.1 ≠ b.1) (h2 : a.2 = b.2) :
    edgeNormal t a b = (0, if a.1 < b.1 then -1 else 1) := by
  unfold edgeNormal
  rw [if_neg (fun h' => h h'.1.symm)]
  have e1 : (((b.2 - a.2 : Int) : K)) = 0 := by rw [h2]; simp
  rw [e1]
  simp only [mul_zero, add_zero, zero_mul]
  rw [sqrt_abs ht]
  have h0 : ((b.1 - a.1 : Int) : K) ≠ 0 := by
    rw [Ne, Int.cast_eq_zero]; omega
  refine Prod.ext rfl ?_
  simp only []
  split
  · rename_i h3
    have : (0 : K) < ((b.1 - a.1 : Int) : K) := by rw [Int.cast_pos]; omega
    rw [abs_of_pos this]; field_simp
  · rename_i h3
    have : ((b.1 - a.1 : Int) : K) < 0 := by rw [Int.cast_lt_zero]; omega
    rw [abs_of_neg this]; field_simp

theorem gridNear_eq {t : Num K} (ht : Num.Polar t) {a b : IPt} (h : Axis a b) (hn : a ≠ b) (d : K) (v : IPt) :
    gridNear v ((edgeNormal t a b).1 * d, (edgeNormal t a b).2 * d) = stepOut d a b v := by
  unfold gridNear
  by_cases h1 : a.1 = b.1
  · rw [normal_vert ht h1 hn, stepOut_vert d h1]
    simp only [zero_mul, add_zero, clipRound_int]
    split <;> simp
  · rw [normal_horiz ht h1 (h.resolve_left h1), stepOut_horiz d h1]
    simp only [zero_mul, add_zero, clipRound_int]
    split <;> simp

theorem miterLim_le (l : K) : miterLimOf l ≤ 1 / 2 := by
  unfold miterLimOf
  split
  · rename_i h
    rw [div_le_div_iff₀ (by nlinarith) (by norm_num)]
    nlinarith
  · exact le_refl _

/-- The settings for miter joins. -/
structure MiterCfg (c : OffsetCfg K) : Prop where
  join : c.join = .miter
  lim : c.miterLim ≤ 1
  delta : c.delta ≠ 0

theorem offsetPoint_eq {t : Num K} (ht : Num.Polar t) {c : OffsetCfg K} (hc : MiterCfg c) {a v b : IPt} (h : GoodCorner a v b) :
    offsetPoint t c (edgeNormal t a v) (edgeNormal t v b) v = (cornerPts c.delta (a, v, b), edgeNormal t v b) := by
  have gA := gridNear_eq ht h.first h.ne1 c.delta v
  have gB := gridNear_eq ht h.second h.ne2 c.delta v
  by_cases htu : turn a v b = 0
  · have hN : edgeNormal t a v = edgeNormal t v b := by
      rcases h.straight htu with ⟨h1, h2, h3⟩ | ⟨h1, h2, h4, h5, h3⟩
      · rw [normal_vert ht h1 h.ne1, normal_vert ht h2 h.ne2]; simp only [h3]
      · rw [normal_horiz ht h1 h4, normal_horiz ht h2 h5]; simp only [h3]
    have hunit : (edgeNormal t v b).1 * (edgeNormal t v b).1 + (edgeNormal t v b).2 * (edgeNormal t v b).2 = 1 := by
      by_cases h1 : v.1 = b.1
      · rw [normal_vert ht h1 h.ne2]; split <;> simp
      · rw [normal_horiz ht h1 (h.second.resolve_left h1)]; split <;> simp
    unfold offsetPoint cornerPts
    rw [gA, hN]
    simp only []
    rw [if_pos ⟨by simp, by rw [hunit]; exact one_pos⟩, if_pos htu]
  · have hcr := h.cross htu
    -- the normals
    obtain ⟨hcos, hsin, hM⟩ : (edgeNormal t a v).1 * (edgeNormal t v b).1 + (edgeNormal t v b).2 * (edgeNormal t a v).2 = 0 ∧
        ((edgeNormal t a v).1 * (edgeNormal t v b).2 - (edgeNormal t v b).1 * (edgeNormal t a v).2 = if 0 < turn a v b then 1 else -1) ∧
        gridNear v (((edgeNormal t a v).1 + (edgeNormal t v b).1) * c.delta, ((edgeNormal t a v).2 + (edgeNormal t v b).2) * c.delta) =
          stepOut c.delta v b (stepOut c.delta a v v) := by
      by_cases h1 : a.1 = v.1
      · have h2 := hcr.1 h1
        have h2' := h.second.resolve_left h2
        have n1 : a.2 ≠ v.2 := fun h' => h.ne1 (Prod.ext h1 h')
        have tv : turn a v b = (v.2 - a.2) * (v.1 - b.1) := by unfold turn; rw [h1, h2']; ring
        rw [tv] at htu
        rw [normal_vert ht h1 h.ne1, normal_horiz ht h2 h2', stepOut_vert _ h1, stepOut_horiz _ h2, tv]
        refine ⟨by simp, ?_, ?_⟩
        · rcases lt_or_gt_of_ne n1 with h3 | h3 <;> rcases lt_or_gt_of_ne h2 with h4 | h4
          · rw [if_pos h3, if_pos h4, if_neg (by nlinarith)]; simp
          · rw [if_pos h3, if_neg (by omega), if_pos (by nlinarith)]; simp
          · rw [if_neg (by omega), if_pos h4, if_pos (by nlinarith)]; simp
          · rw [if_neg (by omega), if_neg (by omega), if_neg (by nlinarith)]; simp
        · unfold gridNear
          simp only [add_zero, zero_add]
          congr 2
          · split <;> simp
          · split <;> simp
      · have h2 : v.1 = b.1 := by by_contra h; exact h1 (hcr.2 h)
        have h1' := h.first.resolve_left h1
        have n2 : v.2 ≠ b.2 := fun h' => h.ne2 (Prod.ext h2 h')
        have tv : turn a v b = (v.1 - a.1) * (b.2 - v.2) := by unfold turn; rw [h1', h2]; ring
        rw [tv] at htu
        rw [normal_horiz ht h1 h1', normal_vert ht h2 h.ne2, stepOut_horiz _ h1, stepOut_vert _ h2, tv]
        refine ⟨by simp, ?_, ?_⟩
        · rcases lt_or_gt_of_ne n2 with h3 | h3 <;> rcases lt_or_gt_of_ne h1 with h4 | h4
          · rw [if_pos h3, if_pos h4, if_pos (by nlinarith)]; simp
          · rw [if_pos h3, if_neg (by omega : ¬ a.1 < v.1), if_neg (by nlinarith)]; simp
          · rw [if_neg (by omega : ¬ v.2 < b.2), if_pos h4, if_neg (by nlinarith)]; simp
          · rw [if_neg (by omega : ¬ v.2 < b.2), if_neg (by omega : ¬ a.1 < v.1), if_pos (by nlinarith)]; simp
        · unfold gridNear
          simp only [add_zero, zero_add]
          congr 2
          · split <;> simp
          · split <;> simp
    have hcos' : (edgeNormal t v b).1 * (edgeNormal t a v).1 + (edgeNormal t v b).2 * (edgeNormal t a v).2 = 0 := by
      rw [← hcos]; ring
    unfold offsetPoint
    simp only [hcos, hsin, hcos', gA, gB, lt_irrefl, gt_iff_lt, and_false, if_false, hc.join, add_zero, ge_iff_le, hc.lim, if_true]
    have hclamp : (if |(if 0 < turn a v b then (1 : K) else -1) * c.delta| < 1 then (if 0 < turn a v b then (1 : K) else -1)
        else if 1 < (if 0 < turn a v b then (1 : K) else -1) then 1
        else if (if 0 < turn a v b then (1 : K) else -1) < -1 then -1 else (if 0 < turn a v b then (1 : K) else -1)) =
        if 0 < turn a v b then (1 : K) else -1 := by
      split_ifs <;> first | rfl | (exfalso; linarith)
    rw [hclamp]
    unfold cornerPts doMiter
    simp only [div_one, hM]
    rw [if_neg htu]
    have hgap : (if 0 < turn a v b then (1 : K) else -1) * c.delta < 0 ↔ ¬ Gap c.delta (a, v, b) := by
      unfold Gap
      simp only []
      rcases lt_or_gt_of_ne htu with h1 | h1
      · have h1' : (turn a v b : K) < 0 := by exact_mod_cast h1
        rw [if_neg (by omega)]
        rcases lt_or_gt_of_ne hc.delta with h2 | h2
        · have := mul_pos_of_neg_of_neg h1' h2
          constructor
          · intro h; linarith
          · intro h; exact absurd this h
        · have := mul_neg_of_neg_of_pos h1' h2
          constructor
          · intro _; linarith
          · intro _; linarith
      · have h1' : (0 : K) < (turn a v b : K) := by exact_mod_cast h1
        rw [if_pos h1]
        rcases lt_or_gt_of_ne hc.delta with h2 | h2
        · have := mul_neg_of_pos_of_neg h1' h2
          constructor
          · intro _; linarith
          · intro _; linarith
        · have := mul_pos h1' h2
          constructor
          · intro h; linarith
          · intro h; exact absurd this h
    by_cases hg : Gap c.delta (a, v, b)
    · rw [if_neg (fun h => hgap.1 h hg), if_pos hg]
    · rw [if_pos (hgap.2 hg), if_neg hg]

theorem zip_normals (t : Num K) (a v : IPt) (l : List IPt) (z : IPt) :
    (v :: l).zip (List.zipWith (edgeNormal t) (v :: l) (l ++ [z])) =
      (trips a v (l ++ [z])).map fun c => (c.2.1, edgeNormal t c.2.1 c.2.2) := by
  induction l generalizing a v with
  | nil => rfl
  | cons b l ih =>
    have := ih v b
    simp only [List.cons_append, List.zipWith_cons_cons, List.zip_cons_cons, trips, List.map_cons] at this ⊢
    rw [← this]

theorem offsetLoop_eq {t : Num K} (ht : Num.Polar t) {c : OffsetCfg K} (hc : MiterCfg c) (l : List IPt) (a v : IPt)
    (h : ∀ c ∈ trips a v l, GoodCorner c.1 c.2.1 c.2.2) :
    offsetLoop t c (edgeNormal t a v) ((trips a v l).map fun c => (c.2.1, edgeNormal t c.2.1 c.2.2)) =
      (trips a v l).flatMap (cornerPts c.delta) := by
  induction l generalizing a v with
  | nil => rfl
  | cons b l ih =>
    have h1 := h (a, v, b) (by simp [trips])
    simp only [trips, List.map_cons, List.flatMap_cons, offsetLoop]
    rw [offsetPoint_eq ht hc h1]
    simp only []
    rw [ih v b fun c hc => h c (by rw [trips]; exact List.mem_cons_of_mem _ hc)]

/-- With miter joins, `ClipperOffset` moves the sides of a rectilinear outline. -/
theorem offsetContour_eq {t : Num K} (ht : Num.Polar t) {c : OffsetCfg K} (hc : MiterCfg c) {P : List IPt} (h : Outline P) :
    offsetContour t c P = movedOutline c.delta P := by
  have hgood := h.good
  obtain ⟨v, l, z, rfl⟩ : ∃ v l z, P = v :: (l ++ [z]) := by
    have h3 := h.three
    cases P with
    | nil => simp at h3
    | cons v m =>
      rcases List.eq_nil_or_concat m with rfl | ⟨l, z, rfl⟩
      · simp at h3
      · exact ⟨v, l, z, by rw [List.concat_eq_append]⟩
  unfold offsetContour movedOutline sideNormals
  rw [corners_trips] at hgood ⊢
  have hrot : (v :: (l ++ [z])).rotate 1 = (l ++ [z]) ++ [v] := by rw [List.rotate_cons_succ, List.rotate_zero]
  have hlast : (List.zipWith (edgeNormal t) (v :: (l ++ [z])) ((l ++ [z]) ++ [v])).getLastD (0, 0) = edgeNormal t z v := by
    have : List.zipWith (edgeNormal t) (v :: (l ++ [z])) ((l ++ [z]) ++ [v]) =
        List.zipWith (edgeNormal t) (v :: l) (l ++ [z]) ++ [edgeNormal t z v] := by
      rw [← List.cons_append, List.zipWith_append (by simp)]
      rfl
    rw [this, List.getLastD_concat]
  have hm : l ++ [z, v] = (l ++ [z]) ++ [v] := by simp
  simp only [hrot]
  rw [hlast, zip_normals t z v (l ++ [z]) v, hm]
  rw [hm] at hgood
  exact offsetLoop_eq ht hc _ z v hgood

end Gdspy
