import Verif.Lemmas.Box
import Verif.Lemmas.HierSamples

/-!
# C34: bounding boxes are exact
-/

set_option linter.unusedSectionVars false

namespace Gdspy

open Spec

variable {K P : Type} [Field K] [LinearOrder K] [IsStrictOrderedRing K]

theorem transform_points (t : Trig K) (r : RefData K) (l : List (Pgon K)) :
    (transformPolys t r l).flatten = (placements t r).flatMap fun A => l.flatten.map A.app := by
  rw [transformPolys_eq]
  induction placements t r with
  | nil => rfl
  | cons A As ih =>
    rw [List.flatMap_cons, List.flatMap_cons, List.flatten_append, ih, List.map_flatten]

mutual
theorem bbox_extent (ops : PathOps K P) {t : Trig K}
    (ht : ∀ a, t.cardinal a = true → t.cos a = 0 ∨ t.sin a = 0) : (c : HCell K P) →
    SameExtent (((c.bbox ops t).map boxPts).getD []) (c.flatPolys ops t).flatten
  | .mk name polys paths labels refs => by
    rw [HCell.bbox, HCell.flatPolys]
    refine (boxOf_extent _).trans ?_
    rw [List.flatten_append (L₂ := HRefs.flatPolys ops t refs)]
    exact (SameExtent.refl _).append (boxes_extent ops ht refs)

theorem boxes_extent (ops : PathOps K P) {t : Trig K}
    (ht : ∀ a, t.cardinal a = true → t.cos a = 0 ∨ t.sin a = 0) : (c : HRefs K P) →
    SameExtent (c.boxes ops t) (c.flatPolys ops t).flatten
  | .nil => by rw [HRefs.boxes, HRefs.flatPolys]; exact SameExtent.refl _
  | .cell r c rest => by
    rw [HRefs.boxes, HRefs.flatPolys, List.flatten_append]
    refine SameExtent.append ((boxOf_extent _).trans ?_) (boxes_extent ops ht rest)
    by_cases hr : r.rotation.all t.cardinal = true
    · rw [if_pos hr]
      have h := bbox_extent ops ht c
      rw [transform_points]
      cases hb : c.bbox ops t with
      | none =>
        rw [hb] at h
        have he : (c.flatPolys ops t).flatten = [] := h.nil_iff.1 rfl
        rw [he]
        have : (placements t r).flatMap (fun A => ([] : List (Pt K)).map A.app) = [] := by simp
        rw [this]
        exact SameExtent.refl _
      | some b =>
        rw [hb] at h
        simp only [transform_points]
        refine SameExtent.flatMap _ ?_
        intro A hA
        refine SameExtent.map ?_ (placements_mono ht hr A hA)
        simpa using h
    · rw [if_neg hr]
      exact SameExtent.refl _
  | .name _ _ rest => by
    rw [HRefs.boxes, HRefs.flatPolys]
    exact boxes_extent ops ht rest
end

/-- **C34.** The bounding box of a cell (computed afresh) is the smallest box around the vertices of
all polygons of `get_polygons()`, for every hierarchy and every transformation, cardinal or not. -/
theorem C34_bbox_is_smallest (ops : PathOps K P) (t : Trig K)
    (ht : ∀ a, t.cardinal a = true → t.cos a = 0 ∨ t.sin a = 0) (c : HCell K P) (b : Pt K × Pt K)
    (h : c.bbox ops t = some b) : IsBBox (c.flatPolys ops t).flatten b := by
  have he := bbox_extent ops ht c
  rw [h] at he
  refine he.isBBox ?_
  obtain ⟨name, polys, paths, labels, refs⟩ := c
  rw [HCell.bbox] at h
  have hx := boxOf_some h
  exact SameExtent.isBBox ⟨(IsBBox_extent hx).2, (IsBBox_extent hx).1⟩ hx

/-- **C34.** It is None exactly when the hierarchy has no polygons (none with a vertex). -/
theorem C34_none_iff_empty (ops : PathOps K P) (t : Trig K)
    (ht : ∀ a, t.cardinal a = true → t.cos a = 0 ∨ t.sin a = 0) (c : HCell K P) :
    c.bbox ops t = none ↔ ∀ p ∈ c.flatPolys ops t, p = [] := by
  have he := (bbox_extent ops ht c).nil_iff
  rw [List.flatten_eq_nil_iff] at he
  rw [← he]
  cases c.bbox ops t <;> simp [boxPts]

/-- **C34.** So any box with that property is the one returned. -/
theorem C34_unique (ops : PathOps K P) (t : Trig K)
    (ht : ∀ a, t.cardinal a = true → t.cos a = 0 ∨ t.sin a = 0) (c : HCell K P) (b : Pt K × Pt K)
    (h : IsBBox (c.flatPolys ops t).flatten b) : c.bbox ops t = some b := by
  cases hb : c.bbox ops t with
  | none =>
    rw [C34_none_iff_empty ops t ht c] at hb
    obtain ⟨p, hp, -⟩ := h.2.1
    obtain ⟨q, hq, hp⟩ := List.mem_flatten.1 hp
    rw [hb q hq] at hp
    simp at hp
  | some b' => rw [IsBBox_unique (C34_bbox_is_smallest ops t ht c b' hb) h]

/-- The box of a hierarchy with an array at 90 degrees and a reference at another angle. -/
example : sampleTop.bbox (idealOps ratTrig) ratTrig = some ((-56 / 5, 0), (9, 167 / 5)) := by decide +kernel

/-- The hypothesis about the cosine and sine holds for the table used there (and for the real
functions, `realTrig_laws`). -/
example : ∀ a, ratTrig.cardinal a = true → ratTrig.cos a = 0 ∨ ratTrig.sin a = 0 := by
  intro a
  by_cases h : a = 37
  · subst h; decide +kernel
  · intro _
    simp only [ratTrig, h]
    split_ifs <;> simp_all

end Gdspy
