import Verif.Model.PolygonSet
import Verif.Spec.Plane
import Verif.Lemmas.Box
import Verif.Lemmas.HierSamples
import Mathlib.Tactic.Ring
import Mathlib.Tactic.FieldSimp
import Mathlib.Tactic.LinearCombination
import Mathlib.Tactic.Linarith

/-!
# C42: transformations of polygon sets are the documented maps
-/

set_option linter.unusedSectionVars false

namespace Gdspy

open Spec

variable {K : Type} [Field K]

/-- The polygon set with every vertex moved by `f`: same polygons, layers, datatypes otherwise. -/
def Spec.Moved (f : Pt K → Pt K) (ps ps' : PolySet K) : Prop :=
  ps'.layers = ps.layers ∧ ps'.datatypes = ps.datatypes ∧ ps'.polygons.length = ps.polygons.length ∧
  ∀ (i : Nat) (p : Pgon K), ps.polygons[i]? = some p → ∃ p' : Pgon K, ps'.polygons[i]? = some p' ∧ p'.length = p.length ∧
    ∀ (j : Nat) (v : Pt K), p[j]? = some v → p'[j]? = some (f v)

theorem moved_map {f g : Pt K → Pt K} (h : ∀ v, g v = f v) (ps : PolySet K) :
    Moved f ps { ps with polygons := ps.polygons.map (List.map g) } := by
  obtain rfl : g = f := funext h
  refine ⟨rfl, rfl, by simp, ?_⟩
  intro i p hp
  refine ⟨p.map g, by simp [hp], by simp, ?_⟩
  intro j v hv
  simp [hv]

/-- **C42.** translate moves every vertex by the vector. -/
theorem C42_translate (dx dy : K) (ps : PolySet K) :
    Moved (Aff.shift (dx, dy)).app ps (ps.translate dx dy) :=
  moved_map (fun v => by simp [Aff.app, Aff.shift]) ps

/-- **C42.** rotate turns every vertex around the centre. -/
theorem C42_rotate (t : Trig K) (a : K) (c : Pt K) (ps : PolySet K) :
    Moved ((Aff.rotate (t.cos a) (t.sin a)).about c).app ps (ps.rotate t a c) :=
  moved_map (fun v => by
    simp only [spinPt, Aff.app, Aff.about, Aff.comp, Aff.shift, Aff.rotate]
    ext <;> ring) ps

/-- **C42.** scale multiplies the coordinates relative to the centre by the two factors (the second
one defaults to the first). -/
theorem C42_scale (sx : K) (sy : Option K) (c : Pt K) (ps : PolySet K) :
    Moved ((⟨sx, 0, 0, sy.getD sx, 0, 0⟩ : Aff K).about c).app ps (ps.scale sx sy c) :=
  moved_map (fun v => by
    simp only [Aff.app, Aff.about, Aff.comp, Aff.shift]
    cases sy <;> simp only [scaleAbout, Option.getD_none, Option.getD_some] <;> ext <;> ring) ps

/-- The scalar `2 / |b - a|²` of `mirrorPt`. -/
theorem mirrorPt_eq [LinearOrder K] [IsStrictOrderedRing K] {a b : Pt K} (hab : a ≠ b) :
    ∃ s : K, s * ((b.1 - a.1) * (b.1 - a.1) + (b.2 - a.2) * (b.2 - a.2)) = 2 ∧
      ∀ p : Pt K, mirrorPt a b p =
        (s * ((p.1 - a.1) * (b.1 - a.1) + (p.2 - a.2) * (b.2 - a.2)) * (b.1 - a.1) - p.1 + 2 * a.1,
         s * ((p.1 - a.1) * (b.1 - a.1) + (p.2 - a.2) * (b.2 - a.2)) * (b.2 - a.2) - p.2 + 2 * a.2) := by
  have hn : (b.1 - a.1) * (b.1 - a.1) + (b.2 - a.2) * (b.2 - a.2) ≠ 0 := by
    intro h
    have h1 : b.1 - a.1 = 0 := by nlinarith [mul_self_nonneg (b.1 - a.1), mul_self_nonneg (b.2 - a.2)]
    have h2 : b.2 - a.2 = 0 := by nlinarith [mul_self_nonneg (b.1 - a.1), mul_self_nonneg (b.2 - a.2)]
    exact hab (Prod.ext (by linear_combination -h1) (by linear_combination -h2))
  refine ⟨2 / ((b.1 - a.1) * (b.1 - a.1) + (b.2 - a.2) * (b.2 - a.2)), div_mul_cancel₀ _ hn, ?_⟩
  intro p
  simp only [mirrorPt]
  ext <;> ring

theorem mirrorPt_isMirror [LinearOrder K] [IsStrictOrderedRing K] (a b : Pt K) (hab : a ≠ b) :
    ∀ p q, IsMirror a b p q ↔ q = mirrorPt a b p := by
  obtain ⟨s, hs, hm⟩ := mirrorPt_eq hab
  obtain ⟨a1, a2⟩ := a
  obtain ⟨b1, b2⟩ := b
  rintro ⟨p1, p2⟩ ⟨q1, q2⟩
  rw [hm]
  simp only [IsMirror, Prod.mk.injEq]
  simp only at hs
  generalize b1 - a1 = u at hs ⊢
  generalize b2 - a2 = v at hs ⊢
  constructor
  · rintro ⟨h1, h3⟩
    constructor
    · linear_combination (s / 2) * (u * h1 + 2 * v * h3) - ((q1 + p1 - 2 * a1) / 2) * hs
    · linear_combination (s / 2) * (v * h1 - 2 * u * h3) - ((q2 + p2 - 2 * a2) / 2) * hs
  · rintro ⟨rfl, rfl⟩
    constructor
    · linear_combination ((p1 - a1) * u + (p2 - a2) * v) * hs
    · ring

/-- **C42.** mirror maps every vertex to its mirror image over the line through the two (different)
points, and the image is unique. -/
theorem C42_mirror [LinearOrder K] [IsStrictOrderedRing K] (a b : Pt K) (hab : a ≠ b) (ps : PolySet K) :
    ∃ f : Pt K → Pt K, Moved f ps (ps.mirror a b) ∧ ∀ p q, IsMirror a b p q ↔ q = f p := by
  refine ⟨mirrorPt a b, moved_map (fun _ => rfl) ps, mirrorPt_isMirror a b hab⟩

/-- **C42.** Mirroring twice gives back the vertices, and exactly the vertices on the axis do not
move. -/
theorem C42_mirror_involution [LinearOrder K] [IsStrictOrderedRing K] (a b : Pt K) (hab : a ≠ b)
    (ps : PolySet K) :
    (ps.mirror a b).mirror a b = ps ∧ ∀ p, mirrorPt a b p = p ↔ OnLine a b p := by
  obtain ⟨s, hs, hm⟩ := mirrorPt_eq hab
  constructor
  · have hi : mirrorPt a b ∘ mirrorPt a b = id := by
      funext p
      obtain ⟨a1, a2⟩ := a
      obtain ⟨b1, b2⟩ := b
      obtain ⟨p1, p2⟩ := p
      simp only [Function.comp, hm, id, Prod.mk.injEq]
      simp only at hs
      generalize b1 - a1 = u at hs ⊢
      generalize b2 - a2 = v at hs ⊢
      constructor
      · linear_combination (s * ((p1 - a1) * u + (p2 - a2) * v) * u) * hs
      · linear_combination (s * ((p1 - a1) * u + (p2 - a2) * v) * v) * hs
    unfold PolySet.mirror
    simp only [List.map_map, List.map_comp_map, hi, List.map_id_fun, List.map_id]
  · intro p
    obtain ⟨a1, a2⟩ := a
    obtain ⟨b1, b2⟩ := b
    obtain ⟨p1, p2⟩ := p
    simp only [hm, OnLine, Prod.mk.injEq]
    simp only at hs
    generalize b1 - a1 = u at hs ⊢
    generalize b2 - a2 = v at hs ⊢
    constructor
    · rintro ⟨h1, h3⟩
      refine ⟨s * ((p1 - a1) * u + (p2 - a2) * v) / 2, ?_, ?_⟩
      · linear_combination -(1 / 2) * h1
      · linear_combination -(1 / 2) * h3
    · rintro ⟨r, rfl, rfl⟩
      constructor
      · linear_combination (r * u) * hs
      · linear_combination (r * v) * hs

/-- **C42.** Distances are kept by translate, rotate and mirror, and multiplied by the factor in a
uniform scaling. -/
theorem C42_distances [LinearOrder K] [IsStrictOrderedRing K] (t : Trig K)
    (ht : ∀ a, t.cos a ^ 2 + t.sin a ^ 2 = 1) (p q : Pt K) :
    (∀ v : Pt K, dist2 ((Aff.shift v).app p) ((Aff.shift v).app q) = dist2 p q) ∧
    (∀ a c, dist2 (spinPt (t.cos a) (t.sin a) c p) (spinPt (t.cos a) (t.sin a) c q) = dist2 p q) ∧
    (∀ a b, a ≠ b → dist2 (mirrorPt a b p) (mirrorPt a b q) = dist2 p q) ∧
    (∀ s c, dist2 (scaleAbout s none c p) (scaleAbout s none c q) = s ^ 2 * dist2 p q) := by
  refine ⟨?_, ?_, ?_, ?_⟩
  · intro v
    simp only [dist2, Aff.app, Aff.shift]
    ring
  · intro a c
    simp only [dist2, spinPt]
    linear_combination ((p.1 - q.1) ^ 2 + (p.2 - q.2) ^ 2) * ht a
  · intro a b hab
    obtain ⟨s, hs, hm⟩ := mirrorPt_eq hab
    simp only [dist2, hm]
    linear_combination (s * ((p.1 - q.1) * (b.1 - a.1) + (p.2 - q.2) * (b.2 - a.2)) ^ 2) * hs
  · intro s c
    simp only [dist2, scaleAbout]
    ring

/-- **C42.** Two translations add. -/
theorem C42_translate_add (dx dy dx' dy' : K) (ps : PolySet K) :
    (ps.translate dx dy).translate dx' dy' = ps.translate (dx + dx') (dy + dy') := by
  unfold PolySet.translate
  simp only [List.map_map, PolySet.mk.injEq, and_true]
  refine List.map_congr_left fun p _ => ?_
  simp only [Function.comp, List.map_map]
  refine List.map_congr_left fun v _ => ?_
  simp only [Function.comp, add_assoc]

/-- **C42.** Two rotations about the same centre add their angles; the centre stays; the rotation by 0
does nothing. -/
theorem C42_rotate_add {t : Trig K} (ht : Spec.Trig.Laws t) (a b : K) (c : Pt K) (ps : PolySet K) :
    (ps.rotate t a c).rotate t b c = ps.rotate t (a + b) c ∧
    spinPt (t.cos a) (t.sin a) c c = c ∧ ps.rotate t 0 c = ps := by
  refine ⟨?_, ?_, ?_⟩
  · unfold PolySet.rotate
    simp only [List.map_map, PolySet.mk.injEq, and_true]
    refine List.map_congr_left fun p _ => ?_
    simp only [Function.comp, List.map_map]
    refine List.map_congr_left fun v _ => ?_
    rw [(ht.add a b).1, (ht.add a b).2]
    simp only [Function.comp, spinPt]
    ext <;> ring
  · simp [spinPt]
  · have : spinPt (t.cos 0) (t.sin 0) c = id := by
      funext v
      rw [ht.zero.1, ht.zero.2]
      simp [spinPt]
    unfold PolySet.rotate
    rw [this]
    simp

/-- **C42.** Two scalings with the same centre multiply; the centre stays. -/
theorem C42_scale_mul (sx sx' : K) (sy sy' : Option K) (c : Pt K) (ps : PolySet K) :
    (ps.scale sx sy c).scale sx' sy' c = ps.scale (sx * sx') (some (sy.getD sx * sy'.getD sx')) c ∧
    scaleAbout sx sy c c = c := by
  refine ⟨?_, ?_⟩
  · unfold PolySet.scale
    simp only [List.map_map, PolySet.mk.injEq, and_true]
    refine List.map_congr_left fun p _ => ?_
    simp only [Function.comp, List.map_map]
    refine List.map_congr_left fun v _ => ?_
    cases sy <;> cases sy' <;>
      simp only [Function.comp, scaleAbout, Option.getD_none, Option.getD_some] <;> ext <;> ring
  · cases sy <;> simp [scaleAbout]

/-! ### Bounding box of a polygon set -/

section Box

variable [LinearOrder K]

theorem foldl_min_le (l : List K) : ∀ a, l.foldl min a ≤ a ∧ ∀ x ∈ l, l.foldl min a ≤ x := by
  induction l with
  | nil => simp
  | cons b l ih =>
    intro a
    obtain ⟨h1, h2⟩ := ih (min a b)
    refine ⟨h1.trans (min_le_left _ _), ?_⟩
    intro x hx
    rcases List.mem_cons.1 hx with rfl | hx
    · exact h1.trans (min_le_right _ _)
    · exact h2 x hx

theorem foldl_min_mem (l : List K) : ∀ a, l.foldl min a ∈ a :: l := by
  induction l with
  | nil => simp
  | cons b l ih =>
    intro a
    rw [List.foldl_cons]
    rcases List.mem_cons.1 (ih (min a b)) with h | h
    · rw [h]
      rcases min_choice a b with h | h <;> rw [h] <;> simp
    · exact List.mem_cons_of_mem _ (List.mem_cons_of_mem _ h)

theorem foldl_max_le (l : List K) : ∀ a, a ≤ l.foldl max a ∧ ∀ x ∈ l, x ≤ l.foldl max a := by
  induction l with
  | nil => simp
  | cons b l ih =>
    intro a
    obtain ⟨h1, h2⟩ := ih (max a b)
    refine ⟨(le_max_left _ _).trans h1, ?_⟩
    intro x hx
    rcases List.mem_cons.1 hx with rfl | hx
    · exact (le_max_right _ _).trans h1
    · exact h2 x hx

theorem foldl_max_mem (l : List K) : ∀ a, l.foldl max a ∈ a :: l := by
  induction l with
  | nil => simp
  | cons b l ih =>
    intro a
    rw [List.foldl_cons]
    rcases List.mem_cons.1 (ih (max a b)) with h | h
    · rw [h]
      rcases max_choice a b with h | h <;> rw [h] <;> simp
    · exact List.mem_cons_of_mem _ (List.mem_cons_of_mem _ h)

/-- Minimum of the minima. -/
theorem min_of_mins (f : Pt K → K) (ps : List (Pgon K)) (hne : ps ≠ []) (h : ∀ p ∈ ps, p ≠ []) :
    ∃ x, (ps.mapM (fun p => arrMin (p.map f)) >>= pyMin) = .ok x ∧
      (∀ v ∈ ps.flatten, x ≤ f v) ∧ ∃ v ∈ ps.flatten, f v = x := by
  have key : ∀ ps : List (Pgon K), (∀ p ∈ ps, p ≠ []) →
      ∃ ms, ps.mapM (fun p => arrMin (p.map f)) = .ok ms ∧ ms.length = ps.length ∧
        (∀ v ∈ ps.flatten, ∃ m ∈ ms, m ≤ f v) ∧ ∀ m ∈ ms, ∃ v ∈ ps.flatten, f v = m := by
    intro ps
    induction ps with
    | nil => exact fun _ => ⟨[], rfl, rfl, by simp, by simp⟩
    | cons p ps ih =>
      intro h
      obtain ⟨ms, h1, h2, h3, h4⟩ := ih fun p hp => h p (List.mem_cons_of_mem _ hp)
      have hp := h p List.mem_cons_self
      cases p with
      | nil => exact absurd rfl hp
      | cons v p =>
        refine ⟨(p.map f).foldl min (f v) :: ms, ?_, by simp [h2], ?_, ?_⟩
        · rw [List.mapM_cons, h1]
          rfl
        · intro w hw
          rw [List.flatten_cons, List.mem_append] at hw
          rcases hw with hw | hw
          · refine ⟨_, List.mem_cons_self, ?_⟩
            rcases List.mem_cons.1 hw with rfl | hw
            · exact (foldl_min_le _ _).1
            · exact (foldl_min_le _ _).2 _ (List.mem_map_of_mem hw)
          · obtain ⟨m, hm, hle⟩ := h3 w hw
            exact ⟨m, List.mem_cons_of_mem _ hm, hle⟩
        · intro m hm
          rcases List.mem_cons.1 hm with rfl | hm
          · have := foldl_min_mem (p.map f) (f v)
            rw [← List.map_cons, List.mem_map] at this
            obtain ⟨w, hw, he⟩ := this
            exact ⟨w, by rw [List.flatten_cons, List.mem_append]; exact .inl hw, he⟩
          · obtain ⟨w, hw, he⟩ := h4 m hm
            exact ⟨w, by rw [List.flatten_cons, List.mem_append]; exact .inr hw, he⟩
  obtain ⟨ms, h1, h2, h3, h4⟩ := key ps h
  cases ms with
  | nil => exact absurd (List.length_eq_zero_iff.1 h2.symm) hne
  | cons m ms =>
    refine ⟨ms.foldl min m, by rw [h1]; rfl, ?_, ?_⟩
    · intro v hv
      obtain ⟨m', hm', hle⟩ := h3 v hv
      rcases List.mem_cons.1 hm' with rfl | hm'
      · exact ((foldl_min_le _ _).1).trans hle
      · exact ((foldl_min_le _ _).2 _ hm').trans hle
    · exact h4 _ (foldl_min_mem ms m)

/-- Maximum of the maxima. -/
theorem max_of_maxs (f : Pt K → K) (ps : List (Pgon K)) (hne : ps ≠ []) (h : ∀ p ∈ ps, p ≠ []) :
    ∃ x, (ps.mapM (fun p => arrMax (p.map f)) >>= pyMax) = .ok x ∧
      (∀ v ∈ ps.flatten, f v ≤ x) ∧ ∃ v ∈ ps.flatten, f v = x := by
  have key : ∀ ps : List (Pgon K), (∀ p ∈ ps, p ≠ []) →
      ∃ ms, ps.mapM (fun p => arrMax (p.map f)) = .ok ms ∧ ms.length = ps.length ∧
        (∀ v ∈ ps.flatten, ∃ m ∈ ms, f v ≤ m) ∧ ∀ m ∈ ms, ∃ v ∈ ps.flatten, f v = m := by
    intro ps
    induction ps with
    | nil => exact fun _ => ⟨[], rfl, rfl, by simp, by simp⟩
    | cons p ps ih =>
      intro h
      obtain ⟨ms, h1, h2, h3, h4⟩ := ih fun p hp => h p (List.mem_cons_of_mem _ hp)
      have hp := h p List.mem_cons_self
      cases p with
      | nil => exact absurd rfl hp
      | cons v p =>
        refine ⟨(p.map f).foldl max (f v) :: ms, ?_, by simp [h2], ?_, ?_⟩
        · rw [List.mapM_cons, h1]
          rfl
        · intro w hw
          rw [List.flatten_cons, List.mem_append] at hw
          rcases hw with hw | hw
          · refine ⟨_, List.mem_cons_self, ?_⟩
            rcases List.mem_cons.1 hw with rfl | hw
            · exact (foldl_max_le _ _).1
            · exact (foldl_max_le _ _).2 _ (List.mem_map_of_mem hw)
          · obtain ⟨m, hm, hle⟩ := h3 w hw
            exact ⟨m, List.mem_cons_of_mem _ hm, hle⟩
        · intro m hm
          rcases List.mem_cons.1 hm with rfl | hm
          · have := foldl_max_mem (p.map f) (f v)
            rw [← List.map_cons, List.mem_map] at this
            obtain ⟨w, hw, he⟩ := this
            exact ⟨w, by rw [List.flatten_cons, List.mem_append]; exact .inl hw, he⟩
          · obtain ⟨w, hw, he⟩ := h4 m hm
            exact ⟨w, by rw [List.flatten_cons, List.mem_append]; exact .inr hw, he⟩
  obtain ⟨ms, h1, h2, h3, h4⟩ := key ps h
  cases ms with
  | nil => exact absurd (List.length_eq_zero_iff.1 h2.symm) hne
  | cons m ms =>
    refine ⟨ms.foldl max m, by rw [h1]; rfl, ?_, ?_⟩
    · intro v hv
      obtain ⟨m', hm', hle⟩ := h3 v hv
      rcases List.mem_cons.1 hm' with rfl | hm'
      · exact hle.trans ((foldl_max_le _ _).1)
      · exact hle.trans ((foldl_max_le _ _).2 _ hm')
    · exact h4 _ (foldl_max_mem ms m)

/-- **C34 for polygon sets.** `PolygonSet.get_bounding_box` is None exactly for a set without polygons,
and otherwise (when no polygon is empty) the smallest box around all vertices. -/
theorem C34_polygonset_bbox (ps : PolySet K) (h : ∀ p ∈ ps.polygons, p ≠ []) :
    ∃ b, ps.bbox = .ok b ∧ (b = none ↔ ps.polygons = []) ∧ ∀ r, b = some r → IsBBox ps.polygons.flatten r := by
  unfold PolySet.bbox
  by_cases h0 : ps.polygons = []
  · rw [if_pos (by simp [h0])]
    exact ⟨none, rfl, by simp [h0], by simp⟩
  · rw [if_neg (by simpa using h0)]
    obtain ⟨x0, e1, l1, w1⟩ := min_of_mins Prod.fst ps.polygons h0 h
    obtain ⟨y0, e2, l2, w2⟩ := min_of_mins Prod.snd ps.polygons h0 h
    obtain ⟨x1, e3, l3, w3⟩ := max_of_maxs Prod.fst ps.polygons h0 h
    obtain ⟨y1, e4, l4, w4⟩ := max_of_maxs Prod.snd ps.polygons h0 h
    rw [e1, e2, e3, e4]
    refine ⟨some ((x0, y0), (x1, y1)), rfl, by simp [h0], ?_⟩
    rintro r hr
    cases hr
    exact ⟨fun p hp => ⟨l1 p hp, l2 p hp, l3 p hp, l4 p hp⟩, w1, w2, w3, w4⟩

end Box

/-! ### Examples -/

example : (PolySet.mirror (1, 0) (0, 1) ⟨[[(0, 0), (3, 0), (0, 3)]], [1], [2]⟩ : PolySet ℚ)
    = ⟨[[(1, 1), (1, -2), (-2, 1)]], [1], [2]⟩ := by decide +kernel

example : ((1, 0) : Pt ℚ) ≠ (0, 1) := by decide

example : (PolySet.rotate ratTrig 37 (1, 1) ⟨[[(1, 1), (6, 1)]], [1], [2]⟩ : PolySet ℚ)
    = ⟨[[(1, 1), (5, 4)]], [1], [2]⟩ := by decide +kernel

example : ∀ p ∈ (PolySet.rectangle (1, 2) (4, 0) 1 1 : PolySet ℚ).polygons, p ≠ [] := by decide +kernel

example : (PolySet.rectangle (1, 2) (4, 0) 1 1 : PolySet ℚ).bbox = .ok (some ((1, 0), (4, 2))) := by
  decide +kernel

end Gdspy
