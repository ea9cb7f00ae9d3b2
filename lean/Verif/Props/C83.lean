import Verif.Spec.Viewer
import Mathlib.Tactic.Linarith
import Mathlib.Tactic.FieldSimp
import Mathlib.Tactic.NormNum
import Mathlib.Tactic.Positivity

/-!
# C83: what part of the layout the viewer shows
-/

namespace Gdspy

open Spec

section

variable {K : Type} [Field K] [LinearOrder K] [IsStrictOrderedRing K]

/-- A box (left, top, right, bottom) in coordinates that point right and down. -/
def Spec.InBox (b : K × K × K × K) (p : Pt K) : Prop :=
  (b.1 ≤ p.1 ∧ p.1 ≤ b.2.2.1) ∧ b.2.1 ≤ p.2 ∧ p.2 ≤ b.2.2.2

/-- The smallest box around some points of a layout, whose y points up. -/
def Spec.TightBox (pts : List (Pt K)) (b : K × K × K × K) : Prop :=
  (∀ p ∈ pts, InBox b (p.1, -p.2)) ∧ (∃ p ∈ pts, p.1 = b.1) ∧ (∃ p ∈ pts, -p.2 = b.2.1) ∧
    (∃ p ∈ pts, p.1 = b.2.2.1) ∧ ∃ p ∈ pts, -p.2 = b.2.2.2

omit [IsStrictOrderedRing K] in
theorem viewBox_fold : ∀ (l done : List (Pt K)) (b : K × K × K × K), TightBox done b →
    TightBox (done ++ l) (l.foldl (fun b q => (min b.1 q.1, min b.2.1 (-q.2), max b.2.2.1 q.1, max b.2.2.2 (-q.2))) b) := by
  intro l
  induction l with
  | nil => intro done b h; simpa using h
  | cons q l ih =>
    intro done b h
    rw [List.foldl_cons]
    have := ih (done ++ [q]) _ (?_ : TightBox (done ++ [q]) (min b.1 q.1, min b.2.1 (-q.2), max b.2.2.1 q.1, max b.2.2.2 (-q.2)))
    · simpa using this
    obtain ⟨h0, ⟨p1, m1, e1⟩, ⟨p2, m2, e2⟩, ⟨p3, m3, e3⟩, ⟨p4, m4, e4⟩⟩ := h
    refine ⟨?_, ?_, ?_, ?_, ?_⟩
    · intro p hp
      rcases List.mem_append.1 hp with hp | hp
      · obtain ⟨⟨a1, a2⟩, a3, a4⟩ := h0 p hp
        exact ⟨⟨(min_le_left _ _).trans a1, a2.trans (le_max_left _ _)⟩, (min_le_left _ _).trans a3,
          a4.trans (le_max_left _ _)⟩
      · rw [List.mem_singleton] at hp
        subst hp
        exact ⟨⟨min_le_right _ _, le_max_right _ _⟩, min_le_right _ _, le_max_right _ _⟩
    · rcases min_choice b.1 q.1 with h | h
      · exact ⟨p1, by simp [m1], by rw [h]; exact e1⟩
      · exact ⟨q, by simp, h.symm⟩
    · rcases min_choice b.2.1 (-q.2) with h | h
      · exact ⟨p2, by simp [m2], by rw [h]; exact e2⟩
      · exact ⟨q, by simp, h.symm⟩
    · rcases max_choice b.2.2.1 q.1 with h | h
      · exact ⟨p3, by simp [m3], by rw [h]; exact e3⟩
      · exact ⟨q, by simp, h.symm⟩
    · rcases max_choice b.2.2.2 (-q.2) with h | h
      · exact ⟨p4, by simp [m4], by rw [h]; exact e4⟩
      · exact ⟨q, by simp, h.symm⟩

omit [IsStrictOrderedRing K] in
theorem viewBox_tight {polys : List (Pgon K)} (h : polys.flatten ≠ []) :
    ∃ b, viewBox polys = some b ∧ TightBox polys.flatten b := by
  unfold viewBox
  cases hf : polys.flatten with
  | nil => exact absurd hf h
  | cons p l =>
    refine ⟨_, rfl, ?_⟩
    have := viewBox_fold l [p] (p.1, -p.2, p.1, -p.2) ⟨by simp [InBox], by simp, by simp, by simp, by simp⟩
    simpa using this

/-- The scale for a box. -/
theorem extents_spec {b : K × K × K × K} {w h : K} (hw : 0 < w) (hh : 0 < h) (h1 : b.1 ≤ b.2.2.1)
    (h2 : b.2.1 ≤ b.2.2.2) (hne : b.1 < b.2.2.1 ∨ b.2.1 < b.2.2.2) :
    let r := extents (some b) w h
    0 < r.1 ∧ r.2.2.2.1 - r.2.1 = w ∧ r.2.2.2.2 - r.2.2.1 = h ∧
      (r.2.1 + w / 42 ≤ b.1 / r.1 ∧ b.2.2.1 / r.1 ≤ r.2.2.2.1 - w / 42) ∧
      (r.2.2.1 + h / 42 ≤ b.2.1 / r.1 ∧ b.2.2.2 / r.1 ≤ r.2.2.2.2 - h / 42) ∧
      ((r.2.1 + w / 42 = b.1 / r.1 ∧ b.2.2.1 / r.1 = r.2.2.2.1 - w / 42) ∨
        (r.2.2.1 + h / 42 = b.2.1 / r.1 ∧ b.2.2.2 / r.1 = r.2.2.2.2 - h / 42)) := by
  obtain ⟨x0, y0, x1, y1⟩ := b
  simp only at h1 h2 hne
  simp only [extents, Option.getD_some]
  by_cases hc : (y1 - y0) / h > (x1 - x0) / w
  · rw [if_pos hc]
    simp only
    have hpos : 0 < (y1 - y0) / h := lt_of_le_of_lt (div_nonneg (by linarith) hw.le) hc
    have hs : 0 < (y1 - y0) / h * (105 / 100) := by positivity
    have hy : y1 - y0 = (y1 - y0) / h * h := by field_simp
    have hx : (x1 - x0) ≤ (y1 - y0) / h * w := by
      have := (div_lt_iff₀ hw).1 hc
      linarith
    have hx' : (x1 - x0) / w * w = x1 - x0 := by field_simp
    generalize hS : (y1 - y0) / h = S at *
    refine ⟨hs, ?_, ?_, ⟨?_, ?_⟩, ⟨?_, ?_⟩, Or.inr ⟨?_, ?_⟩⟩
    · field_simp; ring
    · rw [← sub_div, div_eq_iff hs.ne']; linarith
    · rw [← sub_nonneg, show x0 / (S * (105 / 100)) - ((x0 - (w * (S * (105 / 100)) - x1 + x0) * (1 / 2)) / (S * (105 / 100)) + w / 42)
        = (w * (S * (105 / 100)) - (x1 - x0) - w / 21 * (S * (105 / 100))) / 2 / (S * (105 / 100)) by field_simp; ring]
      apply div_nonneg _ hs.le
      linarith
    · rw [← sub_nonneg, show (x1 + (w * (S * (105 / 100)) - x1 + x0) * (1 / 2)) / (S * (105 / 100)) - w / 42 - x1 / (S * (105 / 100))
        = (w * (S * (105 / 100)) - (x1 - x0) - w / 21 * (S * (105 / 100))) / 2 / (S * (105 / 100)) by field_simp; ring]
      apply div_nonneg _ hs.le
      linarith
    all_goals
      rw [hy]
      try apply le_of_eq
      field_simp
      try ring
  · rw [if_neg hc]
    simp only
    rw [gt_iff_lt, not_lt] at hc
    have hpos : 0 < (x1 - x0) / w := by
      rcases hne with h' | h'
      · exact div_pos (by linarith) hw
      · exact lt_of_lt_of_le (div_pos (by linarith) hh) hc
    have hs : 0 < (x1 - x0) / w * (105 / 100) := by positivity
    have hx : x1 - x0 = (x1 - x0) / w * w := by field_simp
    have hy : (y1 - y0) ≤ (x1 - x0) / w * h := by
      have := (div_le_iff₀ hh).1 hc
      linarith
    generalize hS : (x1 - x0) / w = S at *
    refine ⟨hs, ?_, ?_, ⟨?_, ?_⟩, ⟨?_, ?_⟩, Or.inl ⟨?_, ?_⟩⟩
    · rw [← sub_div, div_eq_iff hs.ne']; linarith
    · field_simp; ring
    · rw [hx]; apply le_of_eq; field_simp; ring
    · rw [hx]; apply le_of_eq; field_simp; ring
    · rw [← sub_nonneg, show y0 / (S * (105 / 100)) - ((y0 - (h * (S * (105 / 100)) - y1 + y0) * (1 / 2)) / (S * (105 / 100)) + h / 42)
        = (h * (S * (105 / 100)) - (y1 - y0) - h / 21 * (S * (105 / 100))) / 2 / (S * (105 / 100)) by field_simp; ring]
      apply div_nonneg _ hs.le
      linarith
    · rw [← sub_nonneg, show (y1 + (h * (S * (105 / 100)) - y1 + y0) * (1 / 2)) / (S * (105 / 100)) - h / 42 - y1 / (S * (105 / 100))
        = (h * (S * (105 / 100)) - (y1 - y0) - h / 21 * (S * (105 / 100))) / 2 / (S * (105 / 100)) by field_simp; ring]
      apply div_nonneg _ hs.le
      linarith
    · rw [hx]; field_simp; ring
    · rw [hx]; field_simp; ring

/-! ## The property: extents -/

/-- When a cell is shown, the part of the canvas that can be seen has the size of the window; everything is
inside, with a free margin of 1/42 of the window on all sides (2.5% of what remains), and in one of the two
directions this margin is not larger. -/
theorem C83_extents {polys : List (Pgon K)} {p q : Pt K} (hp : p ∈ polys.flatten) (hq : q ∈ polys.flatten)
    (hpq : p ≠ q) {w h : K} (hw : 0 < w) (hh : 0 < h) :
    ∃ scale region, extents (viewBox polys) w h = (scale, region) ∧ 0 < scale ∧
      region.2.2.1 - region.1 = w ∧ region.2.2.2 - region.2.1 = h ∧
      (∀ p ∈ polys.flatten, InBox (region.1 + w / 42, region.2.1 + h / 42, region.2.2.1 - w / 42, region.2.2.2 - h / 42)
        (canvasPt scale p)) ∧
      (((∃ p ∈ polys.flatten, (canvasPt scale p).1 = region.1 + w / 42) ∧
          ∃ p ∈ polys.flatten, (canvasPt scale p).1 = region.2.2.1 - w / 42) ∨
        (∃ p ∈ polys.flatten, (canvasPt scale p).2 = region.2.1 + h / 42) ∧
          ∃ p ∈ polys.flatten, (canvasPt scale p).2 = region.2.2.2 - h / 42) := by
  obtain ⟨b, hb, h0, ⟨p1, m1, e1⟩, ⟨p2, m2, e2⟩, ⟨p3, m3, e3⟩, ⟨p4, m4, e4⟩⟩ :=
    viewBox_tight (polys := polys) (List.ne_nil_of_mem hp)
  have hbp := h0 p hp
  have hbq := h0 q hq
  have h1 : b.1 ≤ b.2.2.1 := hbp.1.1.trans hbp.1.2
  have h2 : b.2.1 ≤ b.2.2.2 := hbp.2.1.trans hbp.2.2
  have hne : b.1 < b.2.2.1 ∨ b.2.1 < b.2.2.2 := by
    by_contra hcon
    rw [not_or, not_lt, not_lt] at hcon
    apply hpq
    obtain ⟨⟨a1, a2⟩, a3, a4⟩ := hbp
    obtain ⟨⟨c1, c2⟩, c3, c4⟩ := hbq
    simp only at a1 a2 a3 a4 c1 c2 c3 c4
    exact Prod.ext (by linarith [hcon.1]) (by linarith [hcon.2])
  obtain ⟨hs, g1, g2, ⟨g3, g4⟩, ⟨g5, g6⟩, g7⟩ := extents_spec hw hh h1 h2 hne
  rw [hb]
  have cy : ∀ (s : K) (p : Pt K), (canvasPt s p).2 = -p.2 / s := by
    intro s p
    simp only [canvasPt]
    rw [div_neg, neg_div]
  refine ⟨(extents (some b) w h).1, (extents (some b) w h).2, rfl, hs, g1, g2, ?_, ?_⟩
  · intro p hp
    obtain ⟨⟨a1, a2⟩, a3, a4⟩ := h0 p hp
    refine ⟨⟨?_, ?_⟩, ?_, ?_⟩
    · exact g3.trans (div_le_div_of_nonneg_right a1 hs.le)
    · exact (div_le_div_of_nonneg_right a2 hs.le).trans g4
    · rw [cy]; exact g5.trans (div_le_div_of_nonneg_right a3 hs.le)
    · rw [cy]; exact (div_le_div_of_nonneg_right a4 hs.le).trans g6
  · rcases g7 with ⟨g, g'⟩ | ⟨g, g'⟩
    · exact Or.inl ⟨⟨p1, m1, by rw [g, ← e1]; rfl⟩, p3, m3, by rw [← g', ← e3]; rfl⟩
    · exact Or.inr ⟨⟨p2, m2, by rw [g, ← e2, cy]⟩, p4, m4, by rw [← g', ← e4, cy]⟩

/-- An empty cell is shown with the square of side 2 around the origin in the window. -/
theorem C83_empty {polys : List (Pgon K)} (he : polys.flatten = []) {w h : K} (hw : 0 < w) (hh : 0 < h) :
    ∃ scale region, extents (viewBox polys) w h = (scale, region) ∧ 0 < scale ∧
      region.2.2.1 - region.1 = w ∧ region.2.2.2 - region.2.1 = h ∧
      InBox region (canvasPt scale (-1, -1)) ∧ InBox region (canvasPt scale (1, 1)) := by
  have hv : viewBox polys = none := by unfold viewBox; rw [he]
  have e : extents (viewBox polys) w h = extents (some (-1, -1, 1, 1)) w h := by rw [hv]; rfl
  obtain ⟨hs, g1, g2, ⟨g3, g4⟩, ⟨g5, g6⟩, -⟩ :=
    extents_spec (b := ((-1 : K), (-1 : K), (1 : K), (1 : K))) hw hh (by norm_num) (by norm_num) (Or.inl (by norm_num))
  rw [e]
  refine ⟨(extents (some ((-1 : K), (-1 : K), (1 : K), (1 : K))) w h).1,
    (extents (some ((-1 : K), (-1 : K), (1 : K), (1 : K))) w h).2, rfl, hs, g1, g2, ?_⟩
  simp only at g3 g4 g5 g6
  have k1 : 0 < w / 42 := by positivity
  have k2 : 0 < h / 42 := by positivity
  generalize extents (some ((-1 : K), (-1 : K), (1 : K), (1 : K))) w h = r at *
  have hle : (-1 : K) / r.1 ≤ 1 / r.1 := div_le_div_of_nonneg_right (by norm_num) hs.le
  simp only [InBox, canvasPt]
  rw [div_neg, div_neg, ← neg_div, ← neg_div, neg_neg]
  refine ⟨⟨⟨?_, ?_⟩, ?_, ?_⟩, ⟨?_, ?_⟩, ?_, ?_⟩ <;> linarith

omit [IsStrictOrderedRing K] in
/-- If all points are the same there is no scale: it is zero, and what is drawn is not defined. -/
theorem C83_point_has_no_scale (p : Pt K) (n : Nat) (w h : K) :
    (extents (viewBox [List.replicate (n + 1) p]) w h).1 = 0 := by
  have : viewBox [List.replicate (n + 1) p] = some (p.1, -p.2, p.1, -p.2) := by
    simp only [viewBox, List.replicate_succ, List.flatten_cons, List.flatten_nil, List.append_nil]
    congr 1
    induction n with
    | zero => rfl
    | succ n ih => simpa [List.replicate_succ] using ih
  rw [this]
  simp [extents]

omit [LinearOrder K] [IsStrictOrderedRing K] in
/-- The coordinates shown for the place where a point is drawn are those of the point. -/
theorem C83_coordinates {scale : K} (hs : scale ≠ 0) (p : Pt K) : shownPt scale (canvasPt scale p) = p := by
  simp only [shownPt, canvasPt]
  ext
  · field_simp
  · field_simp

/-! ## The property: zoom -/

theorem confine_eq {lo hi size x : K} (h1 : lo ≤ x) (h2 : x + size ≤ hi) : confine lo hi size x = x := by
  unfold confine
  rw [if_neg, if_neg]
  · rintro ⟨h, -⟩; linarith
  · rintro ⟨h, -⟩; linarith

theorem moveTo_fraction {lo hi size x : K} (h : lo < hi) :
    moveTo lo hi size ((x - lo) / (hi - lo)) = confine lo hi size x := by
  unfold moveTo
  have : hi - lo ≠ 0 := by linarith
  rw [show lo + (x - lo) / (hi - lo) * (hi - lo) = x by field_simp; ring]

/-- The window lies in a scroll region. -/
def Spec.Within1 (lo hi size x : K) : Prop := lo ≤ x ∧ x + size ≤ hi

def Spec.Inside2 (r : K × K × K × K) (size v : Pt K) : Prop :=
  Within1 r.1 r.2.2.1 size.1 v.1 ∧ Within1 r.2.1 r.2.2.2 size.2 v.2

/-- A box with some extent in both directions. -/
def Spec.Solid (bb : K × K × K × K) : Prop := bb.1 < bb.2.2.1 ∧ bb.2.1 < bb.2.2.2

/-- A box grown by a factor. -/
def Spec.scaledBox (s : K) (bb : K × K × K × K) : K × K × K × K := (s * bb.1, s * bb.2.1, s * bb.2.2.1, s * bb.2.2.2)

theorem enlarge_solid {k : K} (hk : 0 ≤ k) {bb : K × K × K × K} (h : Solid bb) : Solid (enlarge k bb) := by
  obtain ⟨h1, h2⟩ := h
  constructor
  · simp only [enlarge]
    nlinarith [mul_nonneg hk (sub_nonneg.2 h1.le)]
  · simp only [enlarge]
    nlinarith [mul_nonneg hk (sub_nonneg.2 h2.le)]

omit [LinearOrder K] [IsStrictOrderedRing K] in
theorem enlarge_scaled (k s : K) (bb : K × K × K × K) : enlarge k (scaledBox s bb) = scaledBox s (enlarge k bb) := by
  simp only [enlarge, scaledBox]
  ext <;> simp <;> ring

/-- The factor of one zoom step. -/
def Spec.zoomStep (up : Bool) : K := if up then 3 / 2 else 1 / (3 / 2)

theorem zoomStep_pos (up : Bool) : (0 : K) < zoomStep up := by
  cases up <;> simp only [zoomStep] <;> norm_num

/-- Turning the wheel keeps the point of the layout under the mouse where it is, if the window stays in the
new scroll region. -/
theorem C83_wheel_partial {z : Zoom K} (up : Bool) (e size : Pt K) {bb : K × K × K × K} (hb : Solid bb)
    (hin : Inside2 (enlarge (12 / 10) bb) size
      (zoomStep up * (z.canvas e).1 - e.1, zoomStep up * (z.canvas e).2 - e.2)) :
    let z' := z.wheel up e size bb
    shownPt z'.scale (z'.canvas e) = shownPt z.scale (z.canvas e) := by
  obtain ⟨s1, s2⟩ := enlarge_solid (k := (12 / 10 : K)) (by norm_num) hb
  obtain ⟨⟨i1, i2⟩, i3, i4⟩ := hin
  have hs := (zoomStep_pos (K := K) up).ne'
  simp only [zoomStep] at i1 i2 i3 i4 hs
  simp only [Zoom.wheel]
  rw [moveTo_fraction s1, moveTo_fraction s2, confine_eq i1 i2, confine_eq i3 i4]
  simp only [shownPt, Zoom.canvas, Zoom.grow]
  generalize (if up = true then (3 / 2 : K) else 1 / (3 / 2)) = s at *
  ext
  · simp; field_simp
  · simp; field_simp; ring

/-- Zooming in, it always does: if the window was in the scroll region that belongs to the items before
and the mouse is in the window. -/
theorem C83_wheel_in {z : Zoom K} {e size : Pt K} {bb : K × K × K × K} (hb : Solid bb)
    (hin : Inside2 (enlarge (12 / 10) bb) size z.view) (he : InBox (0, 0, size.1, size.2) e) :
    let z' := z.wheel true e size (scaledBox (3 / 2) bb)
    shownPt z'.scale (z'.canvas e) = shownPt z.scale (z.canvas e) := by
  apply C83_wheel_partial true e size (bb := scaledBox (3 / 2) bb)
  · obtain ⟨h1, h2⟩ := hb
    constructor <;> simp only [scaledBox] <;> linarith
  · rw [enlarge_scaled]
    generalize enlarge (12 / 10) bb = r at *
    obtain ⟨⟨i1, i2⟩, i3, i4⟩ := hin
    obtain ⟨⟨e1, e2⟩, e3, e4⟩ := he
    simp only at e1 e2 e3 e4
    refine ⟨⟨?_, ?_⟩, ?_, ?_⟩ <;> simp only [zoomStep, scaledBox, Zoom.canvas, if_true] <;> linarith

/-- Zooming out it may not, because the window is kept in the scroll region. -/
theorem C83_wheel_out_moves : ∃ (z : Zoom ℚ) (e size : Pt ℚ) (bb : ℚ × ℚ × ℚ × ℚ), Solid bb ∧
    Inside2 (enlarge (12 / 10) bb) size z.view ∧ InBox (0, 0, size.1, size.2) e ∧
    let z' := z.wheel false e size (scaledBox (1 / (3 / 2)) bb)
    shownPt z'.scale (z'.canvas e) ≠ shownPt z.scale (z.canvas e) := by
  refine ⟨⟨1, (-120, -120), (0, 0), []⟩, (90, 90), (100, 100), (0, 0, 100, 100), ?_, ?_, ?_, ?_⟩
  · simp [Solid]
  · norm_num [Inside2, Within1, enlarge]
  · norm_num [InBox]
  · norm_num [shownPt, Zoom.wheel, Zoom.canvas, Zoom.grow, moveTo, confine, enlarge, scaledBox]

/-- The keys keep the point in the middle of the window where it is, if the scroll bars show where the
window was in the scroll region of the items before, and the window stays in the new one. -/
theorem C83_key_partial {z : Zoom K} (up : Bool) {size : Pt K} {bb : K × K × K × K} (hb : Solid bb)
    (hin : let r := enlarge (12 / 10) (scaledBox (zoomStep up) bb)
      let c := z.canvas (size.1 / 2, size.2 / 2)
      Inside2 r size (zoomStep up * c.1 - size.1 / 2, zoomStep up * c.2 - size.2 / 2)) :
    let r := enlarge (12 / 10) bb
    let z' := z.key up size
      ((z.view.1 - r.1) / (r.2.2.1 - r.1), (z.view.1 + size.1 - r.1) / (r.2.2.1 - r.1))
      ((z.view.2 - r.2.1) / (r.2.2.2 - r.2.1), (z.view.2 + size.2 - r.2.1) / (r.2.2.2 - r.2.1))
      (scaledBox (zoomStep up) bb)
    shownPt z'.scale (z'.canvas (size.1 / 2, size.2 / 2)) = shownPt z.scale (z.canvas (size.1 / 2, size.2 / 2)) := by
  have hs := zoomStep_pos (K := K) up
  obtain ⟨s1, s2⟩ := enlarge_solid (k := (12 / 10 : K)) (by norm_num) hb
  simp only [enlarge_scaled] at hin
  simp only [Zoom.key, enlarge_scaled]
  rw [← zoomStep]
  generalize enlarge (12 / 10) bb = r at *
  generalize (zoomStep up : K) = s at *
  obtain ⟨⟨i1, i2⟩, i3, i4⟩ := hin
  simp only [scaledBox, Zoom.canvas] at i1 i2 i3 i4
  have d1 : r.2.2.1 - r.1 ≠ 0 := by linarith
  have d2 : r.2.2.2 - r.2.1 ≠ 0 := by linarith
  have m : ∀ lo hi v size : K, hi - lo ≠ 0 → s * lo ≤ s * (v + size / 2) - size / 2 →
      s * (v + size / 2) - size / 2 + size ≤ s * hi →
      moveTo (s * lo) (s * hi) size (1 / 2 * ((v + size - lo) / (hi - lo) + (v - lo) / (hi - lo))
        - 1 / 2 * (size / (s * hi - s * lo))) = s * (v + size / 2) - size / 2 := by
    intro lo hi v size d j1 j2
    unfold moveTo
    have d' : s * hi - s * lo ≠ 0 := by rw [← mul_sub]; exact mul_ne_zero hs.ne' d
    rw [show s * lo + (1 / 2 * ((v + size - lo) / (hi - lo) + (v - lo) / (hi - lo)) - 1 / 2 * (size / (s * hi - s * lo)))
      * (s * hi - s * lo) = s * (v + size / 2) - size / 2 by
        rw [sub_mul, mul_assoc (1 / 2) (size / _), div_mul_cancel₀ _ d', ← mul_sub]
        field_simp
        ring]
    exact confine_eq j1 j2
  simp only [scaledBox]
  rw [m _ _ _ _ d1 i1 i2, m _ _ _ _ d2 i3 i4]
  simp only [shownPt, Zoom.canvas, Zoom.grow]
  have := hs.ne'
  ext
  · simp; field_simp
  · simp; field_simp; ring

/-- Zooming in, they always do, if the window was in the scroll region. -/
theorem C83_key_in {z : Zoom K} {size : Pt K} {bb : K × K × K × K} (hb : Solid bb) (hsz : 0 < size.1 ∧ 0 < size.2)
    (hin : Inside2 (enlarge (12 / 10) bb) size z.view) :
    let r := enlarge (12 / 10) bb
    let z' := z.key true size
      ((z.view.1 - r.1) / (r.2.2.1 - r.1), (z.view.1 + size.1 - r.1) / (r.2.2.1 - r.1))
      ((z.view.2 - r.2.1) / (r.2.2.2 - r.2.1), (z.view.2 + size.2 - r.2.1) / (r.2.2.2 - r.2.1))
      (scaledBox (3 / 2) bb)
    shownPt z'.scale (z'.canvas (size.1 / 2, size.2 / 2)) = shownPt z.scale (z.canvas (size.1 / 2, size.2 / 2)) := by
  apply C83_key_partial true hb
  simp only [enlarge_scaled]
  generalize enlarge (12 / 10) bb = r at *
  obtain ⟨⟨i1, i2⟩, i3, i4⟩ := hin
  refine ⟨⟨?_, ?_⟩, ?_, ?_⟩ <;> simp only [zoomStep, scaledBox, Zoom.canvas, if_true] <;> linarith [hsz.1, hsz.2]

/-- A part that is visible stays visible when the window is moved into the scroll region. -/
theorem confine_keeps {lo hi size x a b : K} (h1 : x ≤ a) (h2 : b ≤ x + size) (h3 : lo ≤ a) (h4 : b ≤ hi) :
    confine lo hi size x ≤ a ∧ b ≤ confine lo hi size x + size := by
  unfold confine
  split_ifs with c1 c2
  · obtain ⟨c1, c1'⟩ := c1
    constructor
    · have := min_le_left (-(x - lo)) (hi - (x + size)); linarith
    · have := le_min (by linarith : (0 : K) ≤ -(x - lo)) (by linarith : (0 : K) ≤ hi - (x + size)); linarith
  · obtain ⟨c2, c2'⟩ := c2
    constructor
    · have := le_min (by linarith : (0 : K) ≤ -(hi - (x + size))) (by linarith : (0 : K) ≤ x - lo); linarith
    · have := min_le_left (-(hi - (x + size))) (x - lo); linarith
  · exact ⟨h1, h2⟩

/-- The rectangle that a user draws is in the window after the zoom, and has the width or the height of the
window. The points of the layout are described by the coordinates shown for them; `a` is the corner where
the rectangle begins, on the canvas, and `e` the one where it ends, in the window. The rectangle is in the
new scroll region. -/
theorem C83_rectangle {z : Zoom K} (hz : 0 < z.scale) {a e size : Pt K} {bb : K × K × K × K} (hb : Solid bb)
    (hsz : 0 < size.1 ∧ 0 < size.2)
    (hd : |a.1 - (z.canvas e).1| * |a.2 - (z.canvas e).2| > 1 / 1000000000000) :
    let z' := z.rect a e size bb
    let f := z.scale / z'.scale
    (∀ c ∈ [a, z.canvas e], InBox (enlarge (15 / 10) bb) (f * c.1, f * c.2)) →
    (∀ c ∈ [a, z.canvas e], ∃ p, InBox (0, 0, size.1, size.2) p ∧ shownPt z'.scale (z'.canvas p) = shownPt z.scale c) ∧
      (f * |a.1 - (z.canvas e).1| = size.1 ∧ f * |a.2 - (z.canvas e).2| ≤ size.2 ∨
        f * |a.2 - (z.canvas e).2| = size.2 ∧ f * |a.1 - (z.canvas e).1| ≤ size.1) := by
  have hd' : |a.1 - (z.canvas e).1| * |a.2 - (z.canvas e).2| > 0 := lt_trans (by norm_num) hd
  have hdx : 0 < |a.1 - (z.canvas e).1| := by
    rcases (abs_nonneg (a.1 - (z.canvas e).1)).eq_or_lt with h | h
    · rw [← h, zero_mul] at hd'; exact absurd hd' (lt_irrefl _)
    · exact h
  have hdy : 0 < |a.2 - (z.canvas e).2| := by
    rcases (abs_nonneg (a.2 - (z.canvas e).2)).eq_or_lt with h | h
    · rw [← h, mul_zero] at hd'; exact absurd hd' (lt_irrefl _)
    · exact h
  obtain ⟨s1, s2⟩ := enlarge_solid (k := (15 / 10 : K)) (by norm_num) hb
  intro z' f
  -- the factor and the two positions of the window
  obtain ⟨s, x0, y0, hs, hz', hx, hy, hfit⟩ : ∃ s x0 y0 : K, 0 < s ∧
      z' = { z.grow s with
        view := (confine (enlarge (15 / 10) bb).1 (enlarge (15 / 10) bb).2.2.1 size.1 x0,
          confine (enlarge (15 / 10) bb).2.1 (enlarge (15 / 10) bb).2.2.2 size.2 y0) } ∧
      (∀ c ∈ [a, z.canvas e], x0 ≤ s * c.1 ∧ s * c.1 ≤ x0 + size.1) ∧
      (∀ c ∈ [a, z.canvas e], y0 ≤ s * c.2 ∧ s * c.2 ≤ y0 + size.2) ∧
      (s * |a.1 - (z.canvas e).1| = size.1 ∧ s * |a.2 - (z.canvas e).2| ≤ size.2 ∨
        s * |a.2 - (z.canvas e).2| = size.2 ∧ s * |a.1 - (z.canvas e).1| ≤ size.1) := by
    simp only [z', Zoom.rect]
    generalize z.canvas e = c at *
    rw [if_pos (by rw [abs_mul, abs_abs, abs_abs]; exact hd)]
    by_cases hc : size.1 / |a.1 - c.1| < size.2 / |a.2 - c.2|
    · simp only [if_pos hc]
      have hs : 0 < size.1 / |a.1 - c.1| := div_pos hsz.1 hdx
      have e1 : size.1 / |a.1 - c.1| * |a.1 - c.1| = size.1 := by field_simp
      have e2 : size.1 / |a.1 - c.1| * |a.2 - c.2| ≤ size.2 := by
        have := (lt_div_iff₀ hdy).1 hc
        exact this.le
      generalize size.1 / |a.1 - c.1| = s at *
      refine ⟨s, 1 / 2 * s * (c.1 + a.1 - |a.1 - c.1|), 1 / 2 * (s * (c.2 + a.2) - size.2), hs, ?_, ?_, ?_, Or.inl ⟨e1, e2⟩⟩
      · rw [moveTo_fraction s1, moveTo_fraction s2]
      · have b1 := mul_le_mul_of_nonneg_left (le_abs_self (a.1 - c.1)) hs.le
        have b2 := mul_le_mul_of_nonneg_left (neg_abs_le (a.1 - c.1)) hs.le
        simp only [List.mem_cons, List.not_mem_nil, or_false, forall_eq_or_imp, forall_eq]
        refine ⟨⟨?_, ?_⟩, ?_, ?_⟩ <;> linarith
      · have b1 := mul_le_mul_of_nonneg_left (le_abs_self (a.2 - c.2)) hs.le
        have b2 := mul_le_mul_of_nonneg_left (neg_abs_le (a.2 - c.2)) hs.le
        simp only [List.mem_cons, List.not_mem_nil, or_false, forall_eq_or_imp, forall_eq]
        refine ⟨⟨?_, ?_⟩, ?_, ?_⟩ <;> linarith
    · simp only [if_neg hc]
      rw [not_lt] at hc
      have hs : 0 < size.2 / |a.2 - c.2| := div_pos hsz.2 hdy
      have e1 : size.2 / |a.2 - c.2| * |a.2 - c.2| = size.2 := by field_simp
      have e2 : size.2 / |a.2 - c.2| * |a.1 - c.1| ≤ size.1 := (le_div_iff₀ hdx).1 hc
      generalize size.2 / |a.2 - c.2| = s at *
      refine ⟨s, 1 / 2 * (s * (c.1 + a.1) - size.1), 1 / 2 * s * (c.2 + a.2 - |a.2 - c.2|), hs, ?_, ?_, ?_, Or.inr ⟨e1, e2⟩⟩
      · rw [moveTo_fraction s1, moveTo_fraction s2]
      · have b1 := mul_le_mul_of_nonneg_left (le_abs_self (a.1 - c.1)) hs.le
        have b2 := mul_le_mul_of_nonneg_left (neg_abs_le (a.1 - c.1)) hs.le
        simp only [List.mem_cons, List.not_mem_nil, or_false, forall_eq_or_imp, forall_eq]
        refine ⟨⟨?_, ?_⟩, ?_, ?_⟩ <;> linarith
      · have b1 := mul_le_mul_of_nonneg_left (le_abs_self (a.2 - c.2)) hs.le
        have b2 := mul_le_mul_of_nonneg_left (neg_abs_le (a.2 - c.2)) hs.le
        simp only [List.mem_cons, List.not_mem_nil, or_false, forall_eq_or_imp, forall_eq]
        refine ⟨⟨?_, ?_⟩, ?_, ?_⟩ <;> linarith
  have hf : f = s := by
    simp only [f, hz', Zoom.grow]
    have := hs.ne'
    have := hz.ne'
    field_simp
  rw [hf, hz']
  intro hreg
  refine ⟨?_, hfit⟩
  intro c hc
  obtain ⟨⟨r1, r2⟩, r3, r4⟩ := hreg c hc
  obtain ⟨k1, k2⟩ := confine_keeps (hx c hc).1 (hx c hc).2 r1 r2
  obtain ⟨k3, k4⟩ := confine_keeps (hy c hc).1 (hy c hc).2 r3 r4
  refine ⟨(s * c.1 - confine (enlarge (15 / 10) bb).1 (enlarge (15 / 10) bb).2.2.1 size.1 x0,
    s * c.2 - confine (enlarge (15 / 10) bb).2.1 (enlarge (15 / 10) bb).2.2.2 size.2 y0), ⟨⟨?_, ?_⟩, ?_, ?_⟩, ?_⟩
  · simp only; linarith
  · simp only; linarith
  · simp only; linarith
  · simp only; linarith
  · simp only [shownPt, Zoom.canvas, Zoom.grow]
    have := hs.ne'
    ext
    · simp; field_simp
    · simp; field_simp

omit [LinearOrder K] [IsStrictOrderedRing K] in
/-- The distance that the ruler shows is between the point of the layout where it begins and the one under
the mouse. -/
theorem C83_ruler (z : Zoom K) (e : Pt K) :
    z.measure e = ((shownPt z.scale (z.canvas e)).1 - (shownPt z.scale z.ruler).1,
      (shownPt z.scale (z.canvas e)).2 - (shownPt z.scale z.ruler).2) := by
  simp only [Zoom.measure, shownPt]
  ext
  · simp; ring
  · simp; ring

omit [LinearOrder K] [IsStrictOrderedRing K] in
/-- What a zoom keeps: the point of the layout where the ruler begins, and that every point of the layout is
drawn where its coordinates are shown. -/
theorem C83_grow {z : Zoom K} {s : K} (hs : s ≠ 0) {pts : List (Pt K)} (h : z.items = pts.map (canvasPt z.scale)) :
    shownPt (z.grow s).scale (z.grow s).ruler = shownPt z.scale z.ruler ∧
      (z.grow s).items = pts.map (canvasPt (z.grow s).scale) := by
  constructor
  · simp only [shownPt, Zoom.grow]
    ext
    · simp; field_simp
    · simp; field_simp
  · simp only [Zoom.grow, h, List.map_map]
    apply List.map_congr_left
    intro p _
    simp only [Function.comp, canvasPt]
    ext
    · simp only; rw [div_div_eq_mul_div]; ring
    · simp only; rw [div_neg, div_neg, div_div_eq_mul_div]; ring

/-- Any sequence of zooms. -/
theorem C83_zooms {z : Zoom K} {pts : List (Pt K)} (h : z.items = pts.map (canvasPt z.scale)) (hz : 0 < z.scale)
    (up : Bool) {e size : Pt K} (fx fy a : Pt K) (hsz : 0 < size.1 ∧ 0 < size.2) (bb : K × K × K × K) :
    ∀ z' ∈ [z.wheel up e size bb, z.key up size fx fy bb, z.rect a e size bb],
      0 < z'.scale ∧ z'.items = pts.map (canvasPt z'.scale) ∧ shownPt z'.scale z'.ruler = shownPt z.scale z.ruler := by
  have hs : (0 : K) < if up = true then (3 / 2 : K) else 1 / (3 / 2) := zoomStep_pos up
  simp only [List.mem_cons, List.not_mem_nil, or_false, forall_eq_or_imp, forall_eq]
  refine ⟨?_, ?_, ?_⟩
  · exact ⟨div_pos hz hs, (C83_grow hs.ne' h).2, (C83_grow hs.ne' h).1⟩
  · exact ⟨div_pos hz hs, (C83_grow hs.ne' h).2, (C83_grow hs.ne' h).1⟩
  · simp only [Zoom.rect]
    split
    · rename_i hd
      have hd' : |a.1 - (z.canvas e).1| * |a.2 - (z.canvas e).2| ≠ 0 := by
        intro h0
        rw [h0, abs_zero] at hd
        exact absurd hd (by norm_num)
      have hdx := lt_of_le_of_ne (abs_nonneg _) (Ne.symm (left_ne_zero_of_mul hd'))
      have hdy := lt_of_le_of_ne (abs_nonneg _) (Ne.symm (right_ne_zero_of_mul hd'))
      have hs : 0 < if size.1 / |a.1 - (z.canvas e).1| < size.2 / |a.2 - (z.canvas e).2| then
          size.1 / |a.1 - (z.canvas e).1| else size.2 / |a.2 - (z.canvas e).2| := by
        split
        · exact div_pos hsz.1 hdx
        · exact div_pos hsz.2 hdy
      exact ⟨div_pos hz hs, (C83_grow hs.ne' h).2, (C83_grow hs.ne' h).1⟩
    · exact ⟨hz, h, rfl⟩

end

/-- Two squares in a window of 210 by 105 points: the scale is 1/50. -/
example : extents (viewBox [[((0 : ℚ), 0), (1, 0), (1, 1), (0, 1)], [(1, 1), (2, 1), (2, 2), (1, 2)]]) 210 105
    = (1 / 50, (-55, -205 / 2, 155, 5 / 2)) := by
  norm_num [extents, viewBox]

/-- The wheel at the point (30, 40) of a window of 100 by 100 points. -/
example : let z : Zoom ℚ := ⟨1, (0, 0), (10, 20), []⟩
    Inside2 (enlarge (12 / 10) (0, 0, 100, 100)) (100, 100) z.view ∧
      (z.wheel true (30, 40) (100, 100) (0, 0, 150, 150)).view = (15, 20) ∧
      (z.wheel true (30, 40) (100, 100) (0, 0, 150, 150)).scale = 2 / 3 := by
  norm_num [Inside2, Within1, enlarge, Zoom.wheel, Zoom.canvas, Zoom.grow, moveTo, confine]

end Gdspy
