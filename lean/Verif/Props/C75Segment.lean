import Verif.Props.C75Area

/-!
# C75: single segments, errors, numbers of vertices
-/

set_option linter.unusedSectionVars false

namespace Gdspy

open Spec

variable {K : Type} [Field K] [LinearOrder K] [IsStrictOrderedRing K] [FloorRing K]

theorem polyCapTo_inv {t : Num K} (ht : Num.Laws t) {c : Pt K} {w a : K} {g : Pgon K} (h : polyCapTo t c w a = .ok g) :
    HalfDisc t c w (t.cos (a - 2 * t.halfpi), t.sin (a - 2 * t.halfpi)) g := by
  apply polyCap_inv ht
  unfold polyCap
  unfold polyCapTo at h
  rw [show a - 2 * t.halfpi + 2 * t.halfpi = a by ring]
  exact h

/-- The ends of a single segment, for every value of `ends`: values other than "round" and "extended" mean flush ends. -/
def Spec.SegmentEnds {τ : Type} (t : Num K) (W0 W1 : K) (tag : τ) (ends : PolyEnd) (p q p' q' : Pt K) (caps : List (Pgon K × τ)) : Prop :=
  (ends = .round ∧ p' = p ∧ q' = q ∧ ∃ c0 c1, caps = [(c0, tag), (c1, tag)] ∧
    HalfDisc t p (W0 / 2) (leftPt t (0, 0) p q 1) c0 ∧ HalfDisc t q (W1 / 2) (leftPt t (0, 0) p q (-1)) c1) ∨
  (ends = .extended ∧ p' = Side.ahead t (q, p) p (W0 / 2) ∧ q' = Side.ahead t (p, q) q (W1 / 2) ∧ caps = []) ∨
  (ends ≠ .round ∧ ends ≠ .extended ∧ p' = p ∧ q' = q ∧ caps = [])

theorem quad_outline (w0 w1 : K) (p q u : Pt K) (h : ¬ (w0 = 0 ∧ w1 = 0)) (hu : u.1 ^ 2 + u.2 ^ 2 = 1) :
    (polyQuad w0 w1 p q u).IsRotated (outlineBetween [alongPt p u (-w0), alongPt q u (-w1)] [alongPt p u w0, alongPt q u w1]) := by
  have hz (c : Pt K) : alongPt c u 0 = c := by unfold alongPt; simp
  have hne (c : Pt K) {w : K} (hw : w ≠ 0) : alongPt c u (-w) ≠ alongPt c u w := by
    intro h
    unfold alongPt at h
    rw [Prod.mk.injEq] at h
    have h1 : w * u.1 = 0 := by linear_combination (-1 / 2 : K) * h.1
    have h2 : w * u.2 = 0 := by linear_combination (-1 / 2 : K) * h.2
    have h3 : w = 0 := by linear_combination u.1 * h1 + u.2 * h2 - w * hu
    exact hw h3
  unfold polyQuad outlineBetween
  by_cases h0 : w0 = 0
  · subst h0
    have h1 : w1 ≠ 0 := fun h1 => h ⟨rfl, h1⟩
    have := hne q h1
    simp only [if_true, neg_zero, hz, List.head?_cons, List.drop_succ_cons, List.drop_zero, List.getLast?_cons_cons, List.getLast?_singleton, Option.some.injEq, if_neg this]
    exact List.IsRotated.refl _
  · by_cases h1 : w1 = 0
    · subst h1
      have := hne p h0
      simp only [if_neg h0, if_true, neg_zero, hz, List.head?_cons, Option.some.injEq, if_neg this, List.getLast?_cons_cons, List.getLast?_singleton,
        List.dropLast_cons_cons, List.dropLast_singleton, List.reverse_singleton]
      exact ⟨1, rfl⟩
    · have e1 := hne p h0
      have e2 := hne q h1
      simp only [if_neg h0, if_neg h1, List.head?_cons, Option.some.injEq, if_neg e1, List.getLast?_cons_cons, List.getLast?_singleton, if_neg e2]
      exact ⟨1, rfl⟩

theorem quad_area (w0 w1 : K) (p q u : Pt K) :
    shoelace (polyQuad w0 w1 p q u) = 2 * (w0 + w1) * ((q.1 - p.1) * u.2 - (q.2 - p.2) * u.1) := by
  unfold polyQuad
  by_cases h0 : w0 = 0
  · subst h0
    simp [shoelace, alongPt]
    ring
  · by_cases h1 : w1 = 0
    · subst h1
      simp [shoelace, alongPt, h0]
      ring
    · simp [shoelace, alongPt, h0, h1]
      ring

/-- **C75.** Two points and one path: the polygon between the two sides, of area mean width times length. -/
theorem C75_segment {t : Num K} (ht : Num.Laws t) (hp : Num.Polar t) {p q : Pt K} {widths dists : List K} {corners : PolyCorner}
    {ends : PolyEnd} {mp : Nat} {layer datatype : List Int} {P : PolySet K}
    (h : polyPathNew t [p, q] widths 1 dists corners ends mp layer datatype = .ok P) :
    ∃ (p' q' : Pt K) (g : Pgon K) (caps : List (TaggedPoly K)),
      Holds (caps ++ [(g, pick (.list layer) 0, pick (.list datatype) 0)]) P.polygons P.layers P.datatypes ∧
      SegmentEnds t (cyc widths 0) (cyc widths 1) (pick (.list layer) 0, pick (.list datatype) 0) ends p q p' q' caps ∧
      (¬ (cyc widths 0 = 0 ∧ cyc widths 1 = 0) → g.IsRotated (outlineBetween
        [leftPt t p' p q (-(cyc widths 0 / 2)), leftPt t q' p q (-(cyc widths 1 / 2))]
        [leftPt t p' p q (cyc widths 0 / 2), leftPt t q' p q (cyc widths 1 / 2)])) ∧
      g.length ≤ 4 ∧
      shoelace g = (cyc widths 0 + cyc widths 1) *
        (t.sqrt (dist2 p q) + if ends = .extended then cyc widths 0 / 2 + cyc widths 1 / 2 else 0) := by
  have h : polySegment t (widths.map (· / 2)) ends layer datatype p q = .ok P := h
  unfold polySegment at h
  obtain ⟨v, hv, h⟩ := bind_ok_inv h
  obtain ⟨w0, hw0, h⟩ := bind_ok_inv h
  obtain ⟨caps, hcaps, h⟩ := bind_ok_inv h
  obtain ⟨l, hl, h⟩ := bind_ok_inv h
  obtain ⟨d, hd, h⟩ := bind_ok_inv h
  cases h
  have hv' := hv
  obtain ⟨rfl, h0⟩ := polyUnit_inv hv
  have e0 := cycVal_zero hw0
  rw [cycVal_half] at e0 hcaps ⊢
  subst e0
  have hq := hp.sqrtSq ((q.1 - p.1) ^ 2 + (q.2 - p.2) ^ 2) (by positivity)
  have hdd : (q.1 - p.1) ^ 2 + (q.2 - p.2) ^ 2 = dist2 p q := by unfold dist2; ring
  obtain ⟨c1, c2⟩ := polar_unit hp h0
  have hlay : l = pick (.list layer) 0 := by
    have := idx_some hl
    show l = layer.getD (0 % layer.length) 0
    rw [Nat.zero_mod, List.getD_eq_getElem?_getD, this]
    rfl
  have hdat : d = pick (.list datatype) 0 := by
    have := idx_some hd
    show d = datatype.getD (0 % datatype.length) 0
    rw [Nat.zero_mod, List.getD_eq_getElem?_getD, this]
    rfl
  subst hlay hdat
  have htake {m : List Int} {x : Int} (h : idx m 0 = .ok x) : m.take 1 = [x] := by
    have := idx_some h
    cases m with
    | nil => cases this
    | cons y m => cases this; rfl
  obtain ⟨L, hL⟩ : ∃ L, L = t.sqrt ((q.1 - p.1) ^ 2 + (q.2 - p.2) ^ 2) := ⟨_, rfl⟩
  have hu : (-((q.2 - p.2) / L)) ^ 2 + ((q.1 - p.1) / L) ^ 2 = 1 := by
    rw [← hL] at hq h0
    field_simp
    linear_combination -hq
  have hleft (c : Pt K) (s : K) : alongPt c (-((q.2 - p.2) / L), (q.1 - p.1) / L) s = leftPt t c p q s := by
    unfold alongPt leftPt toLeft
    rw [← hL]
    simp only [neg_div]
  obtain ⟨e, he⟩ : ∃ e, e = polySegmentEnds ends (cyc widths 0 / 2) (cyc widths 1 / 2) p q ((q.1 - p.1) / L, (q.2 - p.2) / L) := ⟨_, rfl⟩
  rw [← hL] at h0 hq c1 c2 hv'
  simp only [← hL] at hcaps ⊢
  rw [← he]
  have hg : shoelace (polyQuad (cyc widths 0 / 2) (cyc widths 1 / 2) e.1 e.2 (-((q.2 - p.2) / L), (q.1 - p.1) / L)) =
      (cyc widths 0 + cyc widths 1) * (L + if ends = .extended then cyc widths 0 / 2 + cyc widths 1 / 2 else 0) := by
    rw [quad_area, he]
    unfold polySegmentEnds
    split
    · rw [if_pos rfl]
      simp only [alongPt]
      field_simp
      linear_combination (-(cyc widths 0 + cyc widths 1) * (2 * L + cyc widths 0 + cyc widths 1)) * hq
    · rename_i hne
      rw [if_neg hne]
      simp only
      field_simp
      linear_combination (-(cyc widths 0 + cyc widths 1)) * hq
  refine ⟨e.1, e.2, polyQuad (cyc widths 0 / 2) (cyc widths 1 / 2) e.1 e.2 (-((q.2 - p.2) / L), (q.1 - p.1) / L), ?_⟩
  have hrot : ¬ (cyc widths 0 = 0 ∧ cyc widths 1 = 0) → (polyQuad (cyc widths 0 / 2) (cyc widths 1 / 2) e.1 e.2
      (-((q.2 - p.2) / L), (q.1 - p.1) / L)).IsRotated (outlineBetween
        [leftPt t e.1 p q (-(cyc widths 0 / 2)), leftPt t e.2 p q (-(cyc widths 1 / 2))]
        [leftPt t e.1 p q (cyc widths 0 / 2), leftPt t e.2 p q (cyc widths 1 / 2)]) := by
    intro hne
    have := quad_outline (cyc widths 0 / 2) (cyc widths 1 / 2) e.1 e.2 (-((q.2 - p.2) / L), (q.1 - p.1) / L)
      (by rintro ⟨h1, h2⟩; exact hne ⟨by linear_combination 2 * h1, by linear_combination 2 * h2⟩) hu
    rw [hleft, hleft, hleft, hleft] at this
    exact this
  have hlen : (polyQuad (cyc widths 0 / 2) (cyc widths 1 / 2) e.1 e.2 (-((q.2 - p.2) / L), (q.1 - p.1) / L)).length ≤ 4 := by
    unfold polyQuad
    split
    · simp
    · split <;> simp
  rw [← hdd, ← hL]
  by_cases hr : ends = .round
  · subst hr
    unfold polySegmentCaps at hcaps
    simp only at hcaps
    obtain ⟨r0, hr0, hcaps⟩ := bind_ok_inv hcaps
    obtain ⟨r1, hr1, hcaps⟩ := bind_ok_inv hcaps
    cases hcaps
    have d0 := polyCap_inv ht hr0
    have d1 := polyCapTo_inv ht hr1
    have hone : t.sqrt (((q.1 - p.1) / L) ^ 2 + ((q.2 - p.2) / L) ^ 2) = 1 := by
      have e1 : ((q.1 - p.1) / L) ^ 2 + ((q.2 - p.2) / L) ^ 2 = 1 := by linear_combination hu
      have e2 := hp.sqrtSq (((q.1 - p.1) / L) ^ 2 + ((q.2 - p.2) / L) ^ 2) (by positivity)
      have e3 := hp.sqrtNonneg (((q.1 - p.1) / L) ^ 2 + ((q.2 - p.2) / L) ^ 2)
      rw [e1] at e2 e3 ⊢
      exact (pow_eq_one_iff_of_nonneg e3 (two_ne_zero)).1 e2
    have a1 := hp.cos ((q.1 - p.1) / L) ((q.2 - p.2) / L)
    have a2 := hp.sin ((q.1 - p.1) / L) ((q.2 - p.2) / L)
    rw [hone, one_mul] at a1 a2
    obtain ⟨b1, b2⟩ := cos_add_half ht (t.atan2 ((q.2 - p.2) / L) ((q.1 - p.1) / L))
    obtain ⟨b3, b4⟩ := cos_sub_half ht (t.atan2 ((q.2 - p.2) / L) ((q.1 - p.1) / L))
    rw [b1, b2, a1, a2] at d0
    rw [show t.atan2 ((q.2 - p.2) / L) ((q.1 - p.1) / L) + t.halfpi - 2 * t.halfpi =
      t.atan2 ((q.2 - p.2) / L) ((q.1 - p.1) / L) - t.halfpi by ring, b3, b4, a1, a2] at d1
    have he' : e = (p, q) := he
    refine ⟨[(r0, pick (.list layer) 0, pick (.list datatype) 0), (r1, pick (.list layer) 0, pick (.list datatype) 0)], ⟨rfl, ?_, ?_⟩,
      Or.inl ⟨rfl, by rw [he'], by rw [he'], r0, r1, rfl, ?_, ?_⟩, hrot, hlen, hg⟩
    · rw [htake hl]
      rfl
    · rw [htake hd]
      rfl
    · convert d0 using 1
      rw [← hleft]
      unfold alongPt
      ext <;> simp only <;> ring
    · convert d1 using 1
      rw [← hleft]
      unfold alongPt
      ext <;> simp only <;> ring
  · have hc : caps = ⟨[], [], []⟩ := by
      unfold polySegmentCaps at hcaps
      split at hcaps
      · exact absurd rfl hr
      · cases hcaps
        rfl
    subst hc
    refine ⟨[], ⟨rfl, rfl, rfl⟩, ?_, hrot, hlen, hg⟩
    by_cases hx : ends = .extended
    · subst hx
      refine Or.inr (Or.inl ⟨rfl, ?_, ?_, rfl⟩)
      · rw [he]
        simp only [polySegmentEnds, alongPt, Side.ahead, Side.vec]
        have : dist2 q p = (q.1 - p.1) ^ 2 + (q.2 - p.2) ^ 2 := by unfold dist2; ring
        rw [this, ← hL]
        ext <;> simp only <;> ring
      · rw [he]
        simp only [polySegmentEnds, alongPt, Side.ahead, Side.vec]
        rw [← hdd, ← hL]
    · refine Or.inr (Or.inr ⟨hr, hx, ?_, ?_, rfl⟩)
      · rw [he]
        unfold polySegmentEnds
        split
        · exact absurd rfl hx
        · rfl
      · rw [he]
        unfold polySegmentEnds
        split
        · exact absurd rfl hx
        · rfl

theorem Spec.HalfDisc.length {t : Num K} {c u : Pt K} {r : K} {g : Pgon K} (h : HalfDisc t c r u g) : g.length = 33 := by
  obtain ⟨α, -, rfl⟩ := h
  simp

/-- **C75.** With mitred corners and a limit of at least four vertices, no polygon has more, except for the round ends, which always
have 33. (With bevelled corners there can be one more, and up to six.) -/
theorem C75_limit {t : Num K} (ht : Num.Laws t) (hp : Num.Polar t) {pts : List (Pt K)} {widths : List K} {n : Nat} {dists : List K}
    {corners : PolyCorner} {ends : PolyEnd} {mp : Nat} {layer datatype : List Int} {P : PolySet K} (hmp : 4 ≤ mp)
    (h : polyPathNew t pts widths n dists corners ends mp layer datatype = .ok P) :
    ∀ g ∈ P.polygons, ((ends = .round ∨ ends = .code 1) ∧ g.length = 33) ∨
      ((corners = .miter ∨ corners = .code 0) ∧ g.length ≤ mp) ∨ g.length ≤ max 6 (mp + 1) ∧ corners ≠ .miter ∧ corners ≠ .code 0 ∨
      (pts.length = 2 ∧ n = 1 ∧ g.length ≤ 4) := by
  intro g hg
  by_cases hn : pts.length = 2 ∧ n = 1
  · obtain ⟨h2, rfl⟩ := hn
    match pts, h2 with
    | [p, q], _ =>
      obtain ⟨p', q', g', caps, e1, e2, -, e4, -⟩ := C75_segment ht hp h
      rw [e1.polygons, List.map_append, List.mem_append] at hg
      rcases hg with hg | hg
      · rcases e2 with ⟨rfl, -, -, c0, c1, rfl, d0, d1⟩ | ⟨-, -, -, rfl⟩ | ⟨-, -, -, -, rfl⟩
        · refine Or.inl ⟨Or.inl rfl, ?_⟩
          simp only [List.map_cons, List.map_nil, List.mem_cons, List.not_mem_nil, or_false] at hg
          rcases hg with rfl | rfl
          · exact d0.length
          · exact d1.length
        · simp at hg
        · simp at hg
      · simp only [List.map_cons, List.map_nil, List.mem_cons, List.not_mem_nil, or_false] at hg
        subst hg
        exact Or.inr (Or.inr (Or.inr ⟨rfl, rfl, e4⟩))
  · obtain ⟨b, p1, c1, U, gs, e1, e2, e3, e4, e5⟩ := C75_outline ht hp hn h
    rw [e3.polygons, List.map_append, List.mem_append] at hg
    rcases hg with hg | hg
    · rcases e2 with ⟨-, -, rfl⟩ | ⟨he, -, o, w, rfl, hr⟩ | ⟨-, -, rfl⟩
      · simp at hg
      · refine Or.inl ⟨he, ?_⟩
        simp only [List.map_append, List.map_map, List.mem_append, List.mem_map, List.mem_range, Function.comp] at hg
        rcases hg with ⟨ii, hii, rfl⟩ | ⟨ii, hii, rfl⟩
        · exact (hr ii hii).1.length
        · exact (hr ii hii).2.length
      · simp at hg
    · obtain ⟨x, hx, rfl⟩ := List.mem_map.1 hg
      have := (e4.mem_iff).1 hx
      obtain ⟨ii, hii, hx'⟩ := List.mem_flatMap.1 this
      obtain ⟨g, hg', rfl⟩ := List.mem_map.1 hx'
      have hl := (e5 ii (List.mem_range.1 hii)).2.2 (by omega) g hg'
      rcases e1 with ⟨rfl, hc⟩ | ⟨rfl, hc⟩
      · refine Or.inr (Or.inl ⟨hc, ?_⟩)
        simp only [Bool.false_eq_true, if_false] at hl
        simp only
        omega
      · refine Or.inr (Or.inr (Or.inl ⟨by simpa using hl, ?_, ?_⟩))
        · rcases hc with rfl | rfl <;> simp
        · rcases hc with rfl | rfl <;> simp

/-- Wrong values of `corners` and `ends` raise ValueError, unless there are two points and one path. -/
theorem C75_bad_arguments (t : Num K) {pts : List (Pt K)} (widths : List K) {n : Nat} (dists : List K) {corners : PolyCorner}
    {ends : PolyEnd} (mp : Nat) (layer datatype : List Int) (hn : ¬ (pts.length = 2 ∧ n = 1))
    (h : (corners ≠ .miter ∧ corners ≠ .bevel ∧ corners ≠ .code 0 ∧ corners ≠ .code 1) ∨
      (ends ≠ .flush ∧ ends ≠ .round ∧ ends ≠ .extended ∧ ends ≠ .code 0 ∧ ends ≠ .code 1 ∧ ends ≠ .code 2)) :
    polyPathNew t pts widths n dists corners ends mp layer datatype = .error .valueError := by
  have e : polyPathNew t pts widths n dists corners ends mp layer datatype =
      polyLine t (widths.map (· / 2)) dists n corners ends mp layer datatype pts := by
    unfold polyPathNew
    split
    · exact absurd ⟨rfl, rfl⟩ hn
    · rfl
  rw [e]
  have hc : (corners ≠ .miter ∧ corners ≠ .bevel ∧ corners ≠ .code 0 ∧ corners ≠ .code 1) → corners.resolve = .error .valueError := by
    rintro ⟨h1, h2, h3, h4⟩
    cases corners with
    | miter => exact absurd rfl h1
    | bevel => exact absurd rfl h2
    | other => rfl
    | code k =>
      unfold PolyCorner.resolve
      simp only
      rw [if_neg (fun h => h3 (by rw [h])), if_neg (fun h => h4 (by rw [h]))]
  unfold polyLine
  rcases h with h | ⟨h1, h2, h3, h4, h5, h6⟩
  · rw [hc h]
    rfl
  · by_cases hcc : corners ≠ .miter ∧ corners ≠ .bevel ∧ corners ≠ .code 0 ∧ corners ≠ .code 1
    · rw [hc hcc]
      rfl
    · have he : ends.resolve = .error .valueError := by
        cases ends with
        | flush => exact absurd rfl h1
        | round => exact absurd rfl h2
        | extended => exact absurd rfl h3
        | other => rfl
        | code k =>
          unfold PolyEnd.resolve
          simp only
          rw [if_neg (fun h => h4 (by rw [h])), if_neg (fun h => h5 (by rw [h])), if_neg (fun h => h6 (by rw [h]))]
      rw [he]
      cases hb : corners.resolve with
      | error e =>
        cases corners with
        | miter => cases hb
        | bevel => cases hb
        | other => cases hb; rfl
        | code k =>
          unfold PolyCorner.resolve at hb
          simp only at hb
          split at hb
          · cases hb
          · split at hb
            · cases hb
            · cases hb; rfl
      | ok b => rfl

end Gdspy
