import Verif.Lemmas.OffsetRegion

/-!
C76: `offset` moves the sides of polygons.

The full statement, for all polygons and joins: the result covers the points at a distance of up to `distance` from the polygons, or the
points inside at a distance of at least `-distance` from the outside, up to what the joins add at corners. Here: for polygons with
horizontal and vertical sides and miter joins the result is exactly the polygons with a rectangle at each side, and one at each
corner with a gap, added or removed. What is drawn at the corners of other polygons and for other joins is C77.
-/

set_option linter.unusedSectionVars false

namespace Gdspy.Spec

variable {K : Type} [Field K] [LinearOrder K] [FloorRing K]

/-- The outline `Q` is the polygon `P` in grid units, in counterclockwise direction; it does not go around a point in the other direction. -/
structure Counterclockwise (precision : K) (P : Pgon K) (Q : List IPt) : Prop where
  same : Q = P.map (gridPt (1 / precision)) ∨ Q = (P.map (gridPt (1 / precision))).reverse
  outline : Outline Q
  positive : 0 < shoelace (ofGrid Q : Pgon K)
  directed : ∀ p : Pt K, 0 ≤ wind (ofGrid Q) p

end Gdspy.Spec

namespace Gdspy

open Spec

variable {K : Type} [Field K] [LinearOrder K] [IsStrictOrderedRing K] [FloorRing K]

theorem parse_counterclockwise {precision : K} {P : Pgon K} {Q : List IPt} (h : Counterclockwise precision P Q) :
    parsePolygon (1 / precision) true P = Q := by
  change orientPath (P.map (gridPt (1 / precision))) = Q
  unfold orientPath
  have hpos := h.positive
  rcases h.same with hs | hs
  · rw [hs, ← orientation_shoelace] at hpos
    have : 0 < orientation (P.map (gridPt (1 / precision))) := by exact_mod_cast hpos
    rw [if_neg (by omega), hs]
  · rw [hs, ofGrid_reverse, shoelace_neg_reverse, ← orientation_shoelace] at hpos
    have : orientation (P.map (gridPt (1 / precision))) < 0 := by
      have : (0 : K) < ((-orientation (P.map (gridPt (1 / precision))) : Int) : K) := by push_cast; exact hpos
      have : 0 < -orientation (P.map (gridPt (1 / precision))) := by exact_mod_cast this
      omega
    rw [if_pos this, hs]

theorem parses_counterclockwise {precision : K} {A : List (Pgon K)} {L : List (List IPt)}
    (h : List.Forall₂ (Counterclockwise precision) A L) : A.map (parsePolygon (1 / precision) true) = L := by
  induction h with
  | nil => rfl
  | cons h _ ih => rw [List.map_cons, parse_counterclockwise h, ih]

theorem forall2_right {α β : Type} {R : α → β → Prop} {l : List α} {m : List β} (h : List.Forall₂ R l m) : ∀ b ∈ m, ∃ a ∈ l, R a b := by
  induction h with
  | nil => simp
  | cons h _ ih =>
    intro b hb
    rcases List.mem_cons.1 hb with rfl | hb
    · exact ⟨_, List.mem_cons_self, h⟩
    · obtain ⟨a, ha, hr⟩ := ih b hb
      exact ⟨a, List.mem_cons_of_mem _ ha, hr⟩

/-- `offset` with miter joins, given the outlines that are moved. -/
theorem offset_core {t : Num K} (ht : Num.Polar t) {e : UnionEngine} (he : ExactUnion K e)
    {sort : List (List IPt) → List (List IPt)} (hsort : SortsByLeft sort) {clip : Engine K} (hclip : Exact Rectilinear clip) {precision : K}
    (hp : 0 < precision) (o : Operand K) (hf : ¬ HasFlex o) (hb : ¬ BareVertices o) {L : List (List IPt)} (hL : ∀ Q ∈ L, Outline Q)
    (joinFirst : Bool) (hin : offsetInput t e joinFirst ((operandPolys o).map (parsePolygon (1 / precision) true)) = L)
    (hfix : fixOrientations L = L) (distance tolerance : K) (fuel maxPoints : Nat) (layer datatype : Int)
    (hgrid : maxPoints ≤ 4 ∨ StaysOnGrid Rectilinear clip) :
    ∃ r, offsetOp t e sort clip fuel o distance (some .miter) tolerance precision joinFirst maxPoints layer datatype = .ok r ∧
      (maxPoints ≤ 4 → r ≠ .outOfFuel) ∧
      (r ≠ .outOfFuel → IsResult r (fun v => 0 < total (L.map ofGrid) (unit precision v) +
        (L.map (shift (distance / precision) · (unit precision v))).sum) layer datatype maxPoints) := by
  have hd : distance * (1 / precision) = distance / precision := by ring
  have hex : executeTree t e ⟨.miter, distance / precision, miterLimOf tolerance, ⟨0, 0, 0⟩⟩ L =
      executed e (distance / precision > 0) (doOffset t ⟨.miter, distance / precision, miterLimOf tolerance, ⟨0, 0, 0⟩⟩ L) := by
    unfold executeTree executed
    rw [hfix]
    rfl
  obtain ⟨h1, h2⟩ := doOffset_total ht (c := ⟨.miter, distance / precision, miterLimOf tolerance, ⟨0, 0, 0⟩⟩) rfl
    ((miterLim_le tolerance).trans (by norm_num)) hL
  obtain ⟨h3, h4⟩ := executed_region he (distance / precision > 0) _ h1
  obtain ⟨out, h5, h6, h7, h8⟩ := sound_paths hsort h3
  have h9 : ∀ p : Pt K, Covers (out.map ofGrid) p ↔ 0 < total (L.map ofGrid) p + (L.map (shift (distance / precision) · p)).sum := by
    intro p
    rw [h8, h4, h2]
  have hcall : clipperOffset t e sort ((operandPolys o).map .poly) distance (some .miter) tolerance (1 / precision) joinFirst =
      .ok (buildTuple (1 / precision) (out.map fun P => P.map fun v => ((v.1 : K), (v.2 : K)))) := by
    unfold clipperOffset offsetCfg
    simp only [mapM_parse, py_bind_ok, hd, hin, hex, h5]
  unfold offsetOp
  rw [C53_gather_partial o hf hb, py_bind_ok, if_neg hp.ne', hcall, py_bind_ok]
  exact offset_result hclip hp h6 h7 fuel maxPoints layer datatype hgrid _ h9 _ rfl

theorem offset_apart {t : Num K} (ht : Num.Polar t) {e : UnionEngine} (he : ExactUnion K e)
    {sort : List (List IPt) → List (List IPt)} (hsort : SortsByLeft sort) {clip : Engine K} (hclip : Exact Rectilinear clip) {precision : K}
    (hp : 0 < precision) (o : Operand K) (hf : ¬ HasFlex o) (hb : ¬ BareVertices o) {L : List (List IPt)}
    (hL : List.Forall₂ (Counterclockwise precision) (operandPolys o) L) (distance tolerance : K) (fuel maxPoints : Nat)
    (layer datatype : Int) (hgrid : maxPoints ≤ 4 ∨ StaysOnGrid Rectilinear clip) :
    ∃ r, offsetOp t e sort clip fuel o distance (some .miter) tolerance precision false maxPoints layer datatype = .ok r ∧
      (maxPoints ≤ 4 → r ≠ .outOfFuel) ∧
      (r ≠ .outOfFuel → IsResult r (fun v => 0 < total (L.map ofGrid) (unit precision v) +
        (L.map (shift (distance / precision) · (unit precision v))).sum) layer datatype maxPoints) := by
  have hO : ∀ Q ∈ L, Outline Q := fun Q hQ => by
    obtain ⟨P, _, h⟩ := forall2_right hL Q hQ
    exact h.outline
  refine offset_core ht he hsort hclip hp o hf hb hO false ?_ ?_ distance tolerance fuel maxPoints layer datatype hgrid
  · unfold offsetInput
    rw [parses_counterclockwise hL, if_neg (by simp), offsetPaths_self hO]
  · refine fixOrientations_self (K := K) fun Q hQ => ?_
    have hm := lowestPath_mem hQ
    obtain ⟨P, _, h⟩ := forall2_right hL Q hm
    exact ⟨h.outline.three, h.positive.le⟩

theorem total_nonneg {L : List (List IPt)} (p : Pt K) (h : ∀ Q ∈ L, 0 ≤ wind (ofGrid Q) p) :
    0 ≤ total (L.map ofGrid) p ∧ (0 < total (L.map ofGrid) p ↔ ∃ Q ∈ L, wind (ofGrid Q) p ≠ 0) := by
  have := sum_nonneg_ne_zero (L.map fun Q => wind (ofGrid Q) p) (by
    intro x hx
    obtain ⟨Q, hQ, rfl⟩ := List.mem_map.1 hx
    exact h Q hQ)
  have e : total (L.map ofGrid) p = (L.map fun Q => wind (ofGrid Q) p).sum := by
    unfold total
    rw [List.map_map]
    rfl
  rw [e]
  refine ⟨this.1, ?_⟩
  have h2 := this.2
  simp only [List.mem_map, exists_exists_and_eq_and] at h2
  rw [← h2]
  omega

theorem margin_sum {d : K} {L : List (List IPt)} {p : Pt K} : 0 < (L.map fun Q => (margin d Q p : Int)).sum ↔ ∃ Q ∈ L, InMargin d Q p := by
  have := sum_nonneg_ne_zero (L.map fun Q => (margin d Q p : Int)) (by
    intro x hx
    obtain ⟨Q, hQ, rfl⟩ := List.mem_map.1 hx
    omega)
  have h2 := this.2
  simp only [List.mem_map, exists_exists_and_eq_and] at h2
  have h3 : (∃ Q ∈ L, InMargin d Q p) ↔ ∃ a ∈ L, (margin d a p : Int) ≠ 0 := by
    refine exists_congr fun Q => and_congr_right fun _ => ?_
    rw [← margin_pos]
    omega
  rw [h3, ← h2]
  omega

theorem margin_sum_nonneg (d : K) (L : List (List IPt)) (p : Pt K) : 0 ≤ (L.map fun Q => (margin d Q p : Int)).sum :=
  (sum_nonneg_ne_zero (L.map fun Q => (margin d Q p : Int)) (by
    intro x hx
    obtain ⟨Q, hQ, rfl⟩ := List.mem_map.1 hx
    omega)).1

theorem shift_grow {d : K} (hd : 0 < d) (L : List (List IPt)) (p : Pt K) :
    (L.map (shift d · p)).sum = (L.map fun Q => (margin d Q p : Int)).sum := by
  congr 1
  apply List.map_congr_left
  intro Q _
  unfold shift
  rw [if_pos hd]

theorem shift_shrink {d : K} (hd : d ≤ 0) (L : List (List IPt)) (p : Pt K) :
    (L.map (shift d · p)).sum = -(L.map fun Q => (margin d Q p : Int)).sum := by
  induction L with
  | nil => rfl
  | cons Q L ih =>
    simp only [List.map_cons, List.sum_cons, ih]
    have : shift d Q p = -(margin d Q p : Int) := by
      unfold shift
      rw [if_neg (not_lt.2 hd)]
    rw [this]
    ring

theorem isResult_congr {r : BoolOut K} {region region' : Pt K → Prop} (h : ∀ v, region v ↔ region' v) {layer datatype : Int}
    {maxPoints : Nat} (hr : IsResult r region layer datatype maxPoints) : IsResult r region' layer datatype maxPoints := by
  refine ⟨fun v => (hr.1 v).trans (h v), ?_, hr.2.2⟩
  rw [hr.2.1]
  exact forall_congr' fun v => not_congr (h v)

/-- **C76 (expanding, miter joins, horizontal and vertical sides).** The result covers the polygons, the rectangle between each side and
the side moved outwards, and the rectangle between the moved sides at each left turn. -/
theorem C76_grow_partial {t : Num K} (ht : Num.Polar t) {e : UnionEngine} (he : ExactUnion K e)
    {sort : List (List IPt) → List (List IPt)} (hsort : SortsByLeft sort) {clip : Engine K} (hclip : Exact Rectilinear clip) {precision : K}
    (hp : 0 < precision) (o : Operand K) (hf : ¬ HasFlex o) (hb : ¬ BareVertices o) {L : List (List IPt)}
    (hL : List.Forall₂ (Counterclockwise precision) (operandPolys o) L) {distance : K} (hd : 0 < distance) (tolerance : K)
    (fuel maxPoints : Nat) (layer datatype : Int) (hgrid : maxPoints ≤ 4 ∨ StaysOnGrid Rectilinear clip) :
    ∃ r, offsetOp t e sort clip fuel o distance (some .miter) tolerance precision false maxPoints layer datatype = .ok r ∧
      (maxPoints ≤ 4 → r ≠ .outOfFuel) ∧
      (r ≠ .outOfFuel → IsResult r (fun v => ∃ Q ∈ L, wind (ofGrid Q) (unit precision v) ≠ 0 ∨
        InMargin (distance / precision) Q (unit precision v)) layer datatype maxPoints) := by
  obtain ⟨r, h1, h2, h3⟩ := offset_apart ht he hsort hclip hp o hf hb hL distance tolerance fuel maxPoints layer datatype hgrid
  refine ⟨r, h1, h2, fun hr => isResult_congr (fun v => ?_) (h3 hr)⟩
  rw [shift_grow (div_pos hd hp)]
  obtain ⟨h4, h5⟩ := total_nonneg (L := L) (unit precision v) fun Q hQ => by
    obtain ⟨P, _, h⟩ := forall2_right hL Q hQ
    exact h.directed _
  have h6 := margin_sum_nonneg (distance / precision) L (unit precision v)
  have h7 := margin_sum (d := distance / precision) (L := L) (p := unit precision v)
  constructor
  · intro h
    rcases (by omega : 0 < total (L.map ofGrid) (unit precision v) ∨
      0 < (L.map fun Q => (margin (distance / precision) Q (unit precision v) : Int)).sum) with h | h
    · obtain ⟨Q, hQ, hw⟩ := h5.1 h
      exact ⟨Q, hQ, Or.inl hw⟩
    · obtain ⟨Q, hQ, hw⟩ := h7.1 h
      exact ⟨Q, hQ, Or.inr hw⟩
  · rintro ⟨Q, hQ, hw | hw⟩
    · have := h5.2 ⟨Q, hQ, hw⟩
      omega
    · have := h7.2 ⟨Q, hQ, hw⟩
      omega

/-- **C76 (shrinking, miter joins, horizontal and vertical sides).** A point is covered if more polygons contain it than rectangles
between a side and the side moved inwards, or between the moved sides at a right turn. -/
theorem C76_shrink_count {t : Num K} (ht : Num.Polar t) {e : UnionEngine} (he : ExactUnion K e)
    {sort : List (List IPt) → List (List IPt)} (hsort : SortsByLeft sort) {clip : Engine K} (hclip : Exact Rectilinear clip) {precision : K}
    (hp : 0 < precision) (o : Operand K) (hf : ¬ HasFlex o) (hb : ¬ BareVertices o) {L : List (List IPt)}
    (hL : List.Forall₂ (Counterclockwise precision) (operandPolys o) L) {distance : K} (hd : distance ≤ 0) (tolerance : K)
    (fuel maxPoints : Nat) (layer datatype : Int) (hgrid : maxPoints ≤ 4 ∨ StaysOnGrid Rectilinear clip) :
    ∃ r, offsetOp t e sort clip fuel o distance (some .miter) tolerance precision false maxPoints layer datatype = .ok r ∧
      (maxPoints ≤ 4 → r ≠ .outOfFuel) ∧
      (r ≠ .outOfFuel → IsResult r (fun v => (L.map fun Q => (margin (distance / precision) Q (unit precision v) : Int)).sum <
        total (L.map ofGrid) (unit precision v)) layer datatype maxPoints) := by
  obtain ⟨r, h1, h2, h3⟩ := offset_apart ht he hsort hclip hp o hf hb hL distance tolerance fuel maxPoints layer datatype hgrid
  refine ⟨r, h1, h2, fun hr => isResult_congr (fun v => ?_) (h3 hr)⟩
  rw [shift_shrink (div_nonpos_of_nonpos_of_nonneg hd hp.le)]
  omega

/-- **C76 (shrinking polygons that do not overlap).** The result covers the points of the polygons that are in no rectangle between a
side and the side moved inwards, and in no rectangle between the moved sides at a right turn. -/
theorem C76_shrink_partial {t : Num K} (ht : Num.Polar t) {e : UnionEngine} (he : ExactUnion K e)
    {sort : List (List IPt) → List (List IPt)} (hsort : SortsByLeft sort) {clip : Engine K} (hclip : Exact Rectilinear clip) {precision : K}
    (hp : 0 < precision) (o : Operand K) (hf : ¬ HasFlex o) (hb : ¬ BareVertices o) {L : List (List IPt)}
    (hL : List.Forall₂ (Counterclockwise precision) (operandPolys o) L) (hapart : ∀ p : Pt K, total (L.map ofGrid) p ≤ 1)
    {distance : K} (hd : distance ≤ 0) (tolerance : K) (fuel maxPoints : Nat) (layer datatype : Int)
    (hgrid : maxPoints ≤ 4 ∨ StaysOnGrid Rectilinear clip) :
    ∃ r, offsetOp t e sort clip fuel o distance (some .miter) tolerance precision false maxPoints layer datatype = .ok r ∧
      (maxPoints ≤ 4 → r ≠ .outOfFuel) ∧
      (r ≠ .outOfFuel → IsResult r (fun v => (∃ Q ∈ L, wind (ofGrid Q) (unit precision v) ≠ 0) ∧
        ∀ Q ∈ L, ¬ InMargin (distance / precision) Q (unit precision v)) layer datatype maxPoints) := by
  obtain ⟨r, h1, h2, h3⟩ := C76_shrink_count ht he hsort hclip hp o hf hb hL hd tolerance fuel maxPoints layer datatype hgrid
  refine ⟨r, h1, h2, fun hr => isResult_congr (fun v => ?_) (h3 hr)⟩
  obtain ⟨h4, h5⟩ := total_nonneg (L := L) (unit precision v) fun Q hQ => by
    obtain ⟨P, _, h⟩ := forall2_right hL Q hQ
    exact h.directed _
  have h6 := margin_sum_nonneg (distance / precision) L (unit precision v)
  have h7 := margin_sum (d := distance / precision) (L := L) (p := unit precision v)
  have h8 := hapart (unit precision v)
  rw [← h5]
  constructor
  · intro h
    refine ⟨by omega, fun Q hQ hm => ?_⟩
    have := h7.2 ⟨Q, hQ, hm⟩
    omega
  · rintro ⟨h, hn⟩
    have : ¬ 0 < (L.map fun Q => (margin (distance / precision) Q (unit precision v) : Int)).sum := fun hc => by
      obtain ⟨Q, hQ, hm⟩ := h7.1 hc
      exact hn Q hQ hm
    omega

/-- **C76 (distances of less than half a grid unit).** The result is the union of the polygons. -/
theorem C76_zero {t : Num K} (ht : Num.Polar t) {e : UnionEngine} (he : ExactUnion K e)
    {sort : List (List IPt) → List (List IPt)} (hsort : SortsByLeft sort) {clip : Engine K} (hclip : Exact Rectilinear clip) {precision : K}
    (hp : 0 < precision) (o : Operand K) (hf : ¬ HasFlex o) (hb : ¬ BareVertices o) {L : List (List IPt)}
    (hL : List.Forall₂ (Counterclockwise precision) (operandPolys o) L) {distance : K} (hd1 : -(precision / 2) < distance)
    (hd2 : distance < precision / 2) (tolerance : K) (fuel maxPoints : Nat) (layer datatype : Int)
    (hgrid : maxPoints ≤ 4 ∨ StaysOnGrid Rectilinear clip) :
    ∃ r, offsetOp t e sort clip fuel o distance (some .miter) tolerance precision false maxPoints layer datatype = .ok r ∧
      (maxPoints ≤ 4 → r ≠ .outOfFuel) ∧
      (r ≠ .outOfFuel → IsResult r (Region precision (operandPolys o)) layer datatype maxPoints) := by
  obtain ⟨r, h1, h2, h3⟩ := offset_apart ht he hsort hclip hp o hf hb hL distance tolerance fuel maxPoints layer datatype hgrid
  refine ⟨r, h1, h2, fun hr => isResult_congr (fun v => ?_) (h3 hr)⟩
  have hs : (L.map (shift (distance / precision) · (unit precision v))).sum = 0 := by
    apply List.sum_eq_zero
    intro x hx
    obtain ⟨Q, _, rfl⟩ := List.mem_map.1 hx
    unfold shift
    have g1 : -(1 / 2) < distance / precision := by
      rw [lt_div_iff₀ hp]; linarith
    have g2 : distance / precision < 1 / 2 := by
      rw [div_lt_iff₀ hp]; linarith
    rw [margin_near g1 g2]
    simp
  rw [hs, add_zero, (total_nonneg (L := L) (unit precision v) fun Q hQ => by
    obtain ⟨P, _, h⟩ := forall2_right hL Q hQ
    exact h.directed _).2]
  rw [← parses_counterclockwise hL]
  unfold Region
  simp only [List.mem_map, exists_exists_and_eq_and]
  exact exists_congr fun P => and_congr_right fun _ => wind_parse hp P v

/-- **C76 (`join_first`).** The outlines of the union of the polygons are moved: the result covers, when expanding, the union and the
rectangles at the sides and left turns of these outlines; when shrinking, the union without the rectangles at the sides and right
turns. The polygons may overlap. -/
theorem C76_join_first_partial {t : Num K} (ht : Num.Polar t) {e : UnionEngine} (he : ExactUnion K e)
    {sort : List (List IPt) → List (List IPt)} (hsort : SortsByLeft sort) {clip : Engine K} (hclip : Exact Rectilinear clip) {precision : K}
    (hp : 0 < precision) (o : Operand K) (hf : ¬ HasFlex o) (hb : ¬ BareVertices o) {A L : List (List IPt)}
    (hA : List.Forall₂ (Counterclockwise precision) (operandPolys o) A) (hL : UnionOutlines K e A L)
    (distance tolerance : K) (fuel maxPoints : Nat) (layer datatype : Int) (hgrid : maxPoints ≤ 4 ∨ StaysOnGrid Rectilinear clip) :
    ∃ r, offsetOp t e sort clip fuel o distance (some .miter) tolerance precision true maxPoints layer datatype = .ok r ∧
      (maxPoints ≤ 4 → r ≠ .outOfFuel) ∧
      (r ≠ .outOfFuel → IsResult r (fun v => if 0 < distance then
          (∃ Q ∈ A, wind (ofGrid Q) (unit precision v) ≠ 0) ∨ ∃ Q ∈ L, InMargin (distance / precision) Q (unit precision v)
        else (∃ Q ∈ A, wind (ofGrid Q) (unit precision v) ≠ 0) ∧ ∀ Q ∈ L, ¬ InMargin (distance / precision) Q (unit precision v))
        layer datatype maxPoints) := by
  have hAo : ∀ Q ∈ A, Outline Q := fun Q hQ => by
    obtain ⟨P, _, h⟩ := forall2_right hA Q hQ
    exact h.outline
  have hfix0 : fixOrientations A = A := by
    refine fixOrientations_self (K := K) fun Q hQ => ?_
    obtain ⟨P, _, h⟩ := forall2_right hA Q (lowestPath_mem hQ)
    exact ⟨h.outline.three, h.positive.le⟩
  obtain ⟨b, hb', hAr⟩ := frame_around he A
  obtain ⟨c, hflat⟩ := hL.flat b hAr
  have hex : executeFlat t e ⟨.square, 0, 1 / 2, ⟨0, 0, 0⟩⟩ A = L := by
    unfold executeFlat doOffset
    rw [hfix0]
    simp only [gt_iff_lt, lt_self_iff_false, if_false]
    rw [if_pos (by constructor <;> norm_num), hb', hflat]
    rfl
  obtain ⟨r, h1, h2, h3⟩ := offset_core ht he hsort hclip hp o hf hb hL.outline true (by
      unfold offsetInput
      rw [if_pos rfl, parses_counterclockwise hA, offsetPaths_self hAo, hex, offsetPaths_self hL.outline])
    (fixOrientations_self (K := K) fun P hP => ⟨(hL.outline P (lowestPath_mem hP)).three, (hL.highest P (lowestPath_mem hP)
      (lowestPath_spec hP fun Q hQ h => by have := (hL.outline Q hQ).three; rw [h] at this; simp at this)).le⟩)
    distance tolerance fuel maxPoints layer datatype hgrid
  refine ⟨r, h1, h2, fun hr => isResult_congr (fun v => ?_) (h3 hr)⟩
  have h4 := (total_nonneg (L := A) (unit precision v) fun Q hQ => by
    obtain ⟨P, _, h⟩ := forall2_right hA Q hQ
    exact h.directed _).2
  have h5 := hL.union (unit precision v)
  have h6 := margin_sum_nonneg (distance / precision) L (unit precision v)
  have h7 := margin_sum (d := distance / precision) (L := L) (p := unit precision v)
  rw [← h4, h5]
  by_cases hd : 0 < distance
  · rw [if_pos hd, shift_grow (div_pos hd hp), ← h7]
    by_cases hv : 0 < total (A.map ofGrid) (unit precision v)
    · rw [if_pos hv]
      simp only [hv, true_or, iff_true]
      omega
    · rw [if_neg hv]
      simp only [hv, false_or]
      omega
  · rw [if_neg hd, shift_shrink (div_nonpos_of_nonpos_of_nonneg (not_lt.1 hd) hp.le)]
    have h8 : (∀ Q ∈ L, ¬ InMargin (distance / precision) Q (unit precision v)) ↔
        ¬ 0 < (L.map fun Q => (margin (distance / precision) Q (unit precision v) : Int)).sum := by
      rw [h7]
      push Not
      rfl
    rw [h8]
    by_cases hv : 0 < total (A.map ofGrid) (unit precision v)
    · rw [if_pos hv]
      simp only [hv, true_and]
      omega
    · rw [if_neg hv]
      simp only [hv, false_and, iff_false]
      omega

/-! ## Errors -/

/-- A join that is none of the three names is a TypeError, before the polygons are looked at; a precision of zero is a
ZeroDivisionError. -/
theorem C76_errors (t : Num K) (e : UnionEngine) (sort : List (List IPt) → List (List IPt)) (clip : Engine K) (fuel : Nat) (o : Operand K)
    (hb : ¬ BareVertices o) (distance tolerance precision : K) (joinFirst : Bool) (maxPoints : Nat) (layer datatype : Int) :
    (precision ≠ 0 → offsetOp t e sort clip fuel o distance none tolerance precision joinFirst maxPoints layer datatype =
      .error .typeError) ∧
    ∀ join, offsetOp t e sort clip fuel o distance join tolerance 0 joinFirst maxPoints layer datatype = .error .zeroDivision := by
  obtain ⟨l, hl⟩ : ∃ l, gatherPolys o = .ok l := by
    cases o with
    | none => exact ⟨_, rfl⟩
    | one i => cases i <;> first | exact ⟨_, rfl⟩ | exact absurd trivial hb
    | list l => exact ⟨_, rfl⟩
  refine ⟨fun hp => ?_, fun join => ?_⟩
  · unfold offsetOp
    rw [hl, py_bind_ok, if_neg hp]
    rfl
  · unfold offsetOp
    rw [hl, py_bind_ok, if_pos rfl]

theorem parse_flex (scaling : K) (polys : List (Pgon K)) (l : List (Gathered K)) (h : Gathered.object polys ∈ l) :
    l.mapM (Gathered.parse scaling true) = .error .typeError := by
  induction l with
  | nil => cases h
  | cons g l ih =>
    rw [List.mapM_cons]
    cases g with
    | object p => rfl
    | poly p =>
      rw [Gathered.parse, py_bind_ok, ih ((List.mem_cons.1 h).resolve_left (by simp))]
      rfl

/-- **C76 (FlexPaths).** A FlexPath in a list raises TypeError. -/
theorem C76_flex (t : Num K) (e : UnionEngine) (sort : List (List IPt) → List (List IPt)) (clip : Engine K) (fuel : Nat) (o : Operand K)
    (h : HasFlex o) (distance : K) (join : Option JoinKind) (tolerance : K) {precision : K} (hp : precision ≠ 0) (joinFirst : Bool)
    (maxPoints : Nat) (layer datatype : Int) :
    offsetOp t e sort clip fuel o distance join tolerance precision joinFirst maxPoints layer datatype = .error .typeError := by
  cases o with
  | none => cases h
  | one i => cases h
  | list l =>
    obtain ⟨polys, hl⟩ := h
    unfold offsetOp
    rw [gatherPolys, py_bind_ok, if_neg hp]
    unfold clipperOffset
    cases join with
    | none => rfl
    | some join =>
      simp only []
      rw [parse_flex _ polys _ (object_mem l polys hl)]
      rfl

example : HasFlex (.list [.verts [((0 : ℚ), 0), (1, 0), (0, 1)], .flex [[(0, 0), (4, 0), (4, 3)]]]) := ⟨_, List.mem_cons_of_mem _ List.mem_cons_self⟩

end Gdspy
