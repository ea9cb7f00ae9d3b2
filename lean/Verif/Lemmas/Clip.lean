import Verif.Props.C52
import Verif.Props.C44
import Verif.Spec.Clip

/-!
The interface of the clipper: units, rounding, `chop`.
-/

set_option linter.unusedSectionVars false

namespace Gdspy

open Gdspy.Spec

variable {K : Type} [Field K] [LinearOrder K] [IsStrictOrderedRing K] [FloorRing K]

theorem class_true : Class (fun _ => True) := ⟨fun _ _ _ _ => trivial, fun _ _ => trivial⟩

theorem class_rectilinear : Class Rectilinear := by
  refine ⟨fun x0 x1 y0 y1 => by simp [Rectilinear, edges], fun P h e he => ?_⟩
  obtain ⟨x, hx, rfl⟩ := List.mem_map.1 ((edges_reverse_perm P).mem_iff.1 he)
  rcases h x hx with h | h
  · exact Or.inl h.symm
  · exact Or.inr h.symm

/-! ### Rounding -/

theorem clipRound_int (n : Int) : clipRound (n : K) = n := by
  unfold clipRound
  split
  · rw [Int.ceil_eq_iff]; constructor <;> linarith
  · rw [Int.floor_eq_iff]; constructor <;> linarith

theorem clipRound_near (x : K) : |(clipRound x : K) - x| ≤ 1 / 2 := by
  rw [abs_le]
  unfold clipRound
  split
  · have h1 := Int.le_ceil (x - 1 / 2)
    have h2 := Int.ceil_lt_add_one (x - 1 / 2)
    constructor <;> linarith
  · have h1 := Int.floor_le (x + 1 / 2)
    have h2 := Int.lt_floor_add_one (x + 1 / 2)
    constructor <;> linarith

theorem clipRound_mono {x y : K} (h : x ≤ y) : clipRound x ≤ clipRound y := by
  unfold clipRound
  split
  · rename_i hx
    split
    · exact Int.ceil_mono (by linarith)
    · rename_i hy
      have h1 : ⌈x - 1 / 2⌉ ≤ 0 := Int.ceil_le.2 (by push_cast; linarith)
      have h2 : 0 ≤ ⌊y + 1 / 2⌋ := Int.le_floor.2 (by push_cast; linarith [not_lt.1 hy])
      omega
  · rename_i hx
    rw [if_neg (by linarith [not_lt.1 hx])]
    exact Int.floor_mono (by linarith)

theorem clipRound_neg (x : K) : clipRound (-x) = - clipRound x := by
  unfold clipRound
  rcases lt_trichotomy x 0 with h | h | h
  · rw [if_neg (by linarith), if_pos h, ← Int.floor_neg]
    congr 1; ring
  · subst h
    have : ⌊(1 / 2 : K)⌋ = 0 := by rw [Int.floor_eq_iff]; constructor <;> norm_num
    simp only [neg_zero, lt_self_iff_false, if_false, zero_add, this]
  · rw [if_pos (by linarith), if_neg (by linarith), ← Int.ceil_neg]
    congr 1; ring

/-- **C54 (rounding).** Vertices and positions are moved by half the precision at most, those on the grid
stay, the order is kept and the sign does not matter. -/
theorem C54_nearest (precision : K) (hp : 0 < precision) (x y : K) (n : Int) :
    |snap precision x - x| ≤ precision / 2 ∧ snap precision (precision * n) = precision * n ∧
    (x ≤ y → snap precision x ≤ snap precision y) ∧ snap precision (-x) = - snap precision x := by
  unfold snap
  refine ⟨?_, ?_, fun h => ?_, ?_⟩
  · have h := clipRound_near (1 / precision * x)
    have e : precision * (clipRound (1 / precision * x) : K) - x =
        precision * ((clipRound (1 / precision * x) : K) - 1 / precision * x) := by
      field_simp
    rw [e, abs_mul, abs_of_pos hp]
    calc precision * |_| ≤ precision * (1 / 2) := mul_le_mul_of_nonneg_left h hp.le
      _ = precision / 2 := by ring
  · rw [show 1 / precision * (precision * (n : K)) = n by field_simp, clipRound_int]
  · apply mul_le_mul_of_nonneg_left _ hp.le
    have : 1 / precision * x ≤ 1 / precision * y := mul_le_mul_of_nonneg_left h (by positivity)
    exact_mod_cast clipRound_mono this
  · rw [mul_neg, clipRound_neg]
    push_cast
    ring

example : snap (1 / 10 : ℚ) (34 / 100) = 3 / 10 ∧ snap (1 / 10 : ℚ) (- 35 / 100) = - 4 / 10 := by
  decide +kernel

/-! ### Units -/

/-- The point in grid units. -/
def unit (precision : K) (v : Pt K) : Pt K := (1 / precision * v.1, 1 / precision * v.2)

theorem wind_grid {precision : K} (hp : 0 < precision) (Q : List IPt) (v : Pt K) :
    wind ((ofGrid Q : Pgon K).map fun w => (precision * w.1, precision * w.2)) v =
      wind (ofGrid Q) (unit precision v) := by
  have h := wind_scale precision hp (ofGrid Q) (unit precision v)
  have e : (precision * (unit precision v).1, precision * (unit precision v).2) = v := by
    unfold unit
    ext <;> simp <;> field_simp
  rw [e] at h
  exact h

theorem snapPoly_grid (precision : K) (P : Pgon K) : snapPoly precision P =
    (ofGrid (P.map (gridPt (1 / precision))) : Pgon K).map fun w => (precision * w.1, precision * w.2) := by
  simp [snapPoly, ofGrid, gridPt, snap, Function.comp_def]

theorem wind_snap {precision : K} (hp : 0 < precision) (P : Pgon K) (v : Pt K) :
    wind (snapPoly precision P) v = wind (ofGrid (P.map (gridPt (1 / precision)))) (unit precision v) := by
  rw [snapPoly_grid, wind_grid hp]

theorem wind_parse {precision : K} (hp : 0 < precision) (P : Pgon K) (v : Pt K) :
    wind (ofGrid (parsePolygon (1 / precision) true P)) (unit precision v) ≠ 0 ↔
      wind (snapPoly precision P) v ≠ 0 := by
  rw [wind_snap hp]
  exact orientPath_covers _ _

theorem wind_build {precision : K} (hp : 0 < precision) (P : Pgon K) (v : Pt K) :
    wind (P.map fun w => (w.1 / (1 / precision), w.2 / (1 / precision))) v = wind P (unit precision v) := by
  have h := wind_scale precision hp P (unit precision v)
  have e : (precision * (unit precision v).1, precision * (unit precision v).2) = v := by
    unfold unit
    ext <;> simp <;> field_simp
  rw [e] at h
  rw [← h]
  congr 1
  apply List.map_congr_left
  intro w _
  ext <;> simp [mul_comm]

theorem covers_build {precision : K} (hp : 0 < precision) (L : List (Pgon K)) (v : Pt K) :
    Covers (buildTuple (1 / precision) L) v ↔ Covers L (unit precision v) := by
  unfold Covers buildTuple
  constructor
  · rintro ⟨P, hP, h⟩
    obtain ⟨Q, hQ, rfl⟩ := List.mem_map.1 hP
    rw [wind_build hp] at h
    exact ⟨Q, hQ, h⟩
  · rintro ⟨Q, hQ, h⟩
    exact ⟨_, List.mem_map.2 ⟨Q, hQ, rfl⟩, by rwa [wind_build hp]⟩

theorem covers_append (L M : List (Pgon K)) (v : Pt K) : Covers (L ++ M) v ↔ Covers L v ∨ Covers M v := by
  simp only [Covers, List.mem_append]
  constructor
  · rintro ⟨P, h | h, h'⟩
    · exact Or.inl ⟨P, h, h'⟩
    · exact Or.inr ⟨P, h, h'⟩
  · rintro (⟨P, h, h'⟩ | ⟨P, h, h'⟩)
    · exact ⟨P, Or.inl h, h'⟩
    · exact ⟨P, Or.inr h, h'⟩

theorem covers_flatten (L : List (List (Pgon K))) (v : Pt K) :
    Covers L.flatten v ↔ ∃ l ∈ L, Covers l v := by
  simp only [Covers, List.mem_flatten]
  constructor
  · rintro ⟨P, ⟨l, h, h'⟩, hw⟩; exact ⟨l, h, P, h', hw⟩
  · rintro ⟨l, h, P, h', hw⟩; exact ⟨P, ⟨l, h, h'⟩, hw⟩

theorem class_parse {C : List IPt → Prop} (hC : Class C) {scaling : K} {P : Pgon K}
    (h : C (P.map (gridPt scaling))) : C (parsePolygon scaling true P) := by
  show C (orientPath _)
  rcases orientPath_or (P.map (gridPt scaling)) with h' | h' <;> rw [h']
  · exact h
  · exact hC.rev _ h

/-! ### chop -/

theorem total_one (P : Pgon K) (v : Pt K) : total [P] v = wind P v := by simp [total]

/-- One slab. -/
theorem chop_slab {C : List IPt → Prop} (hC : Class C) {e : Engine K} (he : Exact C e) {precision : K}
    (hp : 0 < precision) (axis : Nat) (subj : List IPt) (hs : C subj) (b : IBox)
    (hb : ∀ v ∈ subj, b.has v = true) (c0 c1 : Int) (v : Pt K) :
    Covers (buildTuple (1 / precision) (e.clip .and [subj] [chopRect axis b c0 c1])) v ↔
      wind (ofGrid subj) (unit precision v) ≠ 0 ∧
      ¬ (Past axis (precision * c0) v ↔ Past axis (precision * c1) v) := by
  have hr : C (chopRect axis b c0 c1) := by
    unfold chopRect
    split <;> exact hC.rect _ _ _ _
  rw [covers_build hp, he.covers _ _ _ (by simpa using hs) (by simpa using hr)]
  simp only [ClipOp.holds, List.map_cons, List.map_nil, total_one]
  apply and_congr_right
  intro hw
  have hbox : ∀ w ∈ (ofGrid subj : Pgon K), (b.x0 : K) ≤ w.1 ∧ w.1 ≤ b.x1 ∧ (b.y0 : K) ≤ w.2 ∧ w.2 ≤ b.y1 := by
    intro w hw
    obtain ⟨q, hq, rfl⟩ := List.mem_map.1 hw
    have := hb q hq
    simp only [IBox.has, Bool.and_eq_true, decide_eq_true_eq, ge_iff_le] at this
    obtain ⟨⟨⟨h1, h2⟩, h3⟩, h4⟩ := this
    exact ⟨Int.cast_le.2 h1, Int.cast_le.2 h2, Int.cast_le.2 h3, Int.cast_le.2 h4⟩
  have hin := wind_in_box hbox hw
  have pos : (0 : K) < 1 / precision := by positivity
  have ineq : ∀ (c : Int) (x : K), (c : K) ≤ 1 / precision * x ↔ precision * c ≤ x := by
    intro c x
    rw [one_div, inv_mul_eq_div, le_div_iff₀ hp, mul_comm]
  have ineq' : ∀ (c : Int) (x : K), (c : K) < 1 / precision * x ↔ precision * c < x := by
    intro c x
    rw [one_div, inv_mul_eq_div, lt_div_iff₀ hp, mul_comm]
  unfold chopRect Past
  by_cases ha : axis = 0
  · simp only [ha, if_true]
    have e : (ofGrid [(c0, b.y0), (c1, b.y0), (c1, b.y1), (c0, b.y1)] : Pgon K) =
      [((c0 : K), (b.y0 : K)), ((c1 : K), (b.y0 : K)), ((c1 : K), (b.y1 : K)), ((c0 : K), (b.y1 : K))] := rfl
    rw [e, rect_covers, ← ineq, ← ineq]
    have hy : min (b.y0 : K) b.y1 < (unit precision v).2 ∧ (unit precision v).2 ≤ max (b.y0 : K) b.y1 :=
      ⟨lt_of_le_of_lt (min_le_left _ _) hin.2.2.1, hin.2.2.2.trans (le_max_right _ _)⟩
    rw [and_iff_left hy, min_le_iff, lt_max_iff]
    unfold unit
    rw [← not_le, ← not_le]
    tauto
  · simp only [ha, if_false]
    have e : (ofGrid [(b.x0, c0), (b.x1, c0), (b.x1, c1), (b.x0, c1)] : Pgon K) =
      [((b.x0 : K), (c0 : K)), ((b.x1 : K), (c0 : K)), ((b.x1 : K), (c1 : K)), ((b.x0 : K), (c1 : K))] := rfl
    rw [e, rect_covers, ← ineq', ← ineq']
    have hx : min (b.x0 : K) b.x1 ≤ (unit precision v).1 ∧ (unit precision v).1 < max (b.x0 : K) b.x1 :=
      ⟨(min_le_left _ _).trans hin.1, lt_of_lt_of_le hin.2.1 (le_max_right _ _)⟩
    rw [and_iff_right hx, min_lt_iff, le_max_iff]
    unfold unit
    rw [← not_lt, ← not_lt]
    tauto

/-- The ends of the slabs. -/
def slabEnds (precision : K) (c0 cend : Int) (cuts : List K) : List K :=
  precision * c0 :: (cuts.map (snap precision) ++ [precision * cend])

theorem chopLoop_spec {C : List IPt → Prop} (hC : Class C) {e : Engine K} (he : Exact C e) {precision : K}
    (hp : 0 < precision) (axis : Nat) (subj : List IPt) (hs : C subj) (b : IBox)
    (hb : ∀ v ∈ subj, b.has v = true) (c0 : Int) (cuts : List K) :
    (chopLoop e (1 / precision) axis subj b c0 cuts).length = cuts.length + 1 ∧
    ∀ (i : Nat) (L : List (Pgon K)), (chopLoop e (1 / precision) axis subj b c0 cuts)[i]? = some L →
      ∃ x y, (slabEnds precision c0 (if axis = 0 then b.x1 else b.y1) cuts)[i]? = some x ∧
        (slabEnds precision c0 (if axis = 0 then b.x1 else b.y1) cuts)[i + 1]? = some y ∧
        ∀ v, Covers L v ↔ wind (ofGrid subj) (unit precision v) ≠ 0 ∧ ¬ (Past axis x v ↔ Past axis y v) := by
  induction cuts generalizing c0 with
  | nil =>
    refine ⟨rfl, fun i L h => ?_⟩
    match i with
    | 0 =>
      rw [chopLoop, List.getElem?_cons_zero, Option.some.injEq] at h
      exact ⟨_, _, rfl, rfl, fun v => by rw [← h]; exact chop_slab hC he hp axis subj hs b hb _ _ v⟩
    | i + 1 => simp [chopLoop] at h
  | cons a r ih =>
    obtain ⟨h1, h2⟩ := ih (clipRound (1 / precision * a))
    refine ⟨by rw [chopLoop, List.length_cons, h1]; rfl, fun i L h => ?_⟩
    match i with
    | 0 =>
      rw [chopLoop, List.getElem?_cons_zero, Option.some.injEq] at h
      exact ⟨_, _, rfl, rfl, fun v => by rw [← h]; exact chop_slab hC he hp axis subj hs b hb _ _ v⟩
    | i + 1 =>
      rw [chopLoop, List.getElem?_cons_succ] at h
      obtain ⟨x, y, hx, hy, hv⟩ := h2 i L h
      exact ⟨x, y, hx, hy, hv⟩

/-- A line from before to past is crossed somewhere. -/
theorem chain_cross {α : Type} (p : α → Prop) (a : α) (l : List α) (z : α) (h : ¬ (p a ↔ p z)) :
    ∃ (i : Nat) (x y : α), (a :: (l ++ [z]))[i]? = some x ∧ (a :: (l ++ [z]))[i + 1]? = some y ∧ ¬ (p x ↔ p y) := by
  induction l generalizing a with
  | nil => exact ⟨0, a, z, rfl, rfl, h⟩
  | cons b l ih =>
    by_cases hb : p a ↔ p b
    · obtain ⟨i, x, y, h1, h2, h3⟩ := ih b (by rwa [← hb])
      exact ⟨i + 1, x, y, by simpa using h1, by simpa using h2, h3⟩
    · exact ⟨0, a, b, rfl, rfl, hb⟩

/-- A point of the polygon is not past the end of the box, and past its start. -/
theorem past_box {precision : K} (hp : 0 < precision) (axis : Nat) (subj : List IPt) (b : IBox)
    (hb : ∀ v ∈ subj, b.has v = true) (v : Pt K) (hw : wind (ofGrid subj) (unit precision v) ≠ 0) :
    Past axis (precision * ((if axis = 0 then b.x0 else b.y0 : Int) : K)) v ∧
    ¬ Past axis (precision * ((if axis = 0 then b.x1 else b.y1 : Int) : K)) v := by
  have hbox : ∀ w ∈ (ofGrid subj : Pgon K), (b.x0 : K) ≤ w.1 ∧ w.1 ≤ b.x1 ∧ (b.y0 : K) ≤ w.2 ∧ w.2 ≤ b.y1 := by
    intro w hw
    obtain ⟨q, hq, rfl⟩ := List.mem_map.1 hw
    have := hb q hq
    simp only [IBox.has, Bool.and_eq_true, decide_eq_true_eq, ge_iff_le] at this
    obtain ⟨⟨⟨h1, h2⟩, h3⟩, h4⟩ := this
    exact ⟨Int.cast_le.2 h1, Int.cast_le.2 h2, Int.cast_le.2 h3, Int.cast_le.2 h4⟩
  have hin := wind_in_box hbox hw
  have ineq : ∀ (c : Int) (x : K), (c : K) ≤ 1 / precision * x ↔ precision * c ≤ x := by
    intro c x
    rw [one_div, inv_mul_eq_div, le_div_iff₀ hp, mul_comm]
  have ineq' : ∀ (c : Int) (x : K), (c : K) < 1 / precision * x ↔ precision * c < x := by
    intro c x
    rw [one_div, inv_mul_eq_div, lt_div_iff₀ hp, mul_comm]
  unfold Past
  by_cases ha : axis = 0
  · simp only [ha, if_true]
    rw [← ineq, ← ineq, not_le]
    exact ⟨hin.1, hin.2.1⟩
  · simp only [ha, if_false]
    rw [← ineq', ← ineq', not_lt]
    exact ⟨hin.2.2.1, hin.2.2.2⟩

theorem chop_ok (e : Engine K) (scaling : K) (P : Pgon K) (hP : P ≠ []) (cuts : List K) (axis : Nat) :
    ∃ b, boundingBox (parsePolygon scaling true P) = .ok b ∧
      chop e scaling P cuts axis = .ok (chopLoop e scaling axis (parsePolygon scaling true P) b
        (if axis = 0 then b.x0 else b.y0) cuts) := by
  have h0 : parsePolygon scaling true P ≠ [] := by
    intro h
    have := congrArg List.length h
    rw [parsePolygon_length] at this
    exact hP (List.length_eq_zero_iff.1 this)
  obtain ⟨b, hb⟩ := boundingBox_ok _ h0
  refine ⟨b, hb, ?_⟩
  unfold chop
  simp only [hb]

theorem past_mono {axis : Nat} {a b : K} (h : a ≤ b) {v : Pt K} (hb : Past axis b v) : Past axis a v := by
  unfold Past at *
  split
  · rename_i ha; rw [if_pos ha] at hb; exact h.trans hb
  · rename_i ha; rw [if_neg ha] at hb; exact lt_of_le_of_lt h hb

/-- What `chop` returns for sorted positions. -/
theorem chop_spec {C : List IPt → Prop} (hC : Class C) {e : Engine K} (he : Exact C e) {precision : K}
    (hp : 0 < precision) (axis : Nat) (P : Pgon K) (hP : P ≠ [])
    (hs : C (P.map (gridPt (1 / precision)))) (cuts : List K) (hc : cuts.Pairwise (· ≤ ·)) :
    ∃ slabs, chop e (1 / precision) P cuts axis = .ok slabs ∧ slabs.length = cuts.length + 1 ∧
      ∀ (i : Nat) (L : List (Pgon K)), slabs[i]? = some L → ∀ v,
        (Covers L v ↔ wind (snapPoly precision P) v ≠ 0 ∧ InSlab axis (cuts.map (snap precision)) i v) := by
  obtain ⟨b, hb, hchop⟩ := chop_ok e (1 / precision) P hP cuts axis
  have hhas := boundingBox_has _ b hb
  obtain ⟨h1, h2⟩ := chopLoop_spec hC he hp axis _ (class_parse hC hs) b hhas
    (if axis = 0 then b.x0 else b.y0) cuts
  refine ⟨_, hchop, h1, fun i L hL v => ?_⟩
  have hi : i < cuts.length + 1 := by
    rw [← h1]
    exact (List.getElem?_eq_some_iff.1 hL).1
  obtain ⟨x, y, hx, hy, hv⟩ := h2 i L hL
  rw [hv, wind_parse hp]
  apply and_congr_right
  intro hw
  have hbx := past_box hp axis _ b hhas v ((wind_parse hp P v).2 hw)
  -- the start of the slab
  have hlo : (∀ j lo, i = j + 1 → (cuts.map (snap precision))[j]? = some lo → Past axis lo v) ↔ Past axis x v := by
    cases i with
    | zero =>
      simp only [slabEnds, List.getElem?_cons_zero, Option.some.injEq] at hx
      constructor
      · intro _; rw [← hx]; exact hbx.1
      · intro _ j lo hj; omega
    | succ j =>
      simp only [slabEnds, List.getElem?_cons_succ] at hx
      rw [List.getElem?_append_left (by simp; omega)] at hx
      constructor
      · intro h; exact h j x rfl hx
      · intro h k lo hk hlo
        obtain rfl : k = j := by omega
        rw [hx] at hlo
        cases hlo
        exact h
  have hhi : (∀ hi, (cuts.map (snap precision))[i]? = some hi → ¬ Past axis hi v) ↔ ¬ Past axis y v := by
    simp only [slabEnds, List.getElem?_cons_succ] at hy
    rcases Nat.lt_or_ge i cuts.length with hlt | hge
    · rw [List.getElem?_append_left (by simpa using hlt)] at hy
      rw [hy]
      simp
    · rw [List.getElem?_append_right (by simpa using hge)] at hy
      have hi' : i = cuts.length := by omega
      subst hi'
      simp only [List.length_map, Nat.sub_self, List.getElem?_cons_zero, Option.some.injEq] at hy
      constructor
      · intro _; rw [← hy]; exact hbx.2
      · intro _ hi' h'
        simp at h'
  unfold InSlab
  rw [hlo, hhi]
  -- sorted: past the end implies past the start
  constructor
  · intro h
    by_contra hcon
    apply h
    have : Past axis y v → Past axis x v := by
      intro hyv
      rw [← hlo]
      intro j lo hj hlo'
      by_cases hlt : i < cuts.length
      · simp only [slabEnds, List.getElem?_cons_succ] at hy
        rw [List.getElem?_append_left (by simpa using hlt)] at hy
        apply past_mono _ hyv
        subst hj
        rw [List.getElem?_map] at hlo' hy
        obtain ⟨a, ha, rfl⟩ := Option.map_eq_some_iff.1 hlo'
        obtain ⟨c, hc', rfl⟩ := Option.map_eq_some_iff.1 hy
        obtain ⟨hja, rfl⟩ := List.getElem?_eq_some_iff.1 ha
        obtain ⟨hjc, rfl⟩ := List.getElem?_eq_some_iff.1 hc'
        exact (C54_nearest precision hp _ _ 0).2.2.1 (List.pairwise_iff_getElem.1 hc _ _ hja hjc (Nat.lt_succ_self j))
      · exfalso
        simp only [slabEnds, List.getElem?_cons_succ] at hy
        rw [List.getElem?_append_right (by simpa using hlt)] at hy
        have hi' : i = cuts.length := by omega
        rw [hi'] at hy
        simp only [List.length_map, Nat.sub_self, List.getElem?_cons_zero, Option.some.injEq] at hy
        rw [← hy] at hyv
        exact hbx.2 hyv
    tauto
  · rintro ⟨hx', hy'⟩ h
    exact hy' (h.1 hx')

/-- The pieces that `chop` returns cover the polygon, in whatever order the positions are. -/
theorem chop_union {C : List IPt → Prop} (hC : Class C) {e : Engine K} (he : Exact C e) {precision : K}
    (hp : 0 < precision) (axis : Nat) (P : Pgon K) (hP : P ≠ [])
    (hs : C (P.map (gridPt (1 / precision)))) (cuts : List K) (slabs : List (List (Pgon K)))
    (h : chop e (1 / precision) P cuts axis = .ok slabs) (v : Pt K) :
    Covers slabs.flatten v ↔ wind (snapPoly precision P) v ≠ 0 := by
  obtain ⟨b, hb, hchop⟩ := chop_ok e (1 / precision) P hP cuts axis
  rw [h, Except.ok.injEq] at hchop
  have hhas := boundingBox_has _ b hb
  obtain ⟨h1, h2⟩ := chopLoop_spec hC he hp axis _ (class_parse hC hs) b hhas
    (if axis = 0 then b.x0 else b.y0) cuts
  rw [← hchop] at h1 h2
  rw [covers_flatten, ← wind_parse hp]
  constructor
  · rintro ⟨L, hL, hv⟩
    obtain ⟨i, hi⟩ := List.mem_iff_getElem?.1 hL
    obtain ⟨x, y, _, _, hv'⟩ := h2 i L hi
    exact ((hv' v).1 hv).1
  · intro hw
    have hbx := past_box hp axis _ b hhas v hw
    obtain ⟨i, x, y, hx, hy, hxy⟩ := chain_cross (fun a => Past axis a v)
      (precision * ((if axis = 0 then b.x0 else b.y0 : Int) : K)) (cuts.map (snap precision))
      (precision * ((if axis = 0 then b.x1 else b.y1 : Int) : K)) (by tauto)
    have hi : i < slabs.length := by
      rw [h1]
      have := (List.getElem?_eq_some_iff.1 hy).1
      simp at this
      omega
    obtain ⟨x', y', hx', hy', hv'⟩ := h2 i slabs[i] (List.getElem?_eq_getElem hi)
    refine ⟨slabs[i], List.getElem_mem hi, (hv' v).2 ⟨hw, ?_⟩⟩
    unfold slabEnds at hx' hy'
    rw [hx'] at hx
    rw [hy'] at hy
    cases hx
    cases hy
    exact hxy

end Gdspy
