import Verif.Lemmas.Holes
import Verif.Lemmas.Clip
import Verif.Spec.Offset

/-!
The winding numbers of outlines with moved sides.
-/

set_option linter.unusedSectionVars false

namespace Gdspy

open Spec

variable {K : Type} [Field K] [LinearOrder K] [IsStrictOrderedRing K]

/-! ## Horizontal and vertical edges -/

/-- Is the abscissa at the right of the point? -/
def rightOf (p : Pt K) (x : Int) : Int := if p.1 < x then 1 else 0

/-- Is the ordinate not below the point? -/
def notBelow (p : Pt K) (y : Int) : Int := if p.2 ≤ y then 1 else 0

/-- The winding number of a horizontal or vertical edge. -/
def rectWind (p : Pt K) (e : IPt × IPt) : Int := rightOf p e.1.1 * (notBelow p e.2.2 - notBelow p e.1.2)

def Axis (a b : IPt) : Prop := a.1 = b.1 ∨ a.2 = b.2

theorem edgeWind_rect (p : Pt K) {a b : IPt} (h : Axis a b) : edgeWind p (gp a, gp b) = rectWind p (a, b) := by
  have hx : a.1 = b.1 → xAt (gp a : Pt K) (gp b) p.2 = a.1 := by intro h; simp [xAt, gp, h]
  unfold rectWind rightOf notBelow
  by_cases h1 : p.2 ≤ (a.2 : K) <;> by_cases h2 : p.2 ≤ (b.2 : K)
  · rw [edgeWind_none _ _ _ (by simp only [gp]; rintro ⟨h, -⟩; exact absurd h (not_lt.2 h1))
      (by simp only [gp]; rintro ⟨h, -⟩; exact absurd h (not_lt.2 h2))]
    simp [h1, h2]
  · rw [edgeWind_down _ _ _ ⟨not_le.1 h2, h1⟩, hx (h.resolve_right fun h => by rw [h] at h1; exact h2 h1)]
    simp only [h1, h2, if_true, if_false]
    split <;> simp
  · rw [edgeWind_up _ _ _ ⟨not_le.1 h1, h2⟩, hx (h.resolve_right fun h => by rw [h] at h1; exact h1 h2)]
    simp [h1, h2]
  · rw [edgeWind_none _ _ _ (by simp only [gp]; rintro ⟨-, h⟩; exact h2 h)
      (by simp only [gp]; rintro ⟨-, h⟩; exact h1 h)]
    simp [h1, h2]

theorem wind_rect (p : Pt K) {P : List IPt} (h : Rectilinear P) : wind (ofGrid P) p = ((edges P).map (rectWind p)).sum := by
  rw [wind_eq_sum]
  congr 1
  exact List.map_congr_left fun e he => edgeWind_rect p (h e he)

theorem rectWind_four (p : Pt K) (a b c d : IPt) (h1 : Axis a b) (h2 : Axis b c) (h3 : Axis c d) (h4 : Axis d a) :
    wind (ofGrid [a, b, c, d]) p = rectWind p (a, b) + rectWind p (b, c) + rectWind p (c, d) + rectWind p (d, a) := by
  rw [wind_rect p]
  · simp [edges]; ring
  · intro e he
    simp [edges] at he
    rcases he with rfl | rfl | rfl | rfl <;> assumption

theorem rectWind_swap (p : Pt K) {a b : IPt} (h : Axis a b) : rectWind p (b, a) = - rectWind p (a, b) := by
  unfold rectWind
  rcases h with h | h <;> simp only [h] <;> ring

/-! ## Moved sides -/

section
variable [FloorRing K]

/-- The point is on the moved side. -/
def OnMoved (d : K) (a b y : IPt) : Prop :=
  (a.1 = b.1 ∧ y.1 = (stepOut d a b a).1) ∨ (a.1 ≠ b.1 ∧ y.2 = (stepOut d a b a).2)

theorem onMoved_axis {d : K} {a b y z : IPt} (hy : OnMoved d a b y) (hz : OnMoved d a b z) : Axis y z := by
  rcases hy with ⟨h1, h2⟩ | ⟨h1, h2⟩ <;> rcases hz with ⟨h3, h4⟩ | ⟨h3, h4⟩
  · exact Or.inl (h2.trans h4.symm)
  · exact absurd h1 h3
  · exact absurd h3 h1
  · exact Or.inr (h2.trans h4.symm)

theorem onMoved_add (p : Pt K) {d : K} {a b x y z : IPt} (hx : OnMoved d a b x) (hy : OnMoved d a b y) (hz : OnMoved d a b z) :
    rectWind p (x, z) = rectWind p (x, y) + rectWind p (y, z) := by
  unfold rectWind
  rcases hx with ⟨h1, h2⟩ | ⟨h1, h2⟩ <;> rcases hy with ⟨h3, h4⟩ | ⟨h3, h4⟩ <;> rcases hz with ⟨h5, h6⟩ | ⟨h5, h6⟩
  all_goals first
    | exact absurd h1 h3
    | exact absurd h3 h1
    | exact absurd h1 h5
    | exact absurd h5 h1
    | (simp only [h2, h4, h6]; ring)

theorem stepOut_vert (d : K) {a b : IPt} (h : a.1 = b.1) (v : IPt) :
    stepOut d a b v = (clipRound ((v.1 : K) + if a.2 < b.2 then d else -d), v.2) := by
  unfold stepOut; rw [if_pos h]

theorem stepOut_horiz (d : K) {a b : IPt} (h : a.1 ≠ b.1) (v : IPt) :
    stepOut d a b v = (v.1, clipRound ((v.2 : K) + if a.1 < b.1 then -d else d)) := by
  unfold stepOut; rw [if_neg h]

theorem onMoved_start (d : K) (a b : IPt) : OnMoved d a b (stepOut d a b a) := by
  by_cases h : a.1 = b.1
  · exact Or.inl ⟨h, rfl⟩
  · exact Or.inr ⟨h, rfl⟩

theorem onMoved_end (d : K) {a b : IPt} (h : Axis a b) : OnMoved d a b (stepOut d a b b) := by
  by_cases h' : a.1 = b.1
  · refine Or.inl ⟨h', ?_⟩
    rw [stepOut_vert d h', stepOut_vert d h', h']
  · refine Or.inr ⟨h', ?_⟩
    rw [stepOut_horiz d h', stepOut_horiz d h', h.resolve_left h']

theorem stepOut_axis (d : K) (a b v : IPt) : Axis v (stepOut d a b v) := by
  unfold stepOut
  split
  · exact Or.inr rfl
  · exact Or.inl rfl

theorem Axis.symm {a b : IPt} (h : Axis a b) : Axis b a := h.imp Eq.symm Eq.symm

/-- What is known of three vertices in a row. -/
structure GoodCorner (a v b : IPt) : Prop where
  first : Axis a v
  second : Axis v b
  ne1 : a ≠ v
  ne2 : v ≠ b
  on : turn a v b ≠ 0 ∨ 0 < onward a v b

/-- The points that are drawn at a corner. -/
def cornerPts (d : K) (c : IPt × IPt × IPt) : List IPt :=
  if turn c.1 c.2.1 c.2.2 = 0 then [stepOut d c.1 c.2.1 c.2.1]
  else if Gap d c then [stepOut d c.2.1 c.2.2 (stepOut d c.1 c.2.1 c.2.1)]
  else [stepOut d c.1 c.2.1 c.2.1, c.2.1, stepOut d c.2.1 c.2.2 c.2.1]

/-- One side is vertical if and only if the other is not, at a turn. -/
theorem GoodCorner.cross {a v b : IPt} (h : GoodCorner a v b) (ht : turn a v b ≠ 0) : a.1 = v.1 ↔ v.1 ≠ b.1 := by
  unfold turn at ht
  constructor
  · intro h1 h2
    apply ht; rw [h1, h2]; ring
  · intro h1
    by_contra h2
    apply ht
    rw [h.first.resolve_left h2, h.second.resolve_left h1]; ring

/-- Straight on: the same direction. -/
theorem GoodCorner.straight {a v b : IPt} (h : GoodCorner a v b) (ht : turn a v b = 0) :
    (a.1 = v.1 ∧ v.1 = b.1 ∧ (a.2 < v.2 ↔ v.2 < b.2)) ∨ (a.1 ≠ v.1 ∧ v.1 ≠ b.1 ∧ a.2 = v.2 ∧ v.2 = b.2 ∧ (a.1 < v.1 ↔ v.1 < b.1)) := by
  have ho := h.on.resolve_left (fun h' => h' ht)
  obtain ⟨a1, a2⟩ := a
  obtain ⟨v1, v2⟩ := v
  obtain ⟨b1, b2⟩ := b
  have n1 := h.ne1
  have n2 := h.ne2
  rcases h.first with h1 | h1 <;> rcases h.second with h2 | h2
  all_goals simp only [turn, onward, ne_eq, Prod.mk.injEq, not_and] at h1 h2 ht ho n1 n2 ⊢
  · left
    subst h1; subst h2
    have n1 := n1 rfl
    have n2 := n2 rfl
    refine ⟨rfl, rfl, ?_⟩
    rcases lt_or_gt_of_ne n1 with h | h <;> rcases lt_or_gt_of_ne n2 with h' | h'
    · simp [h, h']
    · nlinarith
    · nlinarith
    · constructor <;> intro <;> omega
  · exfalso
    subst h1; subst h2
    simp at ho
  · exfalso
    subst h1; subst h2
    simp at ho
  · right
    subst h1; subst h2
    have n1 : ¬ a1 = v1 := fun h => n1 h rfl
    have n2 : ¬ v1 = b1 := fun h => n2 h rfl
    refine ⟨n1, n2, rfl, rfl, ?_⟩
    rcases lt_or_gt_of_ne n1 with h | h <;> rcases lt_or_gt_of_ne n2 with h' | h'
    · simp [h, h']
    · nlinarith
    · nlinarith
    · constructor <;> intro <;> omega

theorem straight_step (d : K) {a v b : IPt} (h : GoodCorner a v b) (ht : turn a v b = 0) (y : IPt) : stepOut d a v y = stepOut d v b y := by
  rcases h.straight ht with ⟨h1, h2, h3⟩ | ⟨h1, h2, -, -, h3⟩
  · rw [stepOut_vert d h1, stepOut_vert d h2]; simp only [h3]
  · rw [stepOut_horiz d h1, stepOut_horiz d h2]; simp only [h3]

/-- The corner between the moved sides is on both. -/
theorem corner_on (d : K) {a v b : IPt} (h : GoodCorner a v b) (ht : turn a v b ≠ 0) :
    OnMoved d a v (stepOut d v b (stepOut d a v v)) ∧ OnMoved d v b (stepOut d v b (stepOut d a v v)) := by
  have hc := h.cross ht
  by_cases h1 : a.1 = v.1
  · have h2 := hc.1 h1
    have e := onMoved_end d h.first
    constructor
    · rcases e with ⟨_, e⟩ | ⟨e, _⟩
      · exact Or.inl ⟨h1, by rw [stepOut_horiz d h2]; exact e⟩
      · exact absurd h1 e
    · refine Or.inr ⟨h2, ?_⟩
      rw [stepOut_horiz d h2, stepOut_horiz d h2, stepOut_vert d h1]
  · have h2 : v.1 = b.1 := by by_contra h; exact h1 (hc.2 h)
    have e := onMoved_end d h.first
    constructor
    · rcases e with ⟨e, _⟩ | ⟨_, e⟩
      · exact absurd e h1
      · exact Or.inr ⟨h1, by rw [stepOut_vert d h2]; exact e⟩
    · refine Or.inl ⟨h2, ?_⟩
      rw [stepOut_vert d h2, stepOut_vert d h2, stepOut_horiz d h1]

/-- The winding number of a band. -/
theorem band_wind (p : Pt K) (d : K) {a b : IPt} (h : Axis a b) : wind (ofGrid (band d (a, b))) p =
    rectWind p (a, stepOut d a b a) + rectWind p (stepOut d a b a, stepOut d a b b) + rectWind p (stepOut d a b b, b) +
      rectWind p (b, a) :=
  rectWind_four p _ _ _ _ (stepOut_axis d a b a) (onMoved_axis (onMoved_start d a b) (onMoved_end d h)) (stepOut_axis d a b b).symm h.symm

theorem box_wind (p : Pt K) (d : K) {a v b : IPt} (h : GoodCorner a v b) (ht : turn a v b ≠ 0) :
    wind (ofGrid (cornerBox d (a, v, b))) p =
      rectWind p (v, stepOut d a v v) + rectWind p (stepOut d a v v, stepOut d v b (stepOut d a v v)) +
      rectWind p (stepOut d v b (stepOut d a v v), stepOut d v b v) + rectWind p (stepOut d v b v, v) :=
  rectWind_four p _ _ _ _ (stepOut_axis d a v v) (stepOut_axis d v b _)
    (onMoved_axis (corner_on d h ht).2 (onMoved_start d v b)) (stepOut_axis d v b v).symm

/-- The winding number of the rectangle at a corner, if there is one. -/
def boxWind (d : K) (p : Pt K) (c : IPt × IPt × IPt) : Int := if Gap d c then wind (ofGrid (cornerBox d c)) p else 0

/-- The way around one corner. -/
theorem cornerPts_path (p : Pt K) (d : K) {a v b x : IPt} (h : GoodCorner a v b) (hx : OnMoved d a v x) :
    ∃ y, (cornerPts d (a, v, b)).getLast? = some y ∧ OnMoved d v b y ∧
      (∀ e ∈ pathEdges x (cornerPts d (a, v, b)), Axis e.1 e.2) ∧
      pathSum (rectWind p) x (cornerPts d (a, v, b)) + rectWind p (y, stepOut d v b v) =
        rectWind p (x, stepOut d a v v) + rectWind p (stepOut d a v v, v) + rectWind p (v, stepOut d v b v) + boxWind d p (a, v, b) := by
  have hA := onMoved_end d h.first
  have hB := onMoved_start d v b
  have sA : rectWind p (v, stepOut d a v v) = - rectWind p (stepOut d a v v, v) :=
    rectWind_swap p (stepOut_axis d a v v).symm
  have sB : rectWind p (stepOut d v b v, v) = - rectWind p (v, stepOut d v b v) := rectWind_swap p (stepOut_axis d v b v)
  unfold cornerPts boxWind
  by_cases ht : turn a v b = 0
  · have hg : ¬ Gap d (a, v, b) := by unfold Gap; simp [ht]
    simp only [if_pos ht, if_neg hg]
    refine ⟨stepOut d a v v, rfl, ?_, ?_, ?_⟩
    · rw [straight_step d h ht]; exact hB
    · simpa [pathEdges] using onMoved_axis hx hA
    · simp only [pathSum]
      rw [straight_step d h ht] at sA ⊢
      have : rectWind p (stepOut d v b v, stepOut d v b v) = 0 := by simp [rectWind]
      omega
  · simp only [if_neg ht]
    by_cases hg : Gap d (a, v, b)
    · simp only [if_pos hg]
      obtain ⟨m1, m2⟩ := corner_on d h ht
      refine ⟨stepOut d v b (stepOut d a v v), rfl, m2, ?_, ?_⟩
      · simpa [pathEdges] using onMoved_axis hx m1
      · rw [box_wind p d h ht, sA, sB]
        simp only [pathSum]
        rw [onMoved_add p hx hA m1]
        ring
    · simp only [if_neg hg]
      refine ⟨stepOut d v b v, rfl, hB, ?_, ?_⟩
      · simp only [pathEdges, List.mem_cons, List.not_mem_nil, or_false]
        rintro e (rfl | rfl | rfl)
        · exact onMoved_axis hx hA
        · exact (stepOut_axis d a v v).symm
        · exact stepOut_axis d v b v
      · simp only [pathSum]
        have : rectWind p (stepOut d v b v, stepOut d v b v) = 0 := by simp [rectWind]
        rw [this]; ring

/-! ## All corners -/

/-- The corners of an open path. -/
def trips {α : Type} : α → α → List α → List (α × α × α)
  | _, _, [] => []
  | a, v, b :: l => (a, v, b) :: trips v b l

theorem pathSum_two {α M : Type} [AddCommGroup M] (f : α × α → M) (a : α) (l : List α) (y : α) (hy : l.getLast? = some y) (m : List α) :
    pathSum f a (l ++ m) = pathSum f a l + pathSum f y m := by
  obtain ⟨l', rfl⟩ := List.getLast?_eq_some_iff.1 hy
  rw [List.append_assoc, List.singleton_append, pathSum_append]

theorem pathEdges_two {α : Type} (a : α) (l : List α) (y : α) (hy : l.getLast? = some y) (m : List α) :
    pathEdges a (l ++ m) = pathEdges a l ++ pathEdges y m := by
  obtain ⟨l', rfl⟩ := List.getLast?_eq_some_iff.1 hy
  rw [List.append_assoc, List.singleton_append, pathEdges_append]

/-- The way around all corners. -/
theorem trips_path (p : Pt K) (d : K) (l : List IPt) (a v x u w : IPt) (h : ∀ c ∈ trips a v l, GoodCorner c.1 c.2.1 c.2.2)
    (hx : OnMoved d a v x) (hl : (pathEdges v l).getLast? = some (u, w)) :
    ∃ y, ((trips a v l).flatMap (cornerPts d)).getLast? = some y ∧ OnMoved d u w y ∧
      (∀ e ∈ pathEdges x ((trips a v l).flatMap (cornerPts d)), Axis e.1 e.2) ∧
      pathSum (rectWind p) x ((trips a v l).flatMap (cornerPts d)) + rectWind p (y, stepOut d u w w) =
        rectWind p (x, stepOut d a v v) + rectWind p (stepOut d a v v, v) - rectWind p (stepOut d u w w, w) +
        ((trips a v l).map fun c => rectWind p c.2 + wind (ofGrid (band d c.2)) p + boxWind d p c).sum := by
  induction l generalizing a v x with
  | nil => simp [pathEdges] at hl
  | cons b l ih =>
    have hg := h (a, v, b) (by simp [trips])
    obtain ⟨y, h1, h2, h3, h4⟩ := cornerPts_path p d hg hx
    have hE := onMoved_end d hg.second
    have hB := onMoved_start d v b
    have hb := band_wind p d hg.second
    have s1 : rectWind p (b, v) = - rectWind p (v, b) := rectWind_swap p hg.second
    have s2 := onMoved_add p h2 hB hE
    rw [trips, List.flatMap_cons, List.map_cons, List.sum_cons]
    cases l with
    | nil =>
      simp only [pathEdges, List.getLast?_singleton, Option.some.injEq, Prod.mk.injEq] at hl
      obtain ⟨rfl, rfl⟩ := hl
      simp only [trips, List.flatMap_nil, List.append_nil, List.map_nil, List.sum_nil, add_zero]
      refine ⟨y, h1, h2, h3, ?_⟩
      rw [hb, s2]
      linarith
    | cons b' l =>
      have hl' : (pathEdges b (b' :: l)).getLast? = some (u, w) := by
        rw [pathEdges] at hl
        rw [pathEdges] at hl ⊢
        rwa [List.getLast?_cons_cons] at hl
      obtain ⟨z, h5, h6, h7, h8⟩ := ih v b y (fun c hc => h c (by rw [trips]; exact List.mem_cons_of_mem _ hc)) h2 hl'
      refine ⟨z, ?_, h6, ?_, ?_⟩
      · rw [List.getLast?_append, h5]; rfl
      · rw [pathEdges_two x _ y h1]
        intro e he
        rcases List.mem_append.1 he with he | he
        · exact h3 e he
        · exact h7 e he
      · rw [pathSum_two _ x _ y h1, hb]
        rw [s2] at h8
        linarith

/-! ## Closed outlines -/

theorem trips_zip {α : Type} (a v : α) (l : List α) (x y : α) :
    trips a v (l ++ [x, y]) = (a :: v :: l).zip (pathEdges v (l ++ [x, y])) := by
  induction l generalizing a v with
  | nil => rfl
  | cons b l ih => simp only [List.cons_append, trips, pathEdges, List.zip_cons_cons, ih]

theorem corners_trips {α : Type} (v : α) (l : List α) (z : α) : corners (v :: (l ++ [z])) = trips z v (l ++ [z, v]) := by
  have h1 : (v :: (l ++ [z])).rotate ((v :: (l ++ [z])).length - 1) = z :: v :: l := by
    have := List.rotate_append_length_eq (v :: l) [z]
    simp only [List.cons_append, List.length_cons, List.length_append, List.length_nil, Nat.zero_add, Nat.add_sub_cancel,
      List.nil_append] at this ⊢
    exact this
  unfold corners
  rw [h1, edges_path, trips_zip, List.append_assoc]
  rfl

/-- The sides after the corners are all sides. -/
theorem corners_sides {α : Type} (P : List α) : (corners P).map Prod.snd = edges P := by
  unfold corners
  rw [List.map_snd_zip]
  simp [edges_length]

theorem corners_sides_before {α : Type} (P : List α) (hP : P ≠ []) {c : α × α × α} (hc : c ∈ corners P) : (c.1, c.2.1) ∈ edges P := by
  have h1 : (P.rotate (P.length - 1)).rotate 1 = P := by
    rw [List.rotate_rotate]
    have : P.length - 1 + 1 = P.length := by
      have := List.length_pos_iff.2 hP
      omega
    rw [this, List.rotate_length]
  rw [mem_edges_rotated ⟨P.length - 1, rfl⟩]
  unfold corners at hc
  unfold edges at hc ⊢
  rw [h1]
  generalize P.rotate (P.length - 1) = Q at hc
  have key : ∀ (Q R S : List α) (c : α × α × α), c ∈ Q.zip (R.zip S) → (c.1, c.2.1) ∈ Q.zip R := by
    intro Q
    induction Q with
    | nil => simp
    | cons q Q ih =>
      intro R S c
      cases R with
      | nil => simp
      | cons r R =>
        cases S with
        | nil => simp
        | cons s S =>
          simp only [List.zip_cons_cons, List.mem_cons]
          rintro (rfl | h)
          · exact Or.inl rfl
          · exact Or.inr (ih R S c h)
  exact key _ _ _ _ hc

theorem Spec.Outline.good {P : List IPt} (h : Outline P) : ∀ c ∈ corners P, GoodCorner c.1 c.2.1 c.2.2 := by
  intro c hc
  have hP : P ≠ [] := by
    rintro rfl
    exact absurd h.three (by simp)
  have h1 := corners_sides_before P hP hc
  have h2 : (c.2.1, c.2.2) ∈ edges P := by
    rw [← corners_sides]
    exact List.mem_map.2 ⟨c, hc, rfl⟩
  exact ⟨h.rectilinear _ h1, h.rectilinear _ h2, h.distinct _ h1, h.distinct _ h2, h.onwards c hc⟩

/-- The outline with moved sides. -/
def movedOutline (d : K) (P : List IPt) : List IPt := (corners P).flatMap (cornerPts d)

theorem moved_wind {P : List IPt} (h : Outline P) (d : K) (p : Pt K) : Rectilinear (movedOutline d P) ∧
    wind (ofGrid (movedOutline d P)) p = wind (ofGrid P) p + ((edges P).map fun e => wind (ofGrid (band d e)) p).sum +
      ((corners P).map (boxWind d p)).sum := by
  have hgood := h.good
  obtain ⟨v, l, z, rfl⟩ : ∃ v l z, P = v :: (l ++ [z]) := by
    have h3 := h.three
    cases P with
    | nil => simp at h3
    | cons v m =>
      rcases List.eq_nil_or_concat m with rfl | ⟨l, z, rfl⟩
      · simp at h3
      · exact ⟨v, l, z, by rw [List.concat_eq_append]⟩
  unfold movedOutline
  have hs : ((corners (v :: (l ++ [z]))).map fun c => rectWind p c.2 + wind (ofGrid (band d c.2)) p + boxWind d p c).sum =
      wind (ofGrid (v :: (l ++ [z]))) p + ((edges (v :: (l ++ [z]))).map fun e => wind (ofGrid (band d e)) p).sum +
      ((corners (v :: (l ++ [z]))).map (boxWind d p)).sum := by
    rw [List.sum_map_add, List.sum_map_add, wind_rect p h.rectilinear, ← corners_sides, List.map_map, List.map_map]
    rfl
  rw [← hs]
  clear hs
  rw [corners_trips] at hgood ⊢
  have hlast : (pathEdges v (l ++ [z, v])).getLast? = some (z, v) := by
    rw [pathEdges_append]; simp [pathEdges]
  obtain ⟨y, h1, h2, -, -⟩ := trips_path p d _ z v (stepOut d z v z) z v hgood (onMoved_start d z v) hlast
  obtain ⟨y', h3, -, h4, h5⟩ := trips_path p d _ z v y z v hgood h2 hlast
  rw [h1, Option.some.injEq] at h3
  subst h3
  obtain ⟨R, hR⟩ := List.getLast?_eq_some_iff.1 h1
  rw [hR] at h4 h5 ⊢
  have hrot : (y :: R).IsRotated (R ++ [y]) := by
    refine ⟨1, ?_⟩
    rw [List.rotate_cons_succ, List.rotate_zero]
  have hrect : Rectilinear (R ++ [y]) := by
    intro e he
    rw [← mem_edges_rotated hrot, edges_path] at he
    exact h4 e he
  refine ⟨hrect, ?_⟩
  rw [wind_rect p hrect, ← sum_edges_rotated _ hrot, sum_edges_cons]
  linarith

/-! ## Signs -/

theorem rightOf_mono (p : Pt K) {x y : Int} (h : x ≤ y) : 0 ≤ rightOf p y - rightOf p x ∧ rightOf p y - rightOf p x ≤ 1 := by
  unfold rightOf
  have h' : (x : K) ≤ y := Int.cast_le.2 h
  split <;> split <;> simp
  rename_i h1 h2
  exact absurd (h2.trans_le h') h1

theorem notBelow_mono (p : Pt K) {x y : Int} (h : x ≤ y) : 0 ≤ notBelow p y - notBelow p x ∧ notBelow p y - notBelow p x ≤ 1 := by
  unfold notBelow
  have h' : (x : K) ≤ y := Int.cast_le.2 h
  split <;> split <;> simp
  rename_i h1 h2
  exact absurd (h2.trans h') h1

theorem mul_unit {a b : Int} (ha : 0 ≤ a ∧ a ≤ 1) (hb : 0 ≤ b ∧ b ≤ 1) : 0 ≤ a * b ∧ a * b ≤ 1 := by
  obtain ⟨h1, h2⟩ := ha
  obtain ⟨h3, h4⟩ := hb
  rcases (by omega : a = 0 ∨ a = 1) with rfl | rfl <;> omega

theorem clipRound_up {d : K} (hd : 0 ≤ d) (x : Int) : x ≤ clipRound ((x : K) + d) := by
  have := clipRound_mono (le_add_of_nonneg_right hd : (x : K) ≤ x + d)
  rwa [clipRound_int] at this

theorem clipRound_down {d : K} (hd : d ≤ 0) (x : Int) : clipRound ((x : K) + d) ≤ x := by
  have := clipRound_mono (add_le_of_nonpos_right hd : (x : K) + d ≤ x)
  rwa [clipRound_int] at this

/-- The winding number of the band of a vertical side. -/
theorem band_vert (p : Pt K) (d : K) {a b : IPt} (h : a.1 = b.1) : wind (ofGrid (band d (a, b))) p =
    (rightOf p (clipRound ((a.1 : K) + if a.2 < b.2 then d else -d)) - rightOf p a.1) * (notBelow p b.2 - notBelow p a.2) := by
  rw [band_wind p d (Or.inl h), stepOut_vert d h, stepOut_vert d h]
  simp only [rectWind, h]
  ring

/-- The winding number of the band of a horizontal side. -/
theorem band_horiz (p : Pt K) (d : K) {a b : IPt} (h : a.1 ≠ b.1) (h2 : a.2 = b.2) : wind (ofGrid (band d (a, b))) p =
    (rightOf p b.1 - rightOf p a.1) * (notBelow p a.2 - notBelow p (clipRound ((a.2 : K) + if a.1 < b.1 then -d else d))) := by
  rw [band_wind p d (Or.inr h2), stepOut_horiz d h, stepOut_horiz d h]
  simp only [rectWind, h2]
  ring

theorem band_sign (p : Pt K) {d : K} {a b : IPt} (h : Axis a b) :
    (0 ≤ d → 0 ≤ wind (ofGrid (band d (a, b))) p ∧ wind (ofGrid (band d (a, b))) p ≤ 1) ∧
    (d ≤ 0 → -1 ≤ wind (ofGrid (band d (a, b))) p ∧ wind (ofGrid (band d (a, b))) p ≤ 0) := by
  by_cases h1 : a.1 = b.1
  · rw [band_vert p d h1]
    by_cases h2 : a.2 < b.2
    · rw [if_pos h2]
      have hn := notBelow_mono p h2.le
      constructor
      · intro hd; exact mul_unit (rightOf_mono p (clipRound_up hd a.1)) hn
      · intro hd
        have := mul_unit (rightOf_mono p (clipRound_down hd a.1)) hn
        constructor <;> linarith
    · rw [if_neg h2]
      have hn := notBelow_mono p (not_lt.1 h2)
      constructor
      · intro hd
        have := mul_unit (rightOf_mono p (clipRound_down (neg_nonpos.2 hd) a.1)) hn
        constructor <;> linarith
      · intro hd
        have := mul_unit (rightOf_mono p (clipRound_up (neg_nonneg.2 hd) a.1)) hn
        constructor <;> linarith
  · rw [band_horiz p d h1 (h.resolve_left h1)]
    by_cases h2 : a.1 < b.1
    · rw [if_pos h2]
      have hn := rightOf_mono p h2.le
      constructor
      · intro hd; exact mul_unit hn (notBelow_mono p (clipRound_down (neg_nonpos.2 hd) a.2))
      · intro hd
        have := mul_unit hn (notBelow_mono p (clipRound_up (neg_nonneg.2 hd) a.2))
        constructor <;> linarith
    · rw [if_neg h2]
      have hn := rightOf_mono p (not_lt.1 h2)
      constructor
      · intro hd
        have := mul_unit hn (notBelow_mono p (clipRound_up hd a.2))
        constructor <;> linarith
      · intro hd
        have := mul_unit hn (notBelow_mono p (clipRound_down hd a.2))
        constructor <;> linarith

theorem gap_turn {d : K} {a v b : IPt} (h : Gap d (a, v, b)) : turn a v b ≠ 0 := by
  intro h'
  unfold Gap at h
  rw [h'] at h
  simp at h

theorem gap_left {d : K} (hd : 0 ≤ d) {a v b : IPt} (h : Gap d (a, v, b)) : 0 < turn a v b := by
  unfold Gap at h
  have := pos_of_mul_pos_left h hd
  exact_mod_cast this

theorem gap_right {d : K} (hd : d ≤ 0) {a v b : IPt} (h : Gap d (a, v, b)) : turn a v b < 0 := by
  unfold Gap at h
  have := neg_of_mul_pos_left h hd
  exact_mod_cast this

theorem box_sign (p : Pt K) {d : K} {a v b : IPt} (h : GoodCorner a v b) :
    (0 ≤ d → 0 ≤ boxWind d p (a, v, b) ∧ boxWind d p (a, v, b) ≤ 1) ∧
    (d ≤ 0 → -1 ≤ boxWind d p (a, v, b) ∧ boxWind d p (a, v, b) ≤ 0) := by
  unfold boxWind
  by_cases hg : Gap d (a, v, b)
  · rw [if_pos hg]
    have ht := gap_turn hg
    have hc := h.cross ht
    rw [box_wind p d h ht]
    by_cases h1 : a.1 = v.1
    · have h2 := hc.1 h1
      have h2' := h.second.resolve_left h2
      have n1 : a.2 ≠ v.2 := fun h' => h.ne1 (Prod.ext h1 h')
      rw [stepOut_vert d h1, stepOut_horiz d h2, stepOut_horiz d h2]
      have tv : turn a v b = (v.2 - a.2) * (v.1 - b.1) := by unfold turn; rw [h1, h2']; ring
      have e : ∀ x' y' : Int, rectWind p (v, (x', v.2)) + rectWind p ((x', v.2), (x', y')) + rectWind p ((x', y'), (v.1, y')) +
          rectWind p ((v.1, y'), v) = (rightOf p x' - rightOf p v.1) * (notBelow p y' - notBelow p v.2) := by
        intro x' y'; simp only [rectWind]; ring
      simp only []
      rw [e]
      constructor
      · intro hd
        have hl := gap_left hd hg
        rw [tv] at hl
        rcases lt_or_gt_of_ne n1 with h3 | h3
        · have h4 : b.1 < v.1 := by nlinarith
          rw [if_pos h3, if_neg (by omega)]
          exact mul_unit (rightOf_mono p (clipRound_up hd v.1)) (notBelow_mono p (clipRound_up hd v.2))
        · have h4 : v.1 < b.1 := by nlinarith
          rw [if_neg (by omega), if_pos h4]
          have := mul_unit (rightOf_mono p (clipRound_down (neg_nonpos.2 hd) v.1)) (notBelow_mono p (clipRound_down (neg_nonpos.2 hd) v.2))
          constructor <;> linarith
      · intro hd
        have hl := gap_right hd hg
        rw [tv] at hl
        rcases lt_or_gt_of_ne n1 with h3 | h3
        · have h4 : v.1 < b.1 := by nlinarith
          rw [if_pos h3, if_pos h4]
          have := mul_unit (rightOf_mono p (clipRound_down hd v.1)) (notBelow_mono p (clipRound_up (neg_nonneg.2 hd) v.2))
          constructor <;> linarith
        · have h4 : b.1 < v.1 := by nlinarith
          rw [if_neg (by omega), if_neg (by omega)]
          have := mul_unit (rightOf_mono p (clipRound_up (neg_nonneg.2 hd) v.1)) (notBelow_mono p (clipRound_down hd v.2))
          constructor <;> linarith
    · have h2 : v.1 = b.1 := by by_contra h; exact h1 (hc.2 h)
      have h1' := h.first.resolve_left h1
      have n2 : v.2 ≠ b.2 := fun h' => h.ne2 (Prod.ext h2 h')
      rw [stepOut_horiz d h1, stepOut_vert d h2, stepOut_vert d h2]
      have tv : turn a v b = (v.1 - a.1) * (b.2 - v.2) := by unfold turn; rw [h1', h2]; ring
      have e : ∀ x' y' : Int, rectWind p (v, (v.1, y')) + rectWind p ((v.1, y'), (x', y')) + rectWind p ((x', y'), (x', v.2)) +
          rectWind p ((x', v.2), v) = (rightOf p x' - rightOf p v.1) * (notBelow p v.2 - notBelow p y') := by
        intro x' y'; simp only [rectWind]; ring
      simp only []
      rw [e]
      constructor
      · intro hd
        have hl := gap_left hd hg
        rw [tv] at hl
        rcases lt_or_gt_of_ne n2 with h3 | h3
        · have h4 : a.1 < v.1 := by nlinarith
          rw [if_pos h3, if_pos h4]
          exact mul_unit (rightOf_mono p (clipRound_up hd v.1)) (notBelow_mono p (clipRound_down (neg_nonpos.2 hd) v.2))
        · have h4 : v.1 < a.1 := by nlinarith
          rw [if_neg (by omega), if_neg (by omega)]
          have := mul_unit (rightOf_mono p (clipRound_down (neg_nonpos.2 hd) v.1)) (notBelow_mono p (clipRound_up hd v.2))
          constructor <;> linarith
      · intro hd
        have hl := gap_right hd hg
        rw [tv] at hl
        rcases lt_or_gt_of_ne n2 with h3 | h3
        · have h4 : v.1 < a.1 := by nlinarith
          rw [if_pos h3, if_neg (by omega)]
          have := mul_unit (rightOf_mono p (clipRound_down hd v.1)) (notBelow_mono p (clipRound_down hd v.2))
          constructor <;> linarith
        · have h4 : a.1 < v.1 := by nlinarith
          rw [if_neg (by omega), if_pos h4]
          have := mul_unit (rightOf_mono p (clipRound_up (neg_nonneg.2 hd) v.1)) (notBelow_mono p (clipRound_up (neg_nonneg.2 hd) v.2))
          constructor <;> linarith
  · rw [if_neg hg]; simp

theorem sum_count {α : Type} (l : List α) (f : α → Int) (P : α → Bool) (s : Int) (h : ∀ a ∈ l, f a = if P a then s else 0) :
    (l.map f).sum = s * l.countP P := by
  induction l with
  | nil => simp
  | cons a l ih =>
    rw [List.map_cons, List.sum_cons, h a (by simp), ih fun x hx => h x (List.mem_cons_of_mem _ hx), List.countP_cons]
    split <;> push_cast <;> ring

/-- Moved to the right, the winding number grows by one in every band and corner rectangle. -/
theorem moved_right {P : List IPt} (h : Outline P) {d : K} (hd : 0 ≤ d) (p : Pt K) :
    wind (ofGrid (movedOutline d P)) p = wind (ofGrid P) p + margin d P p := by
  rw [(moved_wind h d p).2, sum_count _ _ (fun e => decide (wind (ofGrid (band d e)) p ≠ 0)) 1,
    sum_count _ _ (fun c => decide (Gap d c ∧ wind (ofGrid (cornerBox d c)) p ≠ 0)) 1]
  · unfold margin; push_cast; ring
  · intro c hc
    have := (box_sign p (h.good c hc)).1 hd
    simp only [Prod.mk.eta] at this
    unfold boxWind at this ⊢
    by_cases hg : Gap d c
    · simp only [hg, if_true, true_and] at this ⊢
      by_cases h0 : wind (ofGrid (cornerBox d c)) p = 0
      · simp [h0]
      · simp only [h0, ne_eq, not_false_eq_true, decide_true, if_true]; omega
    · simp [hg]
  · intro e he
    have := (band_sign p (h.rectilinear e he)).1 hd
    simp only [Prod.mk.eta] at this
    by_cases h0 : wind (ofGrid (band d e)) p = 0
    · simp [h0]
    · simp only [h0, ne_eq, not_false_eq_true, decide_true, if_true]; omega

/-- Moved to the left, it gets smaller. -/
theorem moved_left {P : List IPt} (h : Outline P) {d : K} (hd : d ≤ 0) (p : Pt K) :
    wind (ofGrid (movedOutline d P)) p = wind (ofGrid P) p - margin d P p := by
  rw [(moved_wind h d p).2, sum_count _ _ (fun e => decide (wind (ofGrid (band d e)) p ≠ 0)) (-1),
    sum_count _ _ (fun c => decide (Gap d c ∧ wind (ofGrid (cornerBox d c)) p ≠ 0)) (-1)]
  · unfold margin; push_cast; ring
  · intro c hc
    have := (box_sign p (h.good c hc)).2 hd
    simp only [Prod.mk.eta] at this
    unfold boxWind at this ⊢
    by_cases hg : Gap d c
    · simp only [hg, if_true, true_and] at this ⊢
      by_cases h0 : wind (ofGrid (cornerBox d c)) p = 0
      · simp [h0]
      · simp only [h0, ne_eq, not_false_eq_true, decide_true, if_true]; omega
    · simp [hg]
  · intro e he
    have := (band_sign p (h.rectilinear e he)).2 hd
    simp only [Prod.mk.eta] at this
    by_cases h0 : wind (ofGrid (band d e)) p = 0
    · simp [h0]
    · simp only [h0, ne_eq, not_false_eq_true, decide_true, if_true]; omega

theorem margin_pos {d : K} {P : List IPt} {p : Pt K} : 0 < margin d P p ↔ InMargin d P p := by
  unfold margin InMargin
  rw [Nat.add_pos_iff_pos_or_pos, List.countP_pos_iff, List.countP_pos_iff]
  simp

end

end Gdspy
