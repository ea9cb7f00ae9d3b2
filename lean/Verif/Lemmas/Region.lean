import Mathlib.Tactic.Ring
import Mathlib.Tactic.Abel
import Mathlib.Tactic.Linarith
import Mathlib.Tactic.FieldSimp
import Mathlib.Algebra.Order.Ring.Abs
import Verif.Spec.Region
import Verif.Spec.Plane

/-!
Lemmas about winding numbers: reversal, scaling, points outside of the bounding box, rectangles.
-/

set_option linter.unusedSectionVars false

namespace Gdspy

open Gdspy.Spec

section Edges

variable {α β : Type}

theorem edges_nil : edges ([] : List α) = [] := rfl

theorem edges_cons (a : α) (l : List α) : edges (a :: l) = (a :: l).zip (l ++ [a]) := by
  simp [edges, List.rotate_cons_succ]

theorem edges_length (l : List α) : (edges l).length = l.length := by
  simp [edges]

theorem edges_map (f : α → β) (l : List α) : edges (l.map f) = (edges l).map (Prod.map f f) := by
  unfold edges
  rw [← List.map_rotate, List.zip_map]

theorem edges_rotate (l : List α) (n : Nat) : edges (l.rotate n) = (edges l).rotate n := by
  unfold edges
  rw [List.rotate_rotate, Nat.add_comm, ← List.rotate_rotate]
  simp only [List.zip]
  rw [← List.zipWith_rotate_distrib _ _ _ _ (by simp)]

theorem zip_swap_eq (l m : List α) : (m.zip l).map Prod.swap = l.zip m := by
  induction l generalizing m with
  | nil => simp
  | cons a l ih => cases m <;> simp [ih]

theorem edges_reverse_perm (l : List α) : (edges l.reverse).Perm ((edges l).map Prod.swap) := by
  have hq : l.reverse.rotate 1 = (l.rotate (l.length - 1 % l.length)).reverse := List.rotate_reverse l 1
  have hr : (l.rotate (l.length - 1 % l.length)).rotate 1 = l := by
    rw [List.rotate_rotate]
    rcases l with _ | ⟨a, _ | ⟨b, l⟩⟩
    · simp
    · simp
    · have : (a :: b :: l).length - 1 % (a :: b :: l).length + 1 = (a :: b :: l).length := by
        rw [Nat.mod_eq_of_lt (by simp)]
        simp
      rw [this, List.rotate_length]
  have hp : (edges (l.rotate (l.length - 1 % l.length))).Perm (edges l) := by
    rw [edges_rotate]; exact List.rotate_perm _ _
  generalize l.rotate (l.length - 1 % l.length) = q at hq hr hp
  have hl : l.length = q.length := by rw [← hr, List.length_rotate]
  have h1 : edges l.reverse = (l.zip q).reverse := by
    unfold edges
    rw [hq]
    exact (List.reverse_zipWith hl).symm
  have h2 : l.zip q = (edges q).map Prod.swap := by
    unfold edges
    rw [hr]
    rw [← zip_swap_eq l q]
  rw [h1, h2]
  exact (List.reverse_perm _).trans (hp.map _)

theorem mem_edges {l : List α} {e : α × α} (h : e ∈ edges l) : e.1 ∈ l ∧ e.2 ∈ l := by
  have := List.of_mem_zip h
  exact ⟨this.1, List.mem_rotate.1 this.2⟩

/-- A function of the end points cancels around the outline. -/
theorem edges_telescope {M : Type} [AddCommGroup M] (g : α → M) (l : List α) :
    ((edges l).map fun e => g e.2 - g e.1).sum = 0 := by
  have h1 : ((edges l).map fun e => g e.2 - g e.1).sum =
      ((edges l).map fun e => g e.2).sum - ((edges l).map fun e => g e.1).sum := by
    induction edges l with
    | nil => simp
    | cons a l ih => simp [ih]; abel
  have h2 : (edges l).map (fun e => g e.1) = l.map g := by
    have := List.map_fst_zip (l₁ := l) (l₂ := l.rotate 1) (by simp)
    unfold edges
    conv_rhs => rw [← this]
    rw [List.map_map]; rfl
  have h3 : (edges l).map (fun e => g e.2) = (l.rotate 1).map g := by
    have := List.map_snd_zip (l₁ := l) (l₂ := l.rotate 1) (by simp)
    unfold edges
    conv_rhs => rw [← this]
    rw [List.map_map]; rfl
  rw [h1, h2, h3, ((List.rotate_perm l 1).map g).sum_eq, sub_self]

end Edges

variable {K : Type} [Field K] [LinearOrder K]

theorem shoelace_edges (P : Pgon K) :
    shoelace P = ((edges P).map fun e => e.1.1 * e.2.2 - e.2.1 * e.1.2).sum := by
  unfold shoelace edges
  rw [← List.map_uncurry_zip_eq_zipWith]; rfl

theorem xAt_swap (a b : Pt K) (y : K) (h : a.2 ≠ b.2) : xAt a b y = xAt b a y := by
  unfold xAt
  have h1 : b.2 - a.2 ≠ 0 := sub_ne_zero.2 h.symm
  have h2 : a.2 - b.2 ≠ 0 := sub_ne_zero.2 h
  field_simp
  ring

theorem crossDown_swap (p a b : Pt K) : CrossDown p a b ↔ CrossUp p b a := by
  unfold CrossDown CrossUp
  constructor
  · rintro ⟨h1, h2, h3⟩
    exact ⟨h1, h2, by rwa [← xAt_swap a b p.2 (h1.trans_le h2).ne']⟩
  · rintro ⟨h1, h2, h3⟩
    exact ⟨h1, h2, by rwa [xAt_swap a b p.2 (h1.trans_le h2).ne']⟩

theorem edgeWind_swap (p : Pt K) (e : Pt K × Pt K) : edgeWind p e.swap = - edgeWind p e := by
  have hx : ¬ (CrossUp p e.1 e.2 ∧ CrossUp p e.2 e.1) := by
    rintro ⟨⟨h1, h2, _⟩, h3, h4, _⟩
    exact absurd (h1.trans_le h4) (lt_irrefl _)
  unfold edgeWind
  simp only [crossDown_swap, Prod.fst_swap, Prod.snd_swap]
  by_cases h1 : CrossUp p e.1 e.2 <;> by_cases h2 : CrossUp p e.2 e.1
  · exact absurd ⟨h1, h2⟩ hx
  · simp [h1, h2]
  · simp [h1, h2]
  · simp [h1, h2]

theorem edgeWind_up (p a b : Pt K) (h : a.2 < p.2 ∧ p.2 ≤ b.2) :
    edgeWind p (a, b) = if p.1 < xAt a b p.2 then 1 else 0 := by
  unfold edgeWind
  by_cases hx : p.1 < xAt a b p.2
  · rw [if_pos hx, if_pos (show CrossUp p a b from ⟨h.1, h.2, hx⟩)]
  · rw [if_neg hx, if_neg (show ¬ CrossUp p a b from fun c => hx c.2.2),
      if_neg (show ¬ CrossDown p a b from fun c => hx c.2.2)]

theorem edgeWind_down (p a b : Pt K) (h : b.2 < p.2 ∧ p.2 ≤ a.2) :
    edgeWind p (a, b) = if p.1 < xAt a b p.2 then -1 else 0 := by
  unfold edgeWind
  rw [if_neg (show ¬ CrossUp p a b from fun c => absurd c.1 (not_lt.2 h.2))]
  by_cases hx : p.1 < xAt a b p.2
  · rw [if_pos hx, if_pos (show CrossDown p a b from ⟨h.1, h.2, hx⟩)]
  · rw [if_neg hx, if_neg (show ¬ CrossDown p a b from fun c => hx c.2.2)]

theorem edgeWind_none (p a b : Pt K) (h1 : ¬ (a.2 < p.2 ∧ p.2 ≤ b.2)) (h2 : ¬ (b.2 < p.2 ∧ p.2 ≤ a.2)) :
    edgeWind p (a, b) = 0 := by
  unfold edgeWind
  rw [if_neg (show ¬ CrossUp p a b from fun c => h1 ⟨c.1, c.2.1⟩),
    if_neg (show ¬ CrossDown p a b from fun c => h2 ⟨c.1, c.2.1⟩)]

theorem wind_perm_edges {P Q : Pgon K} (h : (edges P).Perm (edges Q)) (p : Pt K) : wind P p = wind Q p :=
  (h.map _).sum_eq

theorem wind_rotate (P : Pgon K) (n : Nat) (p : Pt K) : wind (P.rotate n) p = wind P p := by
  apply wind_perm_edges
  rw [edges_rotate]; exact List.rotate_perm _ _

theorem wind_reverse (P : Pgon K) (p : Pt K) : wind P.reverse p = - wind P p := by
  unfold wind
  rw [((edges_reverse_perm P).map _).sum_eq, List.map_map]
  induction edges P with
  | nil => simp
  | cons e l ih =>
    simp only [List.map_cons, List.sum_cons, Function.comp, edgeWind_swap]
    rw [show (List.map (edgeWind p ∘ Prod.swap) l).sum = _ from ih]
    ring

section Ordered

variable [IsStrictOrderedRing K]

theorem xAt_scale (s : K) (hs : s ≠ 0) (a b : Pt K) (y : K) :
    xAt (s * a.1, s * a.2) (s * b.1, s * b.2) (s * y) = s * xAt a b y := by
  unfold xAt
  by_cases h : b.2 - a.2 = 0
  · have : s * b.2 - s * a.2 = 0 := by rw [← mul_sub, h, mul_zero]
    simp [h, this]
  · have : s * b.2 - s * a.2 ≠ 0 := by rw [← mul_sub]; exact mul_ne_zero hs h
    simp only
    field_simp

/-- The winding number is the same in other units. -/
theorem wind_scale (s : K) (hs : 0 < s) (P : Pgon K) (p : Pt K) :
    wind (P.map fun v => (s * v.1, s * v.2)) (s * p.1, s * p.2) = wind P p := by
  unfold wind
  rw [edges_map, List.map_map]
  congr 1
  apply List.map_congr_left
  intro e _
  simp only [Function.comp, edgeWind, CrossUp, CrossDown, Prod.map, xAt_scale s hs.ne',
    mul_lt_mul_iff_right₀ hs, mul_le_mul_iff_right₀ hs]

/-- The abscissa at a height between the ends lies between those of the ends. -/
theorem xAt_bounds (a b : Pt K) (y lo hi : K) (h1 : a.2 < y ∧ y ≤ b.2 ∨ b.2 < y ∧ y ≤ a.2)
    (ha : lo ≤ a.1 ∧ a.1 ≤ hi) (hb : lo ≤ b.1 ∧ b.1 ≤ hi) : lo ≤ xAt a b y ∧ xAt a b y ≤ hi := by
  have key : ∃ s : K, 0 ≤ s ∧ s ≤ 1 ∧ xAt a b y = a.1 + s * (b.1 - a.1) := by
    refine ⟨(y - a.2) / (b.2 - a.2), ?_, ?_, ?_⟩
    · rcases h1 with h | h
      · exact div_nonneg (by linarith [h.1]) (by linarith [h.1, h.2])
      · exact div_nonneg_of_nonpos (by linarith [h.2]) (by linarith [h.1, h.2])
    · rcases h1 with h | h
      · exact (div_le_one (by linarith [h.1, h.2])).2 (by linarith [h.2])
      · rw [div_le_one_of_neg (by linarith [h.1, h.2])]; linarith [h.1]
    · unfold xAt; ring
  obtain ⟨s, h0, h1', he⟩ := key
  rw [he]
  constructor
  · nlinarith [mul_nonneg h0 (sub_nonneg.2 hb.1), mul_nonneg (sub_nonneg.2 h1') (sub_nonneg.2 ha.1)]
  · nlinarith [mul_nonneg h0 (sub_nonneg.2 hb.2), mul_nonneg (sub_nonneg.2 h1') (sub_nonneg.2 ha.2)]

/-- The signed number of edges that cross the whole horizontal line is zero. -/
theorem line_crossings (P : Pgon K) (y : K) :
    ((edges P).map fun e : Pt K × Pt K =>
      if e.1.2 < y ∧ y ≤ e.2.2 then (1 : Int) else if e.2.2 < y ∧ y ≤ e.1.2 then -1 else 0).sum = 0 := by
  refine Eq.trans ?_ (edges_telescope (fun v : Pt K => if y ≤ v.2 then (1 : Int) else 0) P)
  congr 1
  apply List.map_congr_left
  intro e _
  by_cases h1 : y ≤ e.1.2 <;> by_cases h2 : y ≤ e.2.2
  · rw [if_neg (fun c => absurd c.1 (not_lt.2 h1)), if_neg (fun c => absurd c.1 (not_lt.2 h2))]
    simp [h1, h2]
  · rw [if_neg (fun c => h2 c.2), if_pos ⟨not_le.1 h2, h1⟩]
    simp [h1, h2]
  · rw [if_pos ⟨not_le.1 h1, h2⟩]
    simp [h1, h2]
  · rw [if_neg (fun c => h2 c.2), if_neg (fun c => h1 c.2)]
    simp [h1, h2]

/-- Outside of the bounding box the winding number is 0: at the right, above, and below. -/
theorem wind_out (P : Pgon K) (p : Pt K)
    (h : (∀ v ∈ P, v.1 ≤ p.1) ∨ (∀ v ∈ P, v.2 < p.2) ∨ (∀ v ∈ P, p.2 ≤ v.2)) : wind P p = 0 := by
  unfold wind
  apply List.sum_eq_zero
  intro x hx
  obtain ⟨e, he, rfl⟩ := List.mem_map.1 hx
  obtain ⟨h1, h2⟩ := mem_edges he
  unfold edgeWind
  rw [if_neg, if_neg]
  · rintro ⟨c1, c2, c3⟩
    rcases h with h | h | h
    · exact absurd (xAt_bounds e.1 e.2 p.2 (min e.1.1 e.2.1) p.1 (Or.inr ⟨c1, c2⟩) ⟨min_le_left _ _, h _ h1⟩
        ⟨min_le_right _ _, h _ h2⟩).2 (not_le.2 c3)
    · exact absurd (h _ h1) (not_lt.2 c2)
    · exact absurd (h _ h2) (not_le.2 c1)
  · rintro ⟨c1, c2, c3⟩
    rcases h with h | h | h
    · exact absurd (xAt_bounds e.1 e.2 p.2 (min e.1.1 e.2.1) p.1 (Or.inl ⟨c1, c2⟩) ⟨min_le_left _ _, h _ h1⟩
        ⟨min_le_right _ _, h _ h2⟩).2 (not_le.2 c3)
    · exact absurd (h _ h2) (not_lt.2 c2)
    · exact absurd (h _ h1) (not_le.2 c1)

/-- Outside of the bounding box at the left. -/
theorem wind_left (P : Pgon K) (p : Pt K) (h : ∀ v ∈ P, p.1 < v.1) : wind P p = 0 := by
  refine Eq.trans ?_ (line_crossings P p.2)
  unfold wind
  congr 1
  apply List.map_congr_left
  intro e he
  obtain ⟨h1, h2⟩ := mem_edges he
  have key : ∀ _ : (e.1.2 < p.2 ∧ p.2 ≤ e.2.2 ∨ e.2.2 < p.2 ∧ p.2 ≤ e.1.2), p.1 < xAt e.1 e.2 p.2 := by
    intro hc
    exact lt_of_lt_of_le (lt_min (h _ h1) (h _ h2)) (xAt_bounds e.1 e.2 p.2 (min e.1.1 e.2.1)
      (max e.1.1 e.2.1) hc ⟨min_le_left _ _, le_max_left _ _⟩ ⟨min_le_right _ _, le_max_right _ _⟩).1
  show edgeWind p (e.1, e.2) = _
  by_cases c1 : e.1.2 < p.2 ∧ p.2 ≤ e.2.2
  · rw [edgeWind_up _ _ _ c1, if_pos (key (Or.inl c1)), if_pos c1]
  · by_cases c2 : e.2.2 < p.2 ∧ p.2 ≤ e.1.2
    · rw [edgeWind_down _ _ _ c2, if_pos (key (Or.inr c2)), if_neg c1, if_pos c2]
    · rw [edgeWind_none _ _ _ c1 c2, if_neg c1, if_neg c2]

/-- A covered point lies in the (half-open) bounding box. -/
theorem wind_in_box {P : Pgon K} {p : Pt K} {x0 x1 y0 y1 : K}
    (hb : ∀ v ∈ P, x0 ≤ v.1 ∧ v.1 ≤ x1 ∧ y0 ≤ v.2 ∧ v.2 ≤ y1) (h : wind P p ≠ 0) :
    x0 ≤ p.1 ∧ p.1 < x1 ∧ y0 < p.2 ∧ p.2 ≤ y1 := by
  refine ⟨?_, ?_, ?_, ?_⟩
  · by_contra hc
    exact h (wind_left P p fun v hv => lt_of_lt_of_le (not_le.1 hc) (hb v hv).1)
  · by_contra hc
    exact h (wind_out P p (Or.inl fun v hv => (hb v hv).2.1.trans (not_lt.1 hc)))
  · by_contra hc
    exact h (wind_out P p (Or.inr (Or.inr fun v hv => (not_lt.1 hc).trans (hb v hv).2.2.1)))
  · by_contra hc
    exact h (wind_out P p (Or.inr (Or.inl fun v hv => lt_of_le_of_lt (hb v hv).2.2.2 (not_le.1 hc))))

/-- The winding number of a trapezoid with horizontal sides at `y0` and `y1`. -/
theorem wind_trapezoid (a b c d y0 y1 : K) (h : y0 < y1) (p : Pt K) :
    wind [(a, y0), (b, y0), (c, y1), (d, y1)] p =
      if y0 < p.2 ∧ p.2 ≤ y1 then
        (if p.1 < xAt (b, y0) (c, y1) p.2 then 1 else 0) - (if p.1 < xAt (a, y0) (d, y1) p.2 then 1 else 0)
      else 0 := by
  have hsw : xAt (d, y1) (a, y0) p.2 = xAt (a, y0) (d, y1) p.2 := xAt_swap _ _ _ h.ne'
  have e1 : edgeWind p ((a, y0), (b, y0)) = 0 :=
    edgeWind_none _ _ _ (fun q => absurd q.1 (not_lt.2 q.2)) (fun q => absurd q.1 (not_lt.2 q.2))
  have e2 : edgeWind p ((c, y1), (d, y1)) = 0 :=
    edgeWind_none _ _ _ (fun q => absurd q.1 (not_lt.2 q.2)) (fun q => absurd q.1 (not_lt.2 q.2))
  have hn : ¬ (y1 < p.2 ∧ p.2 ≤ y0) := fun q => absurd (q.1.trans_le q.2) (not_lt.2 h.le)
  have e3 : edgeWind p ((b, y0), (c, y1)) =
      if y0 < p.2 ∧ p.2 ≤ y1 then (if p.1 < xAt (b, y0) (c, y1) p.2 then 1 else 0) else 0 := by
    by_cases hp : y0 < p.2 ∧ p.2 ≤ y1
    · rw [if_pos hp, edgeWind_up _ _ _ hp]
    · rw [if_neg hp, edgeWind_none _ _ _ hp hn]
  have e4 : edgeWind p ((d, y1), (a, y0)) =
      if y0 < p.2 ∧ p.2 ≤ y1 then - (if p.1 < xAt (a, y0) (d, y1) p.2 then 1 else 0) else 0 := by
    by_cases hp : y0 < p.2 ∧ p.2 ≤ y1
    · rw [if_pos hp, edgeWind_down _ _ _ hp, hsw]
      split <;> simp
    · rw [if_neg hp, edgeWind_none _ _ _ hn hp]
  have : wind [(a, y0), (b, y0), (c, y1), (d, y1)] p = edgeWind p ((a, y0), (b, y0)) +
      (edgeWind p ((b, y0), (c, y1)) + (edgeWind p ((c, y1), (d, y1)) +
      (edgeWind p ((d, y1), (a, y0)) + 0))) := rfl
  rw [this, e1, e2, e3, e4]
  split <;> ring

theorem xAt_vertical (a y0 y1 y : K) : xAt (a, y0) (a, y1) y = a := by
  simp [xAt]

/-- A rectangle drawn from `(x0, y0)` to `(x1, y1)`, with the sides in any order, covers the points
between its sides. -/
theorem rect_covers (x0 x1 y0 y1 : K) (p : Pt K) :
    wind [(x0, y0), (x1, y0), (x1, y1), (x0, y1)] p ≠ 0 ↔
      (min x0 x1 ≤ p.1 ∧ p.1 < max x0 x1) ∧ (min y0 y1 < p.2 ∧ p.2 ≤ max y0 y1) := by
  have up : ∀ y0 y1 : K, y0 < y1 → (wind [(x0, y0), (x1, y0), (x1, y1), (x0, y1)] p ≠ 0 ↔
      (min x0 x1 ≤ p.1 ∧ p.1 < max x0 x1) ∧ (y0 < p.2 ∧ p.2 ≤ y1)) := by
    intro y0 y1 h
    rw [wind_trapezoid _ _ _ _ _ _ h, xAt_vertical, xAt_vertical]
    by_cases hp : y0 < p.2 ∧ p.2 ≤ y1
    · rw [if_pos hp]
      simp only [hp, and_self, and_true, min_le_iff, lt_max_iff]
      rcases lt_or_ge p.1 x0 with h0 | h0 <;> rcases lt_or_ge p.1 x1 with h1 | h1
      · rw [if_pos h1, if_pos h0]
        simp [not_le.2 h0, not_le.2 h1]
      · rw [if_neg (not_lt.2 h1), if_pos h0]
        simp [h0, h1]
      · rw [if_pos h1, if_neg (not_lt.2 h0)]
        simp [h0, h1]
      · rw [if_neg (not_lt.2 h1), if_neg (not_lt.2 h0)]
        simp [not_lt.2 h0, not_lt.2 h1]
    · rw [if_neg hp]; simp [hp]
  rcases lt_trichotomy y0 y1 with h | h | h
  · rw [up y0 y1 h, min_eq_left h.le, max_eq_right h.le]
  · subst h
    rw [min_self, max_self]
    constructor
    · intro hw
      exact absurd (wind_in_box (x0 := min x0 x1) (x1 := max x0 x1) (y0 := y0) (y1 := y0) (by
        intro v hv
        simp only [List.mem_cons, List.not_mem_nil, or_false] at hv
        rcases hv with rfl | rfl | rfl | rfl <;> simp) hw).2.2 (fun q => absurd q.1 (not_lt.2 q.2))
    · rintro ⟨-, h1, h2⟩
      exact absurd h1 (not_lt.2 h2)
  · have hrev : wind [(x0, y0), (x1, y0), (x1, y1), (x0, y1)] p =
        - wind [(x0, y1), (x1, y1), (x1, y0), (x0, y0)] p := by
      rw [← wind_reverse]; rfl
    rw [hrev, neg_ne_zero, up y1 y0 h, min_eq_right h.le, max_eq_left h.le]

end Ordered

/-- The winding number and the number of crossings have the same parity. -/
theorem wind_parity (P : Pgon K) (p : Pt K) : wind P p % 2 = (crossings P p : Int) % 2 := by
  unfold wind crossings
  induction edges P with
  | nil => rfl
  | cons e l ih =>
    rw [List.map_cons, List.sum_cons, List.countP_cons, Int.add_emod, ih]
    unfold edgeWind
    by_cases h1 : CrossUp p e.1 e.2
    · simp only [h1, if_true, decide_true, Bool.true_or]
      omega
    · by_cases h2 : CrossDown p e.1 e.2
      · simp only [h1, h2, if_true, if_false, decide_true, decide_false, Bool.or_true]
        omega
      · simp only [h1, h2, if_false, decide_false, Bool.or_false, Bool.false_eq_true]
        omega

end Gdspy
