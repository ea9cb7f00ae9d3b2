import Verif.Lemmas.Region
import Verif.Spec.Clip

/-!
An exact clipping engine exists. Regions are cut in trapezoids with horizontal sides: one edge after the
other, every trapezoid is split in the part at the left of the edge and the rest.
-/

set_option linter.unusedSectionVars false

namespace Gdspy

open Gdspy.Spec

variable {K : Type} [Field K] [LinearOrder K] [IsStrictOrderedRing K]

/-- An affine function of the ordinate. -/
structure Slope (K : Type) where
  m : K
  q : K

def Slope.at (s : Slope K) (y : K) : K := s.m * y + s.q

/-- The points between two heights and between two lines. -/
structure Trap (K : Type) where
  y0 : K
  y1 : K
  l : Slope K
  r : Slope K

def Trap.has (T : Trap K) (p : Pt K) : Prop :=
  (T.y0 < p.2 ∧ p.2 ≤ T.y1) ∧ T.l.at p.2 ≤ p.1 ∧ p.1 < T.r.at p.2

/-- A vertical line with integer abscissa. -/
def Slope.IsInt (s : Slope K) : Prop := s.m = 0 ∧ ∃ n : Int, s.q = n

/-- A rectangle with integer sides. -/
def Trap.IsInt (T : Trap K) : Prop :=
  (∃ n : Int, T.y0 = n) ∧ (∃ n : Int, T.y1 = n) ∧ T.l.IsInt ∧ T.r.IsInt

/-- The points of a list of trapezoids. -/
def Traps (L : List (Trap K)) (p : Pt K) : Prop := ∃ T ∈ L, T.has p

theorem traps_append (L M : List (Trap K)) (p : Pt K) : Traps (L ++ M) p ↔ Traps L p ∨ Traps M p := by
  simp only [Traps, List.mem_append]
  constructor
  · rintro ⟨T, h | h, h'⟩
    · exact Or.inl ⟨T, h, h'⟩
    · exact Or.inr ⟨T, h, h'⟩
  · rintro (⟨T, h, h'⟩ | ⟨T, h, h'⟩)
    · exact ⟨T, Or.inl h, h'⟩
    · exact ⟨T, Or.inr h, h'⟩

/-- The part of a trapezoid up to height `c`. -/
def Trap.low (T : Trap K) (c : K) : Trap K := { T with y1 := min T.y1 c }
/-- The part above height `c`. -/
def Trap.high (T : Trap K) (c : K) : Trap K := { T with y0 := max T.y0 c }

theorem low_has (T : Trap K) (c : K) (p : Pt K) : (T.low c).has p ↔ T.has p ∧ p.2 ≤ c := by
  simp only [Trap.has, Trap.low, le_min_iff]
  tauto

theorem high_has (T : Trap K) (c : K) (p : Pt K) : (T.high c).has p ↔ T.has p ∧ c < p.2 := by
  simp only [Trap.has, Trap.high, max_lt_iff]
  tauto

theorem min_isInt {a b : K} (ha : ∃ n : Int, a = n) (hb : ∃ n : Int, b = n) : ∃ n : Int, min a b = n := by
  rcases min_choice a b with h | h <;> rw [h] <;> assumption

theorem max_isInt {a b : K} (ha : ∃ n : Int, a = n) (hb : ∃ n : Int, b = n) : ∃ n : Int, max a b = n := by
  rcases max_choice a b with h | h <;> rw [h] <;> assumption

theorem low_isInt {T : Trap K} {c : K} (h : T.IsInt) (hc : ∃ n : Int, c = n) : (T.low c).IsInt :=
  ⟨h.1, min_isInt h.2.1 hc, h.2.2⟩

theorem high_isInt {T : Trap K} {c : K} (h : T.IsInt) (hc : ∃ n : Int, c = n) : (T.high c).IsInt :=
  ⟨max_isInt h.1 hc, h.2⟩

/-- Two lines change order at one height at most. -/
theorem slope_order (u v : Slope K) : ∃ c : K,
    ((∀ y, y ≤ c → u.at y ≤ v.at y) ∧ (∀ y, c < y → v.at y ≤ u.at y) ∧ u.m ≠ v.m) ∨
    ((∀ y, y ≤ c → v.at y ≤ u.at y) ∧ (∀ y, c < y → u.at y ≤ v.at y) ∧ u.m ≠ v.m) ∨
    (∀ y, u.at y ≤ v.at y) ∨ (∀ y, v.at y ≤ u.at y) := by
  unfold Slope.at
  by_cases hm : u.m = v.m
  · refine ⟨0, Or.inr (Or.inr ?_)⟩
    rcases le_total u.q v.q with h | h
    · left; intro y; rw [hm]; linarith
    · right; intro y; rw [hm]; linarith
  · refine ⟨(v.q - u.q) / (u.m - v.m), ?_⟩
    rcases lt_or_gt_of_ne hm with h | h
    · have hn : u.m - v.m < 0 := by linarith
      right; left
      refine ⟨?_, ?_, hm⟩
      · intro y hy
        rw [le_div_iff_of_neg hn] at hy
        nlinarith
      · intro y hy
        rw [div_lt_iff_of_neg hn] at hy
        nlinarith
    · have hn : 0 < u.m - v.m := by linarith
      left
      refine ⟨?_, ?_, hm⟩
      · intro y hy
        rw [le_div_iff₀ hn] at hy
        nlinarith
      · intro y hy
        rw [div_lt_iff₀ hn] at hy
        nlinarith

/-- The part at the left of a line. -/
theorem left_of (T : Trap K) (u : Slope K) :
    ∃ L, (∀ p, Traps L p ↔ T.has p ∧ p.1 < u.at p.2) ∧ (T.IsInt → u.IsInt → ∀ A ∈ L, A.IsInt) := by
  obtain ⟨c, h⟩ := slope_order u T.r
  have hr : ∀ p : Pt K, T.r.at p.2 ≤ u.at p.2 → (T.has p ↔ T.has p ∧ p.1 < u.at p.2) := fun p hu =>
    ⟨fun q => ⟨q, q.2.2.trans_le hu⟩, fun q => q.1⟩
  have hu : ∀ p : Pt K, u.at p.2 ≤ T.r.at p.2 →
      ((({ T with r := u } : Trap K)).has p ↔ T.has p ∧ p.1 < u.at p.2) := fun p hu =>
    ⟨fun q => ⟨⟨q.1, q.2.1, q.2.2.trans_le hu⟩, q.2.2⟩, fun q => ⟨q.1.1, q.1.2.1, q.2⟩⟩
  have one : ∀ (A : Trap K) (p : Pt K), Traps [A] p ↔ A.has p := by simp [Traps]
  have two : ∀ (A B : Trap K) (p : Pt K), Traps [A, B] p ↔ A.has p ∨ B.has p := by simp [Traps]
  rcases h with h | h | h | h
  · refine ⟨[(({ T with r := u } : Trap K)).low c, T.high c], fun p => ?_, fun hT hu => absurd (hu.1.trans hT.2.2.2.1.symm) h.2.2⟩
    rw [two, low_has, high_has]
    rcases le_or_gt p.2 c with hc | hc
    · rw [hu p (h.1 _ hc)]; simp [hc, not_lt.2 hc]
    · rw [← hr p (h.2.1 _ hc)]; simp [hc, not_le.2 hc]
  · refine ⟨[T.low c, (({ T with r := u } : Trap K)).high c], fun p => ?_, fun hT hu => absurd (hu.1.trans hT.2.2.2.1.symm) h.2.2⟩
    rw [two, low_has, high_has]
    rcases le_or_gt p.2 c with hc | hc
    · rw [← hr p (h.1 _ hc)]; simp [hc, not_lt.2 hc]
    · rw [hu p (h.2.1 _ hc)]; simp [hc, not_le.2 hc]
  · exact ⟨[{ T with r := u }], fun p => by rw [one, hu p (h _)], fun hT hu A hA => by
      rw [List.mem_singleton.1 hA]; exact ⟨hT.1, hT.2.1, hT.2.2.1, hu⟩⟩
  · exact ⟨[T], fun p => by rw [one]; exact hr p (h _), fun hT _ A hA => by
      rw [List.mem_singleton.1 hA]; exact hT⟩

/-- The part that is not at the left of a line. -/
theorem right_of (T : Trap K) (u : Slope K) :
    ∃ L, (∀ p, Traps L p ↔ T.has p ∧ ¬ p.1 < u.at p.2) ∧ (T.IsInt → u.IsInt → ∀ A ∈ L, A.IsInt) := by
  obtain ⟨c, h⟩ := slope_order u T.l
  have hl : ∀ p : Pt K, u.at p.2 ≤ T.l.at p.2 → (T.has p ↔ T.has p ∧ ¬ p.1 < u.at p.2) := fun p hu =>
    ⟨fun q => ⟨q, not_lt.2 (hu.trans q.2.1)⟩, fun q => q.1⟩
  have hu : ∀ p : Pt K, T.l.at p.2 ≤ u.at p.2 →
      ((({ T with l := u } : Trap K)).has p ↔ T.has p ∧ ¬ p.1 < u.at p.2) := fun p hu =>
    ⟨fun q => ⟨⟨q.1, hu.trans q.2.1, q.2.2⟩, not_lt.2 q.2.1⟩, fun q => ⟨q.1.1, not_lt.1 q.2, q.1.2.2⟩⟩
  have one : ∀ (A : Trap K) (p : Pt K), Traps [A] p ↔ A.has p := by simp [Traps]
  have two : ∀ (A B : Trap K) (p : Pt K), Traps [A, B] p ↔ A.has p ∨ B.has p := by simp [Traps]
  rcases h with h | h | h | h
  · refine ⟨[T.low c, (({ T with l := u } : Trap K)).high c], fun p => ?_, fun hT hu => absurd (hu.1.trans hT.2.2.1.1.symm) h.2.2⟩
    rw [two, low_has, high_has]
    rcases le_or_gt p.2 c with hc | hc
    · rw [← hl p (h.1 _ hc)]; simp [hc, not_lt.2 hc]
    · rw [hu p (h.2.1 _ hc)]; simp [hc, not_le.2 hc]
  · refine ⟨[(({ T with l := u } : Trap K)).low c, T.high c], fun p => ?_, fun hT hu => absurd (hu.1.trans hT.2.2.1.1.symm) h.2.2⟩
    rw [two, low_has, high_has]
    rcases le_or_gt p.2 c with hc | hc
    · rw [hu p (h.1 _ hc)]; simp [hc, not_lt.2 hc]
    · rw [← hl p (h.2.1 _ hc)]; simp [hc, not_le.2 hc]
  · exact ⟨[T], fun p => by rw [one]; exact hl p (h _), fun hT _ A hA => by
      rw [List.mem_singleton.1 hA]; exact hT⟩
  · exact ⟨[{ T with l := u }], fun p => by rw [one, hu p (h _)], fun hT hu A hA => by
      rw [List.mem_singleton.1 hA]; exact ⟨hT.1, hT.2.1, hu, hT.2.2.2⟩⟩

/-- The line through an edge. -/
def slopeOf (a b : Pt K) : Slope K :=
  ⟨(b.1 - a.1) / (b.2 - a.2), a.1 - a.2 * ((b.1 - a.1) / (b.2 - a.2))⟩

theorem slopeOf_at (a b : Pt K) (y : K) : (slopeOf a b).at y = xAt a b y := by
  unfold Slope.at slopeOf xAt
  ring

/-- A horizontal or vertical edge between grid points. -/
def EdgeInt (e : Pt K × Pt K) : Prop :=
  (∃ a b c d : Int, e = ((↑a, ↑b), (↑c, ↑d))) ∧ (e.1.1 = e.2.1 ∨ e.1.2 = e.2.2)

theorem slopeOf_isInt {a b : Pt K} (h : EdgeInt (a, b)) (hy : a.2 ≠ b.2) : (slopeOf a b).IsInt := by
  obtain ⟨⟨x, y, z, w, he⟩, h | h⟩ := h
  · rw [Prod.mk.injEq] at he
    simp only at h
    refine ⟨by simp [slopeOf, h], x, by simp [slopeOf, ← h, he.1]⟩
  · exact absurd h hy

/-- An edge changes the winding number by a constant in a region at the left of it. -/
theorem edge_split (e : Pt K × Pt K) : ∃ (s : Int) (c0 c1 : K) (u : Slope K), (∀ p,
    edgeWind p e = if (c0 < p.2 ∧ p.2 ≤ c1) ∧ p.1 < u.at p.2 then s else 0) ∧
    (EdgeInt e → (∃ n : Int, c0 = n) ∧ (∃ n : Int, c1 = n) ∧ u.IsInt) := by
  obtain ⟨a, b⟩ := e
  have hint : EdgeInt (a, b) → (∃ n : Int, a.2 = n) ∧ (∃ n : Int, b.2 = n) := by
    rintro ⟨⟨x, y, z, w, he⟩, _⟩
    rw [Prod.mk.injEq] at he
    rw [he.1, he.2]
    exact ⟨⟨y, rfl⟩, ⟨w, rfl⟩⟩
  rcases lt_trichotomy a.2 b.2 with h | h | h
  · refine ⟨1, a.2, b.2, slopeOf a b, fun p => ?_, fun he => ⟨(hint he).1, (hint he).2, slopeOf_isInt he h.ne⟩⟩
    rw [slopeOf_at]
    by_cases hp : a.2 < p.2 ∧ p.2 ≤ b.2
    · rw [edgeWind_up _ _ _ hp]; simp [hp]
    · rw [edgeWind_none _ _ _ hp (fun q => absurd (q.1.trans_le q.2) (not_lt.2 h.le)), if_neg (fun q => hp q.1)]
  · refine ⟨0, 0, 0, ⟨0, 0⟩, fun p => ?_, fun _ => ⟨⟨0, by simp⟩, ⟨0, by simp⟩, rfl, 0, by simp⟩⟩
    rw [edgeWind_none _ _ _ (fun q => absurd (q.1.trans_le q.2) (by rw [h]; exact lt_irrefl _))
      (fun q => absurd (q.1.trans_le q.2) (by rw [h]; exact lt_irrefl _))]
    simp
  · refine ⟨-1, b.2, a.2, slopeOf a b, fun p => ?_, fun he => ⟨(hint he).2, (hint he).1, slopeOf_isInt he h.ne'⟩⟩
    rw [slopeOf_at]
    by_cases hp : b.2 < p.2 ∧ p.2 ≤ a.2
    · rw [edgeWind_down _ _ _ hp]; simp [hp]
    · rw [edgeWind_none _ _ _ (fun q => absurd (q.1.trans_le q.2) (not_lt.2 h.le)) hp, if_neg (fun q => hp q.1)]

/-- The two parts of a trapezoid. -/
theorem trap_split (T : Trap K) (c0 c1 : K) (u : Slope K) :
    (∃ L, (∀ p, Traps L p ↔ T.has p ∧ ((c0 < p.2 ∧ p.2 ≤ c1) ∧ p.1 < u.at p.2)) ∧
      (T.IsInt → ((∃ n : Int, c0 = n) ∧ (∃ n : Int, c1 = n) ∧ u.IsInt) → ∀ A ∈ L, A.IsInt)) ∧
    (∃ L, (∀ p, Traps L p ↔ T.has p ∧ ¬ ((c0 < p.2 ∧ p.2 ≤ c1) ∧ p.1 < u.at p.2)) ∧
      (T.IsInt → ((∃ n : Int, c0 = n) ∧ (∃ n : Int, c1 = n) ∧ u.IsInt) → ∀ A ∈ L, A.IsInt)) := by
  obtain ⟨L, hL, hLi⟩ := left_of ((T.low c1).high c0) u
  obtain ⟨R, hR, hRi⟩ := right_of T u
  refine ⟨⟨L, fun p => ?_, ?_⟩, ⟨T.low c0 :: T.high c1 :: R, fun p => ?_, ?_⟩⟩
  · rw [hL, high_has, low_has]
    tauto
  · exact fun hT hc => hLi (high_isInt (low_isInt hT hc.2.1) hc.1) hc.2.2
  · have : Traps (T.low c0 :: T.high c1 :: R) p ↔ (T.low c0).has p ∨ (T.high c1).has p ∨ Traps R p := by
      simp [Traps]
    rw [this, hR, low_has, high_has]
    rcases le_or_gt p.2 c0 with h0 | h0 <;> rcases le_or_gt p.2 c1 with h1 | h1 <;>
      simp [h0, h1, not_lt.2, not_le.2] <;> tauto
  · intro hT hc A hA
    rcases List.mem_cons.1 hA with rfl | hA
    · exact low_isInt hT hc.1
    rcases List.mem_cons.1 hA with rfl | hA
    · exact high_isInt hT hc.2.1
    · exact hRi hT hc.2.2 A hA

/-- Every region given by a condition on two sums over edges is a union of trapezoids, inside of a
trapezoid. -/
theorem region_traps (es : List ((Pt K × Pt K) × Bool)) (T : Trap K) (f : Int → Int → Prop) :
    ∃ L, (∀ p, Traps L p ↔ T.has p ∧
      f (es.map fun e => if e.2 then 0 else edgeWind p e.1).sum
        (es.map fun e => if e.2 then edgeWind p e.1 else 0).sum) ∧
      (T.IsInt → (∀ e ∈ es, EdgeInt e.1) → ∀ A ∈ L, A.IsInt) := by
  induction es generalizing T f with
  | nil =>
    by_cases h : f 0 0
    · exact ⟨[T], fun p => by simp [Traps, h], fun hT _ A hA => by rw [List.mem_singleton.1 hA]; exact hT⟩
    · exact ⟨[], fun p => by simp [Traps, h], by simp⟩
  | cons e es ih =>
    obtain ⟨s, c0, c1, u, he, hei⟩ := edge_split e.1
    obtain ⟨⟨L, hL, hLi⟩, ⟨R, hR, hRi⟩⟩ := trap_split T c0 c1 u
    have lift : ∀ (M : List (Trap K)) (g : Int → Int → Prop), ∃ N, (∀ p, Traps N p ↔ Traps M p ∧
        g (es.map fun e => if e.2 then 0 else edgeWind p e.1).sum
          (es.map fun e => if e.2 then edgeWind p e.1 else 0).sum) ∧
        ((∀ A ∈ M, A.IsInt) → (∀ e ∈ es, EdgeInt e.1) → ∀ A ∈ N, A.IsInt) := by
      intro M g
      induction M with
      | nil => exact ⟨[], fun p => by simp [Traps], by simp⟩
      | cons A M ihM =>
        obtain ⟨N, hN, hNi⟩ := ihM
        obtain ⟨N', hN', hNi'⟩ := ih A g
        refine ⟨N' ++ N, fun p => ?_, ?_⟩
        · rw [traps_append, hN, hN']
          have : Traps (A :: M) p ↔ A.has p ∨ Traps M p := by simp [Traps]
          rw [this, or_and_right]
        · intro hM hes B hB
          rcases List.mem_append.1 hB with hB | hB
          · exact hNi' (hM A List.mem_cons_self) hes B hB
          · exact hNi (fun C hC => hM C (List.mem_cons_of_mem _ hC)) hes B hB
    obtain ⟨N1, h1, h1i⟩ := lift L (fun a b => if e.2 then f a (s + b) else f (s + a) b)
    obtain ⟨N2, h2, h2i⟩ := lift R f
    refine ⟨N1 ++ N2, fun p => ?_, ?_⟩
    · rw [traps_append, h1, h2, hL, hR]
      simp only [List.map_cons, List.sum_cons, he p]
      by_cases hc : (c0 < p.2 ∧ p.2 ≤ c1) ∧ p.1 < u.at p.2
      · cases e.2 <;> simp [hc]
      · cases e.2 <;> simp [hc]
    · intro hT hes A hA
      have h0 := hei (hes e List.mem_cons_self)
      have hr : ∀ e ∈ es, EdgeInt e.1 := fun x hx => hes x (List.mem_cons_of_mem _ hx)
      rcases List.mem_append.1 hA with hA | hA
      · exact h1i (hLi hT h0) hr A hA
      · exact h2i (hRi hT h0) hr A hA

/-- The polygon is on the grid, with horizontal and vertical sides. -/
def RectInt (P : Pgon K) : Prop := ∃ Q, Rectilinear Q ∧ P = ofGrid Q

/-- A trapezoid is covered by a polygon, or empty. -/
theorem trap_polygon (T : Trap K) : ∃ L : List (Pgon K), (∀ p, Covers L p ↔ T.has p) ∧
    (T.IsInt → ∀ P ∈ L, RectInt P) := by
  have main : ∀ T : Trap K, T.y0 < T.y1 → (∀ y, T.y0 < y → y ≤ T.y1 → T.l.at y ≤ T.r.at y) →
      ∃ L : List (Pgon K), (∀ p, Covers L p ↔ T.has p) ∧ (T.IsInt → ∀ P ∈ L, RectInt P) := by
    intro T hy hlr
    refine ⟨[[(T.l.at T.y0, T.y0), (T.r.at T.y0, T.y0), (T.r.at T.y1, T.y1), (T.l.at T.y1, T.y1)]],
      fun p => ?_, ?_⟩
    · have hx : ∀ s : Slope K, xAt (s.at T.y0, T.y0) (s.at T.y1, T.y1) p.2 = s.at p.2 := by
        intro s
        have : T.y1 - T.y0 ≠ 0 := sub_ne_zero.2 hy.ne'
        unfold xAt Slope.at
        field_simp
        ring
      have : Covers [[(T.l.at T.y0, T.y0), (T.r.at T.y0, T.y0), (T.r.at T.y1, T.y1), (T.l.at T.y1, T.y1)]] p ↔
          wind [(T.l.at T.y0, T.y0), (T.r.at T.y0, T.y0), (T.r.at T.y1, T.y1), (T.l.at T.y1, T.y1)] p ≠ 0 := by
        simp [Covers]
      rw [this, wind_trapezoid _ _ _ _ _ _ hy, hx, hx]
      unfold Trap.has
      by_cases hp : T.y0 < p.2 ∧ p.2 ≤ T.y1
      · have := hlr p.2 hp.1 hp.2
        simp only [hp, and_self, if_true, true_and]
        rcases lt_or_ge p.1 (T.l.at p.2) with h1 | h1
        · simp [h1, h1.trans_le this, not_le.2 h1]
        · rcases lt_or_ge p.1 (T.r.at p.2) with h2 | h2
          · simp [h1, h2, not_lt.2 h1]
          · simp [not_lt.2 h1, not_lt.2 h2]
      · simp [hp]
    · rintro ⟨⟨a, ha⟩, ⟨b, hb⟩, ⟨hl, l, hl'⟩, ⟨hr, r, hr'⟩⟩ P hP
      rw [List.mem_singleton.1 hP]
      refine ⟨[(l, a), (r, a), (r, b), (l, b)], ?_, ?_⟩
      · simp [Rectilinear, edges]
      · simp [ofGrid, Slope.at, hl, hr, hl', hr', ha, hb]
  have emp : ∀ T : Trap K, (∀ p, ¬ T.has p) →
      ∃ L : List (Pgon K), (∀ p, Covers L p ↔ T.has p) ∧ (T.IsInt → ∀ P ∈ L, RectInt P) := by
    intro T h
    exact ⟨[], fun p => by simp [Covers, h p], by simp⟩
  have main' : ∀ T : Trap K, (∀ y, T.y0 < y → y ≤ T.y1 → T.l.at y ≤ T.r.at y) →
      ∃ L : List (Pgon K), (∀ p, Covers L p ↔ T.has p) ∧ (T.IsInt → ∀ P ∈ L, RectInt P) := by
    intro T h
    by_cases hy : T.y0 < T.y1
    · exact main T hy h
    · exact emp T fun p hp => hy (hp.1.1.trans_le hp.1.2)
  have emp' : ∀ T : Trap K, (∀ y, T.y0 < y → y ≤ T.y1 → T.r.at y ≤ T.l.at y) → ∀ p, ¬ T.has p := by
    intro T h p hp
    exact absurd (hp.2.1.trans_lt hp.2.2) (not_lt.2 (h _ hp.1.1 hp.1.2))
  obtain ⟨c, h⟩ := slope_order T.l T.r
  rcases h with h | h | h | h
  · obtain ⟨L, hL, _⟩ := main' (T.low c) fun y _ hy => h.1 y (hy.trans (min_le_right _ _))
    have he := emp' (T.high c) fun y hy _ => h.2.1 y (lt_of_le_of_lt (le_max_right _ _) hy)
    refine ⟨L, fun p => ?_, fun hT => absurd (hT.2.2.1.1.trans hT.2.2.2.1.symm) h.2.2⟩
    rw [hL, low_has]
    have := he p
    rw [high_has] at this
    rcases le_or_gt p.2 c with hc | hc
    · simp [hc]
    · simp only [hc, not_le.2 hc, and_true, and_false, false_iff] at this ⊢; exact this
  · obtain ⟨L, hL, _⟩ := main' (T.high c) fun y hy _ => h.2.1 y (lt_of_le_of_lt (le_max_right _ _) hy)
    have he := emp' (T.low c) fun y _ hy => h.1 y (hy.trans (min_le_right _ _))
    refine ⟨L, fun p => ?_, fun hT => absurd (hT.2.2.1.1.trans hT.2.2.2.1.symm) h.2.2⟩
    rw [hL, high_has]
    have := he p
    rw [low_has] at this
    rcases le_or_gt p.2 c with hc | hc
    · simp only [hc, not_lt.2 hc, and_true, and_false, false_iff] at this ⊢; exact this
    · simp [hc]
  · exact main' T fun y _ _ => h y
  · exact emp T (emp' T fun y _ _ => h y)

theorem traps_polygons (L : List (Trap K)) : ∃ M : List (Pgon K), (∀ p, Covers M p ↔ Traps L p) ∧
    ((∀ T ∈ L, T.IsInt) → ∀ P ∈ M, RectInt P) := by
  induction L with
  | nil => exact ⟨[], fun p => by simp [Covers, Traps], by simp⟩
  | cons T L ih =>
    obtain ⟨M, hM, hMi⟩ := ih
    obtain ⟨N, hN, hNi⟩ := trap_polygon T
    refine ⟨N ++ M, fun p => ?_, fun hT P hP => ?_⟩
    rotate_left
    · rcases List.mem_append.1 hP with hP | hP
      · exact hNi (hT T List.mem_cons_self) P hP
      · exact hMi (fun A hA => hT A (List.mem_cons_of_mem _ hA)) P hP
    have h1 : Covers (N ++ M) p ↔ Covers N p ∨ Covers M p := by
      simp only [Covers, List.mem_append]
      constructor
      · rintro ⟨P, h | h, h'⟩
        · exact Or.inl ⟨P, h, h'⟩
        · exact Or.inr ⟨P, h, h'⟩
      · rintro (⟨P, h, h'⟩ | ⟨P, h, h'⟩)
        · exact ⟨P, Or.inl h, h'⟩
        · exact ⟨P, Or.inr h, h'⟩
    have h2 : Traps (T :: L) p ↔ T.has p ∨ Traps L p := by simp [Traps]
    rw [h1, h2, hM, hN]

theorem total_edges (A : List (Pgon K)) (p : Pt K) :
    total A p = ((A.flatMap edges).map (edgeWind p)).sum := by
  unfold total
  induction A with
  | nil => rfl
  | cons P A ih =>
    rw [List.map_cons, List.sum_cons, ih, List.flatMap_cons, List.map_append, List.sum_append]
    rfl

theorem exists_bound [FloorRing K] (l : List K) : ∃ M : Int, ∀ x ∈ l, -(M : K) ≤ x ∧ x ≤ M := by
  induction l with
  | nil => exact ⟨0, by simp⟩
  | cons a l ih =>
    obtain ⟨M, hM⟩ := ih
    refine ⟨max ⌈|a|⌉ M, fun x hx => ?_⟩
    rcases List.mem_cons.1 hx with rfl | hx
    · have h1 := neg_abs_le x
      have h2 := le_abs_self x
      have h3 : ((⌈|x|⌉ : Int) : K) ≤ ((max ⌈|x|⌉ M : Int) : K) := Int.cast_le.2 (le_max_left _ _)
      have h4 := Int.le_ceil |x|
      constructor <;> linarith
    · have h1 := hM x hx
      have h3 : ((M : Int) : K) ≤ ((max ⌈|a|⌉ M : Int) : K) := Int.cast_le.2 (le_max_right _ _)
      constructor <;> linarith [h1.1, h1.2]

theorem total_ne_zero (A : List (Pgon K)) (p : Pt K) (h : total A p ≠ 0) : ∃ P ∈ A, wind P p ≠ 0 := by
  by_contra hc
  apply h
  unfold total
  apply List.sum_eq_zero
  intro x hx
  obtain ⟨P, hP, rfl⟩ := List.mem_map.1 hx
  by_contra hx
  exact hc ⟨P, hP, hx⟩

/-- The region of an operation on two lists of polygons is covered by a list of polygons that are not
empty. -/
theorem clip_exists [FloorRing K] (op : ClipOp) (A B : List (Pgon K)) : ∃ L : List (Pgon K),
    (∀ p, Covers L p ↔ op.holds (total A p ≠ 0) (total B p ≠ 0)) ∧ (∀ q ∈ L, ∃ p, wind q p ≠ 0) ∧
    ((∀ P ∈ A ++ B, RectInt P) → ∀ q ∈ L, RectInt q) := by
  classical
  obtain ⟨M, hM⟩ := exists_bound ((A ++ B).flatMap fun P => P.flatMap fun v => [v.1, v.2])
  have hbox : ∀ P ∈ A ++ B, ∀ v ∈ P, -(M : K) ≤ v.1 ∧ v.1 ≤ M ∧ -(M : K) ≤ v.2 ∧ v.2 ≤ M := by
    intro P hP v hv
    have h1 := hM v.1 (List.mem_flatMap.2 ⟨P, hP, List.mem_flatMap.2 ⟨v, hv, by simp⟩⟩)
    have h2 := hM v.2 (List.mem_flatMap.2 ⟨P, hP, List.mem_flatMap.2 ⟨v, hv, by simp⟩⟩)
    exact ⟨h1.1, h1.2, h2.1, h2.2⟩
  let T0 : Trap K := ⟨-(M : K), M, ⟨0, -(M : K)⟩, ⟨0, M⟩⟩
  have hT0 : ∀ P ∈ A ++ B, ∀ p, wind P p ≠ 0 → T0.has p := by
    intro P hP p hw
    have := wind_in_box (hbox P hP) hw
    simp only [Trap.has, T0, Slope.at, zero_mul, zero_add]
    exact ⟨⟨this.2.2.1, this.2.2.2⟩, this.1, this.2.1⟩
  let es : List ((Pt K × Pt K) × Bool) :=
    (A.flatMap edges).map (fun e => (e, false)) ++ (B.flatMap edges).map (fun e => (e, true))
  have hA : ∀ p, (es.map fun e => if e.2 then 0 else edgeWind p e.1).sum = total A p := by
    intro p
    rw [total_edges]
    simp only [es, List.map_append, List.map_map, List.sum_append]
    have : (List.map ((fun e : (Pt K × Pt K) × Bool => if e.2 = true then 0 else edgeWind p e.1) ∘
        fun e => (e, true)) (B.flatMap edges)).sum = 0 := List.sum_eq_zero (by
      intro x hx
      obtain ⟨_, _, rfl⟩ := List.mem_map.1 hx
      rfl)
    rw [this, add_zero]
    rfl
  have hB : ∀ p, (es.map fun e => if e.2 then edgeWind p e.1 else 0).sum = total B p := by
    intro p
    rw [total_edges]
    simp only [es, List.map_append, List.map_map, List.sum_append]
    have : (List.map ((fun e : (Pt K × Pt K) × Bool => if e.2 = true then edgeWind p e.1 else 0) ∘
        fun e => (e, false)) (A.flatMap edges)).sum = 0 := List.sum_eq_zero (by
      intro x hx
      obtain ⟨_, _, rfl⟩ := List.mem_map.1 hx
      rfl)
    rw [this, zero_add]
    rfl
  obtain ⟨N, hN, hNi⟩ := region_traps es T0 (fun a b => op.holds (a ≠ 0) (b ≠ 0))
  obtain ⟨L, hL, hLi⟩ := traps_polygons N
  refine ⟨L.filter fun q => decide (∃ p, wind q p ≠ 0), fun p => ?_, ?_, ?_⟩
  · have h1 : Covers (L.filter fun q => decide (∃ p, wind q p ≠ 0)) p ↔ Covers L p := by
      simp only [Covers, List.mem_filter, decide_eq_true_eq]
      constructor
      · rintro ⟨P, h, h'⟩; exact ⟨P, h.1, h'⟩
      · rintro ⟨P, h, h'⟩; exact ⟨P, ⟨h, p, h'⟩, h'⟩
    rw [h1, hL, hN, hA, hB]
    constructor
    · exact fun h => h.2
    · intro h
      refine ⟨?_, h⟩
      have : total A p ≠ 0 ∨ total B p ≠ 0 := by
        cases op <;> simp only [ClipOp.holds] at h <;> tauto
      rcases this with h | h
      · obtain ⟨P, hP, hw⟩ := total_ne_zero _ _ h
        exact hT0 P (List.mem_append_left _ hP) p hw
      · obtain ⟨P, hP, hw⟩ := total_ne_zero _ _ h
        exact hT0 P (List.mem_append_right _ hP) p hw
  · intro q hq
    simpa using (List.mem_filter.1 hq).2
  · intro hAB q hq
    refine hLi (hNi ?_ ?_) q (List.mem_filter.1 hq).1
    · exact ⟨⟨-M, by simp [T0]⟩, ⟨M, rfl⟩, ⟨rfl, -M, by simp [T0]⟩, ⟨rfl, M, rfl⟩⟩
    · have key : ∀ P ∈ A ++ B, ∀ e ∈ edges P, EdgeInt e := by
        intro P hP e he
        obtain ⟨Q, hQ, rfl⟩ := hAB P hP
        unfold ofGrid at he
        rw [edges_map] at he
        obtain ⟨⟨a, b⟩, hab, rfl⟩ := List.mem_map.1 he
        refine ⟨⟨a.1, a.2, b.1, b.2, rfl⟩, ?_⟩
        rcases hQ _ hab with h | h
        · left; simpa using h
        · right; simpa using h
      intro e he
      rcases List.mem_append.1 he with he | he
      · obtain ⟨x, hx, rfl⟩ := List.mem_map.1 he
        obtain ⟨P, hP, hx⟩ := List.mem_flatMap.1 hx
        exact key P (List.mem_append_left _ hP) x hx
      · obtain ⟨x, hx, rfl⟩ := List.mem_map.1 he
        obtain ⟨P, hP, hx⟩ := List.mem_flatMap.1 hx
        exact key P (List.mem_append_right _ hP) x hx

/-- The assumptions of C50 and C51 can be met: there is an engine that is exact for all operands and
stays on the grid for rectilinear ones. -/
theorem exact_engine_exists [FloorRing K] : ∃ e : Engine K,
    Exact (fun _ => True) e ∧ Exact Rectilinear e ∧ StaysOnGrid Rectilinear e := by
  classical
  have h := fun (op : ClipOp) (A B : List (List IPt)) =>
    clip_exists (K := K) op (A.map ofGrid) (B.map ofGrid)
  choose f hf using h
  refine ⟨⟨f⟩, ⟨fun op A B _ _ p => (hf op A B).1 p, fun op A B _ _ => (hf op A B).2.1⟩,
    ⟨fun op A B _ _ p => (hf op A B).1 p, fun op A B _ _ => (hf op A B).2.1⟩, ?_⟩
  intro op A B hA hB q hq
  refine (hf op A B).2.2 ?_ q hq
  intro P hP
  rcases List.mem_append.1 hP with hP | hP
  · obtain ⟨Q, hQ, rfl⟩ := List.mem_map.1 hP
    exact ⟨Q, hA Q hQ, rfl⟩
  · obtain ⟨Q, hQ, rfl⟩ := List.mem_map.1 hP
    exact ⟨Q, hB Q hQ, rfl⟩

end Gdspy
