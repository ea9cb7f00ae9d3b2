import Verif.Props.C74
import Verif.Props.C72Meet
import Verif.Lemmas.Outline
import Verif.Lemmas.RoundOutline

/-!
# C74: widths and ends of the outline
-/

set_option linter.unusedSectionVars false

namespace Gdspy

open Spec

variable {K : Type} [Field K] [LinearOrder K] [IsStrictOrderedRing K]

theorem toLeft_multiple {t : Num K} (ht : Num.Polar t) {k : K} (hk : 0 < k) (v : Pt K) :
    toLeft t (k * v.1, k * v.2) = toLeft t v := by
  have h := rightNormal_multiple ht hk v
  rw [right_left, right_left] at h
  simp only [Prod.mk.injEq, neg_inj] at h
  exact Prod.ext h.1 h.2

theorem toLeft_image {t : Num K} (ht : Num.Polar t) {A : Aff K} {k e : K} (hA : Similar A k e) (v : Pt K) :
    A.lin (toLeft t v) = (e * k * (toLeft t (A.lin v)).1, e * k * (toLeft t (A.lin v)).2) := by
  have h := rightNormal_image ht hA v
  rw [right_left, right_left] at h
  unfold psmul Aff.lin at h
  unfold Aff.lin
  simp only [Prod.mk.injEq] at h ⊢
  exact ⟨by linear_combination h.1, by linear_combination h.2⟩

theorem app_sum (A : Aff K) (p n : Pt K) (x : K) :
    A.app (p.1 + x * n.1, p.2 + x * n.2) = ((A.app p).1 + x * (A.lin n).1, (A.app p).2 + x * (A.lin n).2) := by
  unfold Aff.app Aff.lin
  refine Prod.ext ?_ ?_ <;> simp only <;> ring

theorem step_pos {h u : K} (hh : 0 < h) (h0 : 0 ≤ u) (h1 : u ≤ 1) : 0 < min 1 (u + h) - max 0 (u - h) := by
  have : max 0 (u - h) < min 1 (u + h) := by
    rw [max_lt_iff, lt_min_iff, lt_min_iff]
    exact ⟨⟨one_pos, by linarith⟩, by linarith, by linarith⟩
  linarith

/-- **C74.** The line of a section is drawn at its offset to the right of the curve, perpendicular to the direction of the
curve. After transformations the offset is magnified, and on the other side if it was reflected. -/
theorem C74_centre {t : Num K} (ht : Num.Polar t) {s : Sub K} {A : Aff K} {k e : K} (hs : s.tr = A.mat) (hA : Similar A k e)
    (u : K) : edge t s 0 u = ((A.app (s.x u)).1 - e * k * s.off u * (toLeft t (A.lin (s.dx u s.h))).1,
      (A.app (s.x u)).2 - e * k * s.off u * (toLeft t (A.lin (s.dx u s.h))).2) := by
  unfold edge centreLine
  simp only
  rw [hs, mat_app]
  have := app_sum A (s.x u) (toLeft t (s.dx u s.h)) (-s.off u)
  rw [toLeft_image ht hA] at this
  rw [show ((s.x u).1 - s.off u * (toLeft t (s.dx u s.h)).1 + 0 * (s.wid u / 2) * (toLeft t (lineHeading t s u)).1,
      (s.x u).2 - s.off u * (toLeft t (s.dx u s.h)).2 + 0 * (s.wid u / 2) * (toLeft t (lineHeading t s u)).2) =
      ((s.x u).1 + -s.off u * (toLeft t (s.dx u s.h)).1, (s.x u).2 + -s.off u * (toLeft t (s.dx u s.h)).2) by
    refine Prod.ext ?_ ?_ <;> simp only <;> ring, this]
  refine Prod.ext ?_ ?_ <;> simp only <;> ring

theorem edge_zero {t : Num K} {s : Sub K} {A : Aff K} (hs : s.tr = A.mat) (u : K) :
    edge t s 0 u = A.app (centreLine t s u) := by
  have h : ((centreLine t s u).1 + 0 * (s.wid u / 2) * (toLeft t (lineHeading t s u)).1,
      (centreLine t s u).2 + 0 * (s.wid u / 2) * (toLeft t (lineHeading t s u)).2) = centreLine t s u := by
    refine Prod.ext ?_ ?_ <;> simp only <;> ring
  unfold edge
  simp only
  rw [hs, mat_app, h]

theorem slope_heading {t : Num K} {s : Sub K} {A : Aff K} (hs : s.tr = A.mat) (u : K) :
    stepSlope s.h (edge t s 0) u = (1 / (min 1 (u + s.h) - max 0 (u - s.h)) * (A.lin (lineHeading t s u)).1,
      1 / (min 1 (u + s.h) - max 0 (u - s.h)) * (A.lin (lineHeading t s u)).2) := by
  unfold stepSlope
  simp only
  rw [edge_zero hs, edge_zero hs]
  unfold lineHeading Aff.app Aff.lin
  refine Prod.ext ?_ ?_ <;> simp only <;> ring

/-- **C74.** The sides of a section are drawn at half of the width from its line, perpendicular to the direction of the line (over
a small step). After transformations the width is magnified; after a reflection the sides are exchanged. -/
theorem C74_half_width {t : Num K} (ht : Num.Polar t) {s : Sub K} {A : Aff K} {k e : K} (hs : s.tr = A.mat)
    (hA : Similar A k e) (hh : 0 < s.h) {u : K} (h0 : 0 ≤ u) (h1 : u ≤ 1) (side : K) :
    edge t s side u =
      ((edge t s 0 u).1 + side * (e * k * s.wid u / 2) * (toLeft t (stepSlope s.h (edge t s 0) u)).1,
       (edge t s 0 u).2 + side * (e * k * s.wid u / 2) * (toLeft t (stepSlope s.h (edge t s 0) u)).2) := by
  rw [slope_heading hs, toLeft_multiple ht (one_div_pos.2 (step_pos hh h0 h1)), edge_zero hs]
  have := app_sum A (centreLine t s u) (toLeft t (lineHeading t s u)) (side * (s.wid u / 2))
  rw [toLeft_image ht hA] at this
  unfold edge
  simp only
  rw [hs, mat_app, this]
  refine Prod.ext ?_ ?_ <;> simp only <;> ring

variable [FloorRing K]

/-- The width that the code measures. -/
theorem width_drawn {t : Num K} (ht : Num.Polar t) {s : Sub K} {A : Aff K} {k e : K} (hs : s.tr = A.mat)
    (hA : Similar A k e) (hh : 0 < s.h) {u : K} (h0 : 0 ≤ u) (h1 : u ≤ 1) (hv : stepSlope s.h (edge t s 0) u ≠ (0, 0))
    (hw : 0 < e * k * s.wid u) : s.width t u = e * k * s.wid u := by
  unfold Sub.width
  rw [call_edge t s u (.inl rfl), call_edge t s u (.inr (.inl rfl)), C74_half_width ht hs hA hh h0 h1,
    C74_half_width ht hs hA hh h0 h1 (-((1 : Int) : K))]
  have hn := toLeft_unit ht hv
  generalize toLeft t (stepSlope s.h (edge t s 0) u) = n at hn
  generalize e * k * s.wid u = w at hw
  unfold normSq psub
  simp only
  rw [show ((edge t s 0 u).1 + -((-1 : Int) : K) * (w / 2) * n.1 - ((edge t s 0 u).1 + -((1 : Int) : K) * (w / 2) * n.1)) ^ 2 +
      ((edge t s 0 u).2 + -((-1 : Int) : K) * (w / 2) * n.2 - ((edge t s 0 u).2 + -((1 : Int) : K) * (w / 2) * n.2)) ^ 2 = w ^ 2 by
    push_cast
    linear_combination w ^ 2 * hn]
  have h3 := ht.sqrtSq (w ^ 2) (sq_nonneg w)
  exact (pow_left_inj₀ (ht.sqrtNonneg _) hw.le two_ne_zero).1 h3

theorem unit_toLeft (t : Num K) (v : Pt K) : toLeft t v = (-(unitVec t v).2, (unitVec t v).1) := by
  unfold toLeft unitVec
  refine Prod.ext ?_ rfl
  simp only
  ring

theorem unit_neg (t : Num K) (v : Pt K) : unitVec t (-1 * v.1, -1 * v.2) = (-(unitVec t v).1, -(unitVec t v).2) := by
  unfold unitVec
  simp only
  rw [show (-1 * v.1) ^ 2 + (-1 * v.2) ^ 2 = v.1 ^ 2 + v.2 ^ 2 by ring]
  refine Prod.ext ?_ ?_ <;> simp only <;> ring

theorem edge_corner {t : Num K} (ht : Num.Polar t) {s : Sub K} {A : Aff K} {k e : K} (hs : s.tr = A.mat)
    (hA : Similar A k e) (hh : 0 < s.h) {u : K} (hu : u = 0 ∨ u = 1) (x : K) :
    edge t s (x * (1 - 2 * u)) u = ((edge t s 0 u).1 + x * (e * k * s.wid u / 2) * (outward t s u).2,
      (edge t s 0 u).2 - x * (e * k * s.wid u / 2) * (outward t s u).1) := by
  have h2 : (1 - 2 * u) * (2 * u - 1) = -1 := by rcases hu with rfl | rfl <;> ring1
  rw [C74_half_width ht hs hA hh (by rcases hu with rfl | rfl <;> simp) (by rcases hu with rfl | rfl <;> simp), unit_toLeft]
  unfold outward
  simp only
  have h3 : (1 - 2 * u) = - (2 * u - 1) := by ring
  rw [h3]
  refine Prod.ext ?_ ?_ <;> simp only <;> ring

theorem round_inner (t : Num K) (p v : Pt K) (r : K) {k : Int} :
    (inner (linspace (-t.halfpi) t.halfpi (max 5 (1 + k)).toNat)).map (fun a =>
      padd p (psmul r (t.cos (a + t.atan2 v.2 v.1), t.sin (a + t.atan2 v.2 v.1)))) =
    inner ((linspace (-t.halfpi) t.halfpi (max 5 (1 + k)).toNat).map fun a =>
    padd p (psmul r (t.cos (1 * a + t.atan2 v.2 v.1), t.sin (1 * a + t.atan2 v.2 v.1)))) := by
  unfold inner
  rw [← List.map_drop, ← List.map_dropLast]
  simp only [one_mul]

theorem ends_inner {α : Type} {l : List α} {p q : α} (h2 : 2 ≤ l.length) (hp : l.head? = some p) (hq : l.getLast? = some q) :
    p :: inner l ++ [q] = l := by
  match l, h2 with
  | a :: b :: l, _ =>
    simp only [List.head?_cons, Option.some.injEq] at hp
    subst hp
    rw [List.getLast?_cons_cons, List.getLast?_eq_some_iff] at hq
    obtain ⟨ys, hy⟩ := hq
    unfold inner
    rw [List.drop_succ_cons, List.drop_zero, hy, List.dropLast_concat]
    rfl

/-- The caps of a section: the points from one corner to the other. -/
theorem cap_ok {ctx : FlexCtx K} (ht : Num.Polar ctx.num) {tol : K} {limit : Nat} {fin : FlexEnd K} {s : Sub K} {A : Aff K}
    {k e : K} (hs : s.tr = A.mat) (hA : Similar A k e) (hh : 0 < s.h) {arm : Int} (harm : arm = -1 ∨ arm = 1) {u : K}
    (hu : u = if arm = 1 then 0 else 1) (hv : stepSlope s.h (edge ctx.num s 0) u ≠ (0, 0)) (hw : 0 < e * k * s.wid u)
    (hr : fin ≠ .round) {g : List (Pt K)} (hg : robustCap ctx tol limit fin s arm = .ok g) :
    EndOk fin (edge ctx.num s 0 u) (edge ctx.num s (1 - 2 * u) u) (edge ctx.num s (2 * u - 1) u) (outward ctx.num s u)
      (e * k * s.wid u) (extension fin u)
      (edge ctx.num s (1 - 2 * u) u :: g ++ [edge ctx.num s (2 * u - 1) u]) := by
  have hu' : u = 0 ∨ u = 1 := by rcases harm with rfl | rfl <;> simp at hu <;> simp [hu]
  have hsgn : -(arm : K) = 2 * u - 1 := by
    rcases harm with rfl | rfl <;> simp at hu <;> rw [hu] <;> push_cast <;> ring
  have hc := edge_corner ht hs hA hh hu' 1
  have hd := edge_corner ht hs hA hh hu' (-1)
  rw [show (1 : K) * (1 - 2 * u) = 1 - 2 * u by ring] at hc
  rw [show (-1 : K) * (1 - 2 * u) = 2 * u - 1 by ring] at hd
  have h01 : 0 ≤ u ∧ u ≤ 1 := by rcases hu' with rfl | rfl <;> simp
  have hwd := width_drawn ht hs hA hh h01.1 h01.2 hv hw
  have hcall : s.call ctx.num u 0 = edge ctx.num s 0 u := by
    have := call_edge ctx.num s u (arm := 0) (.inr (.inr rfl))
    simpa using this
  have hgrad : s.grad ctx.num u 0 = stepSlope s.h (edge ctx.num s 0) u := by
    have := grad_slope ctx.num s u (arm := 0) (.inr (.inr rfl))
    simpa using this
  have hout : outward ctx.num s u = unitVec ctx.num (psmul (-(arm : K)) (stepSlope s.h (edge ctx.num s 0) u)) := by
    unfold outward
    simp only
    rw [hsgn]
    rcases hu' with rfl | rfl
    · have := unit_neg ctx.num (stepSlope s.h (edge ctx.num s 0) 0)
      rw [show (2 * (0 : K) - 1) = -1 by ring]
      unfold psmul
      rw [this]
      refine Prod.ext ?_ ?_ <;> simp only <;> ring
    · unfold psmul
      rw [show (2 * (1 : K) - 1) = 1 by ring, one_mul, one_mul, one_mul, one_mul]
  unfold robustCap at hg
  simp only at hg
  rw [← hu, hcall, hgrad, hwd] at hg
  have hst : ∀ d : K, [padd (padd (edge ctx.num s 0 u) (psmul d (psmul (1 / ctx.num.sqrt (normSq
        (psmul (-(arm : K)) (stepSlope s.h (edge ctx.num s 0) u)))) (psmul (-(arm : K)) (stepSlope s.h (edge ctx.num s 0) u)))))
        (psmul (1 / 2 * (e * k * s.wid u)) ((psmul (1 / ctx.num.sqrt (normSq
        (psmul (-(arm : K)) (stepSlope s.h (edge ctx.num s 0) u)))) (psmul (-(arm : K)) (stepSlope s.h (edge ctx.num s 0) u))).2 * 1,
        (psmul (1 / ctx.num.sqrt (normSq
        (psmul (-(arm : K)) (stepSlope s.h (edge ctx.num s 0) u)))) (psmul (-(arm : K)) (stepSlope s.h (edge ctx.num s 0) u))).1 * -1)),
        psub (padd (edge ctx.num s 0 u) (psmul d (psmul (1 / ctx.num.sqrt (normSq
        (psmul (-(arm : K)) (stepSlope s.h (edge ctx.num s 0) u)))) (psmul (-(arm : K)) (stepSlope s.h (edge ctx.num s 0) u)))))
        (psmul (1 / 2 * (e * k * s.wid u)) ((psmul (1 / ctx.num.sqrt (normSq
        (psmul (-(arm : K)) (stepSlope s.h (edge ctx.num s 0) u)))) (psmul (-(arm : K)) (stepSlope s.h (edge ctx.num s 0) u))).2 * 1,
        (psmul (1 / ctx.num.sqrt (normSq
        (psmul (-(arm : K)) (stepSlope s.h (edge ctx.num s 0) u)))) (psmul (-(arm : K)) (stepSlope s.h (edge ctx.num s 0) u))).1 * -1))] =
      [((edge ctx.num s (1 - 2 * u) u).1 + d * (outward ctx.num s u).1, (edge ctx.num s (1 - 2 * u) u).2 + d * (outward ctx.num s u).2),
       ((edge ctx.num s (2 * u - 1) u).1 + d * (outward ctx.num s u).1, (edge ctx.num s (2 * u - 1) u).2 + d * (outward ctx.num s u).2)] := by
    intro d
    rw [hc, hd, hout]
    generalize psmul (-(arm : K)) (stepSlope s.h (edge ctx.num s 0) u) = v
    generalize edge ctx.num s 0 u = c
    generalize e * k * s.wid u = w
    unfold psmul padd psub unitVec normSq
    simp only [List.cons.injEq, and_true]
    constructor <;> refine Prod.ext ?_ ?_ <;> simp only <;> ring
  cases fin with
  | round => exact absurd rfl hr
  | smooth => trivial
  | fn f => trivial
  | flush =>
    simp only [Except.ok.injEq] at hg
    subst hg
    rfl
  | extended =>
    simp only [Except.ok.injEq] at hg
    rw [hst] at hg
    subst hg
    unfold EndOk
    simp only [List.cons_append, List.nil_append]
    rw [show 1 / 2 * (e * k * s.wid u) = e * k * s.wid u / 2 by ring]
  | pair a b =>
    simp only [Except.ok.injEq] at hg
    rw [hst] at hg
    subst hg
    unfold EndOk extension
    simp only [List.cons_append, List.nil_append]
    have : (if u = 0 then a else b) = if arm = 1 then a else b := by
      rcases harm with rfl | rfl <;> simp at hu <;> simp [hu]
    rw [this]

/-- The same for round caps. -/
theorem cap_round {ctx : FlexCtx ℝ} (hc0 : ctx.num = realNum) {tol : ℝ} {limit : Nat} {s : Sub ℝ} {A : Aff ℝ}
    {k e : ℝ} (hs : s.tr = A.mat) (hA : Similar A k e) (hh : 0 < s.h) {arm : Int} (harm : arm = -1 ∨ arm = 1) {u : ℝ}
    (hu : u = if arm = 1 then 0 else 1) (hv : stepSlope s.h (edge realNum s 0) u ≠ (0, 0)) (hw : 0 < e * k * s.wid u)
    {g : List (Pt ℝ)} (hg : robustCap ctx tol limit .round s arm = .ok g) (d : ℝ) :
    EndOk .round (edge realNum s 0 u) (edge realNum s (1 - 2 * u) u) (edge realNum s (2 * u - 1) u) (outward realNum s u)
      (e * k * s.wid u) d (edge realNum s (1 - 2 * u) u :: g ++ [edge realNum s (2 * u - 1) u]) := by
  have ht := realNum_polar
  have hu' : u = 0 ∨ u = 1 := by rcases harm with rfl | rfl <;> simp at hu <;> simp [hu]
  have hsgn : -(arm : ℝ) = 2 * u - 1 := by
    rcases harm with rfl | rfl <;> simp at hu <;> rw [hu] <;> push_cast <;> ring
  have hc := edge_corner ht hs hA hh hu' 1
  have hd := edge_corner ht hs hA hh hu' (-1)
  rw [show (1 : ℝ) * (1 - 2 * u) = 1 - 2 * u by ring] at hc
  rw [show (-1 : ℝ) * (1 - 2 * u) = 2 * u - 1 by ring] at hd
  have h01 : 0 ≤ u ∧ u ≤ 1 := by rcases hu' with rfl | rfl <;> simp
  have hwd := width_drawn ht hs hA hh h01.1 h01.2 hv hw
  have hcall : s.call realNum u 0 = edge realNum s 0 u := by
    have := call_edge realNum s u (arm := 0) (.inr (.inr rfl))
    simpa using this
  have hgrad : s.grad realNum u 0 = stepSlope s.h (edge realNum s 0) u := by
    have := grad_slope realNum s u (arm := 0) (.inr (.inr rfl))
    simpa using this
  have hout : outward realNum s u = unitVec realNum (psmul (-(arm : ℝ)) (stepSlope s.h (edge realNum s 0) u)) := by
    unfold outward
    simp only
    rw [hsgn]
    rcases hu' with rfl | rfl
    · have := unit_neg realNum (stepSlope s.h (edge realNum s 0) 0)
      rw [show (2 * (0 : ℝ) - 1) = -1 by ring]
      unfold psmul
      rw [this]
      refine Prod.ext ?_ ?_ <;> simp only <;> ring
    · unfold psmul
      rw [show (2 * (1 : ℝ) - 1) = 1 by ring, one_mul, one_mul, one_mul, one_mul]
  unfold robustCap at hg
  simp only at hg
  rw [hc0, ← hu, hcall, hgrad, hwd] at hg
  have hv' : psmul (-(arm : ℝ)) (stepSlope s.h (edge realNum s 0) u) ≠ (0, 0) := by
    intro h0
    apply hv
    unfold psmul at h0
    rw [Prod.mk.injEq] at h0
    have : -(arm : ℝ) ≠ 0 := by rcases harm with rfl | rfl <;> norm_num
    exact Prod.ext ((mul_eq_zero.1 h0.1).resolve_left this) ((mul_eq_zero.1 h0.2).resolve_left this)
  generalize psmul (-(arm : ℝ)) (stepSlope s.h (edge realNum s 0) u) = v at hv' hg hout
  cases hf : flexSteps realNum (2 * realNum.halfpi) tol (1 / 2 * (e * k * s.wid u)) with
  | error x => rw [hf] at hg; cases hg
  | ok n =>
    rw [hf] at hg
    replace hg := Except.ok.inj hg
    rw [round_inner] at hg
    have hrc : roundCap realNum tol (edge realNum s 0 u) v (1 / 2 * (e * k * s.wid u)) 1 = .ok
        ((linspace (-realNum.halfpi) realNum.halfpi (max 5 (1 + n)).toNat).map fun a =>
          padd (edge realNum s 0 u) (psmul (1 / 2 * (e * k * s.wid u)) (realNum.cos (1 * a + realNum.atan2 v.2 v.1),
            realNum.sin (1 * a + realNum.atan2 v.2 v.1)))) := by
      unfold roundCap
      rw [hf]
      rfl
    generalize hl : ((linspace (-realNum.halfpi) realNum.halfpi (max 5 (1 + n)).toNat).map fun a =>
          padd (edge realNum s 0 u) (psmul (1 / 2 * (e * k * s.wid u)) (realNum.cos (1 * a + realNum.atan2 v.2 v.1),
            realNum.sin (1 * a + realNum.atan2 v.2 v.1)))) = l at hg hrc
    obtain ⟨g1, g2, g3, g4, g5⟩ := roundCap_ok hv' (by linarith) (.inl rfl) hrc (outward realNum s u) hout
    have e1 : edge realNum s (1 - 2 * u) u = ((edge realNum s 0 u).1 + 1 * (1 / 2 * (e * k * s.wid u)) * (outward realNum s u).2,
        (edge realNum s 0 u).2 - 1 * (1 / 2 * (e * k * s.wid u)) * (outward realNum s u).1) := by
      rw [hc]; refine Prod.ext ?_ ?_ <;> simp only <;> ring
    have e2 : edge realNum s (2 * u - 1) u = ((edge realNum s 0 u).1 - 1 * (1 / 2 * (e * k * s.wid u)) * (outward realNum s u).2,
        (edge realNum s 0 u).2 + 1 * (1 / 2 * (e * k * s.wid u)) * (outward realNum s u).1) := by
      rw [hd]; refine Prod.ext ?_ ?_ <;> simp only <;> ring
    rw [← e1] at g2
    rw [← e2] at g3
    rw [← hg, ends_inner (by omega) g2 g3]
    refine ⟨g1, g2, g3, fun x hx => ⟨(g4 x hx).1.trans (by ring), (g4 x hx).2⟩, g5.imp fun {x y} h => ?_⟩
    rw [e1]
    simp only
    refine h.trans (le_of_eq ?_)
    ring

end Gdspy
