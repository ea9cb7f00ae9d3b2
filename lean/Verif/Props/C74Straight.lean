import Verif.Props.C74Outline
import Verif.Props.C70Area

/-!
# C74: paths of straight sections

The outline of a RobustPath of constant width that follows a line of points has the area width times length.
-/

set_option linter.unusedSectionVars false

namespace Gdspy

open Spec

variable {K : Type} [Field K] [LinearOrder K]

/-- A section from `p` to `q` without offset, of width `w`. -/
structure Spec.StraightSection (tol : K) (limit : Nat) (w : K) (s : Sub K) (p q : Pt K) : Prop where
  x : ∀ u, s.x u = (p.1 + (q.1 - p.1) * u, p.2 + (q.2 - p.2) * u)
  dx : ∀ u h, s.dx u h = (q.1 - p.1, q.2 - p.2)
  off : ∀ u, s.off u = 0
  wid : ∀ u, s.wid u = w
  err : s.err = tol ^ 2
  maxEvals : s.maxEvals = limit
  step : 0 < s.h
  place : ∀ p, s.tr.app p = p

/-- Sections from point to point. -/
inductive Spec.StraightPath (tol : K) (limit : Nat) (w : K) : List (Sub K) → List (Pt K) → Prop
  | one {s : Sub K} {p q : Pt K} : StraightSection tol limit w s p q → StraightPath tol limit w [s] [p, q]
  | more {s s1 : Sub K} {l : List (Sub K)} {p c q : Pt K} {r : List (Pt K)} : StraightSection tol limit w s p c →
      StraightPath tol limit w (s1 :: l) (c :: q :: r) → StraightPath tol limit w (s :: s1 :: l) (p :: c :: q :: r)

/-- Twice the area between two vectors, and their scalar product, at the corner `c` of a line. -/
def Spec.cornerTurn (p c q : Pt K) : K := (c.1 - p.1) * (q.2 - c.2) - (c.2 - p.2) * (q.1 - c.1)
def Spec.aheadAt (p c q : Pt K) : K := (c.1 - p.1) * (q.1 - c.1) + (c.2 - p.2) * (q.2 - c.2)

/-- By how much the inner sides of a corner are shortened and the outer ones extended: half of the width times the
tangent of half of the angle (positive for turns to the left). -/
def Spec.inset (t : Num K) (w : K) (p c q : Pt K) : K :=
  w / 2 * cornerTurn p c q / (t.sqrt (dist2 p c) * t.sqrt (dist2 c q) + aheadAt p c q)

/-- The line goes straight on at `c`; or it turns by an angle whose sine is at least one millionth, the sides at the corner are
farther apart than the tolerance, and what is cut off does not exceed the length of a section. -/
def Spec.ClearCorner (t : Num K) (tol w : K) (p c q : Pt K) : Prop :=
  (cornerTurn p c q = 0 ∧ 0 < aheadAt p c q) ∨
    (1 / 10 ^ 12 * dist2 p c * dist2 c q ≤ cornerTurn p c q ^ 2 ∧
      tol ^ 2 < (w / 2) ^ 2 * dist2 (toLeft t (c.1 - p.1, c.2 - p.2)) (toLeft t (q.1 - c.1, q.2 - c.2)) ∧
      |inset t w p c q| ≤ t.sqrt (dist2 p c) ∧ |inset t w p c q| ≤ t.sqrt (dist2 c q))

/-- Every corner of a line is clear. -/
def Spec.ClearCorners (t : Num K) (tol w : K) : List (Pt K) → Prop
  | p :: c :: q :: r => ClearCorner t tol w p c q ∧ ClearCorners t tol w (c :: q :: r)
  | _ => True

/-- The line at the distance `d` to the left of that from `p` to `q`. -/
def laneAt (t : Num K) (d : K) (p q : Pt K) (u : K) : Pt K :=
  let n := toLeft t (q.1 - p.1, q.2 - p.2)
  (p.1 + (q.1 - p.1) * u + d * n.1, p.2 + (q.2 - p.2) * u + d * n.2)

variable [IsStrictOrderedRing K]

theorem straight_centre {t : Num K} {tol : K} {limit : Nat} {w : K} {s : Sub K} {p q : Pt K}
    (h : StraightSection tol limit w s p q) (u : K) :
    centreLine t s u = (p.1 + (q.1 - p.1) * u, p.2 + (q.2 - p.2) * u) := by
  unfold centreLine
  simp only
  rw [h.x, h.off, zero_mul, zero_mul, sub_zero, sub_zero]

theorem straight_edge {t : Num K} (ht : Num.Polar t) {tol : K} {limit : Nat} {w : K} {s : Sub K} {p q : Pt K}
    (h : StraightSection tol limit w s p q) (side : K) {u : K} (h0 : 0 ≤ u) (h1 : u ≤ 1) :
    edge t s side u = laneAt t (side * (w / 2)) p q u := by
  have hp := step_pos h.step h0 h1
  have hh : lineHeading t s u = ((min 1 (u + s.h) - max 0 (u - s.h)) * (q.1 - p.1), (min 1 (u + s.h) - max 0 (u - s.h)) * (q.2 - p.2)) := by
    unfold lineHeading
    simp only
    rw [straight_centre h, straight_centre h]
    refine Prod.ext ?_ ?_ <;> simp only <;> ring
  unfold edge laneAt
  simp only
  rw [h.place, straight_centre h, hh, toLeft_multiple ht hp (q.1 - p.1, q.2 - p.2), h.wid]

theorem straight_slope {t : Num K} (ht : Num.Polar t) {tol : K} {limit : Nat} {w : K} {s : Sub K} {p q : Pt K}
    (h : StraightSection tol limit w s p q) (side : K) {u : K} (h0 : 0 ≤ u) (h1 : u ≤ 1) :
    stepSlope s.h (edge t s side) u = (q.1 - p.1, q.2 - p.2) := by
  have hp := step_pos h.step h0 h1
  have hp' := hp.ne'
  unfold stepSlope
  simp only
  rw [straight_edge ht h side (le_min zero_le_one (by linarith [h.step])) (min_le_left _ _),
    straight_edge ht h side (le_max_left _ _) (max_le zero_le_one (by linarith [h.step]))]
  unfold laneAt
  refine Prod.ext ?_ ?_ <;> simp only <;> field_simp <;> ring

theorem straight_points {t : Num K} (ht : Num.Polar t) {tol : K} {limit : Nat} {w : K} {s : Sub K} {p q : Pt K}
    (h : StraightSection tol limit w s p q) {arm : Int} (harm : arm = -1 ∨ arm = 1 ∨ arm = 0) {a b : K} (ha0 : 0 ≤ a)
    (ha1 : a ≤ 1) (hb0 : 0 ≤ b) (hb1 : b ≤ 1) :
    s.points t a b arm = [laneAt t (-(arm : K) * (w / 2)) p q a, laneAt t (-(arm : K) * (w / 2)) p q b] := by
  have hc : (fun u => s.call t u arm) = edge t s (-(arm : K)) := funext fun u => call_edge t s u harm
  have key : subPoints (edge t s (-(arm : K))) s.err s.maxEvals (2 * s.maxEvals + 1) a b =
      some [(a, edge t s (-(arm : K)) a), (b, edge t s (-(arm : K)) b)] := by
    unfold subPoints subLoop
    split
    · rw [straight_edge ht h _ ha0 ha1, straight_edge ht h _ hb0 hb1]
      have hf : fracTest (edge t s (-(arm : K))) s.err (a, laneAt t (-(arm : K) * (w / 2)) p q a)
          (b, laneAt t (-(arm : K) * (w / 2)) p q b) [1 / 5, 1 / 2, 4 / 5] = none := by
        have hz : ∀ f : K, 0 ≤ f → f ≤ 1 → ¬ sqErr (lerpPt (laneAt t (-(arm : K) * (w / 2)) p q a)
            (laneAt t (-(arm : K) * (w / 2)) p q b) f) (edge t s (-(arm : K)) (a * (1 - f) + b * f)) > s.err := by
          intro f f0 f1
          rw [straight_edge ht h _ (by nlinarith) (by nlinarith), h.err, gt_iff_lt, not_lt]
          have : sqErr (lerpPt (laneAt t (-(arm : K) * (w / 2)) p q a) (laneAt t (-(arm : K) * (w / 2)) p q b) f)
              (laneAt t (-(arm : K) * (w / 2)) p q (a * (1 - f) + b * f)) = 0 := by
            unfold sqErr lerpPt laneAt
            simp only
            ring
          rw [this]
          exact sq_nonneg _
        unfold fracTest
        simp only
        rw [if_neg (hz _ (by norm_num) (by norm_num))]
        unfold fracTest
        simp only
        rw [if_neg (hz _ (by norm_num) (by norm_num))]
        unfold fracTest
        simp only
        rw [if_neg (hz _ (by norm_num) (by norm_num))]
        rfl
      rw [hf]
      simp only
      unfold subLoop
      rfl
    · rfl
  unfold Sub.points
  rw [hc, key]
  simp only [Option.getD_some, List.map_cons, List.map_nil]
  rw [straight_edge ht h _ ha0 ha1, straight_edge ht h _ hb0 hb1]

variable [FloorRing K]

/-- The lines beside two sections meet where the inset says. -/
theorem inset_vec {t : Num K} (ht : Num.Polar t) {w : K} {p c q : Pt K} (h1 : 0 < dist2 p c) (h2 : 0 < dist2 c q)
    (hd : t.sqrt (dist2 p c) * t.sqrt (dist2 c q) + aheadAt p c q ≠ 0) :
    w / 2 * ((toLeft t (q.1 - c.1, q.2 - c.2)).1 - (toLeft t (c.1 - p.1, c.2 - p.2)).1) =
      -(inset t w p c q * ((c.1 - p.1) / t.sqrt (dist2 p c) + (q.1 - c.1) / t.sqrt (dist2 c q))) ∧
    w / 2 * ((toLeft t (q.1 - c.1, q.2 - c.2)).2 - (toLeft t (c.1 - p.1, c.2 - p.2)).2) =
      -(inset t w p c q * ((c.2 - p.2) / t.sqrt (dist2 p c) + (q.2 - c.2) / t.sqrt (dist2 c q))) := by
  have hs1 := sqrt_pos_of ht h1
  have hs2 := sqrt_pos_of ht h2
  have hq1 := ht.sqrtSq _ h1.le
  have hq2 := ht.sqrtSq _ h2.le
  have e1 : (c.1 - p.1) ^ 2 + (c.2 - p.2) ^ 2 = dist2 p c := by simp only [dist2]; ring
  have e2 : (q.1 - c.1) ^ 2 + (q.2 - c.2) ^ 2 = dist2 c q := by simp only [dist2]; ring
  simp only [toLeft, e1, e2, inset]
  replace hq1 := hq1.trans e1.symm
  replace hq2 := hq2.trans e2.symm
  obtain ⟨D, hD⟩ : ∃ D, D = t.sqrt (dist2 p c) * t.sqrt (dist2 c q) + aheadAt p c q := ⟨_, rfl⟩
  rw [← hD] at hd ⊢
  unfold cornerTurn
  unfold aheadAt at hD
  generalize t.sqrt (dist2 p c) = L at *
  generalize t.sqrt (dist2 c q) = M at *
  generalize c.1 - p.1 = a at *
  generalize c.2 - p.2 = b at *
  generalize q.1 - c.1 = x at *
  generalize q.2 - c.2 = y at *
  have hL := hs1.ne'
  have hM := hs2.ne'
  constructor
  · field_simp
    linear_combination (w * (b * M - y * L)) * hD - w * y * M * hq1 + w * b * L * hq2
  · field_simp
    linear_combination (w * (x * L - a * M)) * hD + w * x * M * hq1 - w * a * L * hq2

theorem clear_denominator {t : Num K} (ht : Num.Polar t) {tol w : K} {p c q : Pt K} (h1 : 0 < dist2 p c) (h2 : 0 < dist2 c q)
    (hc : ClearCorner t tol w p c q) : 0 < t.sqrt (dist2 p c) * t.sqrt (dist2 c q) + aheadAt p c q := by
  have hs1 := sqrt_pos_of ht h1
  have hs2 := sqrt_pos_of ht h2
  rcases hc with ⟨_, h⟩ | ⟨h, _⟩
  · positivity
  · have hq1 := ht.sqrtSq _ h1.le
    have hq2 := ht.sqrtSq _ h2.le
    have ht2 : 0 < cornerTurn p c q ^ 2 := lt_of_lt_of_le (by positivity) h
    have e : (t.sqrt (dist2 p c) * t.sqrt (dist2 c q)) ^ 2 = aheadAt p c q ^ 2 + cornerTurn p c q ^ 2 := by
      rw [mul_pow, hq1, hq2]
      simp only [dist2, aheadAt, cornerTurn]
      ring
    have h3 : 0 < t.sqrt (dist2 p c) * t.sqrt (dist2 c q) := mul_pos hs1 hs2
    by_contra hcon
    have : (t.sqrt (dist2 p c) * t.sqrt (dist2 c q)) ^ 2 ≤ aheadAt p c q ^ 2 := by nlinarith
    linarith

/-- The meeting point of the lines beside two sections. -/
theorem lane_meet {t : Num K} (ht : Num.Polar t) {w : K} {p c q : Pt K} (h1 : 0 < dist2 p c) (h2 : 0 < dist2 c q)
    (hd : t.sqrt (dist2 p c) * t.sqrt (dist2 c q) + aheadAt p c q ≠ 0) (σ : K) :
    laneAt t (σ * (w / 2)) p c (1 + -(σ * inset t w p c q / t.sqrt (dist2 p c))) =
      laneAt t (σ * (w / 2)) c q (σ * inset t w p c q / t.sqrt (dist2 c q)) := by
  obtain ⟨i1, i2⟩ := inset_vec ht (w := w) h1 h2 hd
  unfold laneAt
  refine Prod.ext ?_ ?_ <;> simp only
  · linear_combination (-σ) * i1
  · linear_combination (-σ) * i2

theorem lane_end (t : Num K) (d : K) (p q : Pt K) (x : K) :
    ((laneAt t d p q 1).1 + x * (q.1 - p.1), (laneAt t d p q 1).2 + x * (q.2 - p.2)) = laneAt t d p q (1 + x) := by
  unfold laneAt
  refine Prod.ext ?_ ?_ <;> simp only <;> ring

theorem lane_begin (t : Num K) (d : K) (p q : Pt K) (x : K) :
    ((laneAt t d p q 0).1 + x * (q.1 - p.1), (laneAt t d p q 0).2 + x * (q.2 - p.2)) = laneAt t d p q x := by
  unfold laneAt
  refine Prod.ext ?_ ?_ <;> simp only <;> ring

theorem seek_done {h0 h1 : K} {c0 c1 : K → Pt K} {tol : K} (ht : 0 ≤ tol) (n : Nat) {u0 u1 step : K} (h : c0 u0 = c1 u1) :
    seek h0 h1 c0 c1 tol n u0 u1 step = (u0, u1) := by
  cases n with
  | zero => rfl
  | succ n =>
    unfold seek
    simp only
    rw [h, if_neg]
    unfold normSq psub
    simp only [sub_self, ne_eq, OfNat.ofNat_ne_zero, not_false_eq_true, zero_pow, add_zero, gt_iff_lt, not_lt]
    exact ht

/-- What is drawn of a straight section up to a clear corner. -/
theorem corner_piece {t : Num K} (ht : Num.Polar t) {tol : K} {limit : Nat} {w : K} {s s1 : Sub K} {p c q : Pt K}
    (hs : StraightSection tol limit w s p c) (hs1 : StraightSection tol limit w s1 c q) (h1 : 0 < dist2 p c)
    (h2 : 0 < dist2 c q) (hc : ClearCorner t tol w p c q) {arm : Int} (harm : arm = -1 ∨ arm = 1) {a : K} (ha0 : 0 ≤ a)
    (ha1 : a ≤ 1) :
    robustPiece t s a arm (robustJoin t tol limit s s1 arm) =
      (if 0 ≤ -(arm : K) * inset t w p c q then [laneAt t (-(arm : K) * (w / 2)) p c a]
        else [laneAt t (-(arm : K) * (w / 2)) p c a, laneAt t (-(arm : K) * (w / 2)) p c 1,
          laneAt t (-(arm : K) * (w / 2)) c q (-(arm : K) * inset t w p c q / t.sqrt (dist2 c q))],
       max 0 (-(arm : K) * inset t w p c q / t.sqrt (dist2 c q))) := by
  have harm' : arm = -1 ∨ arm = 1 ∨ arm = 0 := by rcases harm with h | h <;> simp [h]
  have hL := sqrt_pos_of ht h1
  have hM := sqrt_pos_of ht h2
  have hD := clear_denominator ht h1 h2 hc
  have hmeet := lane_meet ht (w := w) h1 h2 hD.ne' (-(arm : K))
  have hc0 : (fun u => s.call t u arm) = edge t s (-(arm : K)) := funext fun u => call_edge t s u harm'
  have hc1 : (fun u => s1.call t u arm) = edge t s1 (-(arm : K)) := funext fun u => call_edge t s1 u harm'
  have hg0 : subGrad s.h (edge t s (-(arm : K))) 1 = (c.1 - p.1, c.2 - p.2) := by
    rw [subGrad_slope, straight_slope ht hs _ zero_le_one le_rfl]
  have hg1 : subGrad s1.h (edge t s1 (-(arm : K))) 0 = (q.1 - c.1, q.2 - c.2) := by
    rw [subGrad_slope, straight_slope ht hs1 _ le_rfl zero_le_one]
  have hp0 := straight_edge ht hs (-(arm : K)) zero_le_one le_rfl
  have hp1 := straight_edge ht hs1 (-(arm : K)) (le_refl (0 : K)) zero_le_one
  have hden : (q.2 - c.2) * (c.1 - p.1) - (q.1 - c.1) * (c.2 - p.2) = cornerTurn p c q := by unfold cornerTurn; ring
  have hn0 : normSq (c.1 - p.1, c.2 - p.2) = dist2 p c := by simp only [normSq, dist2]; ring
  have hn1 : normSq (q.1 - c.1, q.2 - c.2) = dist2 c q := by simp only [normSq, dist2]; ring
  rw [join_core, hc0, hc1]
  unfold joinCore
  simp only
  rw [hg0, hg1, hp0, hp1]
  simp only
  rw [hden, hn0, hn1]
  rcases hc with ⟨hz, hah⟩ | ⟨hcl, hgap, hi1, hi2⟩
  · have hi : inset t w p c q = 0 := by unfold inset; rw [hz, mul_zero, zero_div]
    have hp : (0 : K) < 1 / 10 ^ 12 * dist2 p c * dist2 c q := by positivity
    rw [if_pos (Or.inl (by rw [hz]; simpa using hp)), hi, mul_zero, zero_div, max_self, if_pos le_rfl]
    simp only [add_zero, lt_self_iff_false, false_and, if_false]
    unfold robustPiece
    simp only [ge_iff_le, le_refl, if_true]
    rw [straight_points ht hs harm' ha0 ha1 zero_le_one le_rfl]
    rfl
  · have hne : cornerTurn p c q ≠ 0 := by
      intro h0
      rw [h0] at hcl
      have : (0 : K) < 1 / 10 ^ 12 * dist2 p c * dist2 c q := by positivity
      simp at hcl
      nlinarith
    have hsq : (-(arm : K)) ^ 2 = 1 := by rcases harm with rfl | rfl <;> norm_num
    have hgap' : normSq (psub (laneAt t (-(arm : K) * (w / 2)) c q 0) (laneAt t (-(arm : K) * (w / 2)) p c 1)) =
        (w / 2) ^ 2 * dist2 (toLeft t (c.1 - p.1, c.2 - p.2)) (toLeft t (q.1 - c.1, q.2 - c.2)) := by
      unfold laneAt normSq psub dist2
      simp only
      linear_combination ((w / 2) ^ 2 * (((toLeft t (c.1 - p.1, c.2 - p.2)).1 - (toLeft t (q.1 - c.1, q.2 - c.2)).1) ^ 2 +
        ((toLeft t (c.1 - p.1, c.2 - p.2)).2 - (toLeft t (q.1 - c.1, q.2 - c.2)).2) ^ 2)) * hsq
    have hno : ¬ (cornerTurn p c q ^ 2 < 1 / 10 ^ 12 * dist2 p c * dist2 c q ∨
        normSq (psub (laneAt t (-(arm : K) * (w / 2)) c q 0) (laneAt t (-(arm : K) * (w / 2)) p c 1)) ≤ tol ^ 2) := by
      rw [hgap']; push Not; exact ⟨hcl, hgap⟩
    rw [if_neg hno]
    have hx := lineCross_ok (p0 := laneAt t (-(arm : K) * (w / 2)) p c 1) (v0 := (c.1 - p.1, c.2 - p.2))
      (p1 := laneAt t (-(arm : K) * (w / 2)) c q 0) (v1 := (q.1 - c.1, q.2 - c.2)) (by simp only; rw [hden]; exact hne)
    generalize lineCross (laneAt t (-(arm : K) * (w / 2)) p c 1) (c.1 - p.1, c.2 - p.2) (laneAt t (-(arm : K) * (w / 2)) c q 0)
      (q.1 - c.1, q.2 - c.2) = X at hx
    simp only at hx
    rw [lane_end, lane_begin] at hx
    obtain ⟨x1, x2⟩ := hx
    have hu : X.1 = -(-(arm : K) * inset t w p c q / t.sqrt (dist2 p c)) ∧ X.2.1 = -(arm : K) * inset t w p c q / t.sqrt (dist2 c q) := by
      have e := x1.symm.trans x2
      generalize -(-(arm : K) * inset t w p c q / t.sqrt (dist2 p c)) = x at hmeet
      generalize -(arm : K) * inset t w p c q / t.sqrt (dist2 c q) = y at hmeet
      unfold laneAt at e hmeet
      rw [Prod.mk.injEq] at e hmeet
      have d1 : (c.1 - p.1) * (X.1 - x) = (q.1 - c.1) * (X.2.1 - y) := by linear_combination e.1 - hmeet.1
      have d2 : (c.2 - p.2) * (X.1 - x) = (q.2 - c.2) * (X.2.1 - y) := by linear_combination e.2 - hmeet.2
      unfold cornerTurn at hne
      constructor
      · have : ((c.1 - p.1) * (q.2 - c.2) - (c.2 - p.2) * (q.1 - c.1)) * (X.1 - x) = 0 := by
          linear_combination (q.2 - c.2) * d1 - (q.1 - c.1) * d2
        exact sub_eq_zero.1 ((mul_eq_zero.1 this).resolve_left hne)
      · have : ((c.1 - p.1) * (q.2 - c.2) - (c.2 - p.2) * (q.1 - c.1)) * (X.2.1 - y) = 0 := by
          linear_combination (c.2 - p.2) * d1 - (c.1 - p.1) * d2
        exact sub_eq_zero.1 ((mul_eq_zero.1 this).resolve_left hne)
    have habs : |-(arm : K) * inset t w p c q| = |inset t w p c q| := by
      rw [abs_mul]
      rcases harm with rfl | rfl <;> simp
    rw [hu.1, hu.2]
    rw [hu.2] at x2
    rw [← habs] at hi1 hi2
    have hm0 : -(arm : K) * inset t w p c q ≠ 0 := by
      have ha : -(arm : K) ≠ 0 := by rcases harm with rfl | rfl <;> norm_num
      by_cases hw : w = 0
      · rw [hw] at hgap
        simp at hgap
        exact absurd hgap (not_lt.2 (sq_nonneg tol))
      · unfold inset
        exact mul_ne_zero ha (div_ne_zero (mul_ne_zero (div_ne_zero hw two_ne_zero) hne) hD.ne')
    generalize -(arm : K) * inset t w p c q = m at *
    rw [abs_le] at hi1 hi2
    rcases lt_or_gt_of_ne hm0 with hm | hm
    · -- an outer corner
      have hy : m / t.sqrt (dist2 c q) < 0 := div_neg_of_neg_of_pos hm hM
      have hx : m / t.sqrt (dist2 p c) < 0 := div_neg_of_neg_of_pos hm hL
      rw [if_neg (by push Not; intro h; linarith), if_neg (not_le.2 hm), max_eq_left hy.le]
      unfold robustPiece
      simp only [ge_iff_le]
      rw [if_neg (not_le.2 hy), if_neg (by push Not; linarith), x2, straight_points ht hs harm' ha0 ha1 zero_le_one le_rfl]
      rfl
    · have hy : 0 < m / t.sqrt (dist2 c q) := div_pos hm hM
      have hx : 0 < m / t.sqrt (dist2 p c) := div_pos hm hL
      have hx1 : m / t.sqrt (dist2 p c) ≤ 1 := (div_le_one hL).2 hi1.2
      have hy1 : m / t.sqrt (dist2 c q) ≤ 1 := (div_le_one hM).2 hi2.2
      rw [if_pos ⟨by linarith, hy⟩, if_pos hm.le, max_eq_right hy.le, seek_done (sq_nonneg tol)]
      · unfold robustPiece
        simp only [ge_iff_le]
        rw [if_pos hy.le, if_pos (by linarith), straight_points ht hs harm' ha0 ha1 (by linarith) (by linarith)]
        rfl
      · rw [straight_edge ht hs _ (by linarith) (by linarith), straight_edge ht hs1 _ hy.le hy1]
        exact hmeet

/-- Consecutive points are different. -/
def Spec.Apart : List (Pt K) → Prop
  | p :: q :: r => 0 < dist2 p q ∧ Spec.Apart (q :: r)
  | _ => True

/-- The sum of the cross products along one side. `τ` is the inset at the beginning. -/
def laneSum (t : Num K) (w σ : K) : K → List (Pt K) → K
  | τ, [p, q] => (1 - σ * τ / t.sqrt (dist2 p q)) * cross (laneAt t (σ * (w / 2)) p q 0) (q.1 - p.1, q.2 - p.2)
  | τ, p :: c :: q :: r => (1 - σ * τ / t.sqrt (dist2 p c) - σ * inset t w p c q / t.sqrt (dist2 p c)) *
      cross (laneAt t (σ * (w / 2)) p c 0) (c.1 - p.1, c.2 - p.2) + laneSum t w σ (inset t w p c q) (c :: q :: r)
  | _, _ => 0

/-- The end of one side. -/
def laneEnd (t : Num K) (d : K) : List (Pt K) → Pt K
  | [p, q] => laneAt t d p q 1
  | _ :: c :: q :: r => laneEnd t d (c :: q :: r)
  | _ => (0, 0)

theorem lane_cross (t : Num K) (d : K) (p q : Pt K) (a b : K) :
    cross (laneAt t d p q a) (laneAt t d p q b) = (b - a) * cross (laneAt t d p q 0) (q.1 - p.1, q.2 - p.2) := by
  unfold laneAt cross
  simp only
  ring

theorem cross_self (p : Pt K) : cross p p = 0 := by
  unfold cross
  ring

theorem Spec.StraightPath.first {tol : K} {limit : Nat} {w : K} {s : Sub K} {l : List (Sub K)} {p q : Pt K}
    {r : List (Pt K)} (h : StraightPath tol limit w (s :: l) (p :: q :: r)) : StraightSection tol limit w s p q := by
  cases h with
  | one h => exact h
  | more h _ => exact h

theorem arm_head {t : Num K} (ht : Num.Polar t) {tol : K} {limit : Nat} {w : K} {s : Sub K} {l : List (Sub K)} {p q : Pt K}
    {r : List (Pt K)} (h : StraightPath tol limit w (s :: l) (p :: q :: r)) (hd : Apart (p :: q :: r))
    (hc : ClearCorners t tol w (p :: q :: r)) {arm : Int} (harm : arm = -1 ∨ arm = 1) {a : K} (ha0 : 0 ≤ a) (ha1 : a ≤ 1) :
    ∃ m, robustArm t tol limit arm a s l = laneAt t (-(arm : K) * (w / 2)) p q a :: m := by
  have harm' : arm = -1 ∨ arm = 1 ∨ arm = 0 := by rcases harm with h | h <;> simp [h]
  cases h with
  | one hs =>
    unfold robustArm
    rw [straight_points ht hs harm' ha0 ha1 zero_le_one le_rfl]
    exact ⟨_, rfl⟩
  | more hs hp =>
    unfold robustArm
    simp only
    rw [corner_piece ht hs hp.first hd.1 hd.2.1 hc.1 harm ha0 ha1]
    simp only
    split
    · exact ⟨_, rfl⟩
    · exact ⟨_, rfl⟩

/-- One side of a path. -/
theorem arm_chain {t : Num K} (ht : Num.Polar t) {tol : K} {limit : Nat} {w : K} {arm : Int} (harm : arm = -1 ∨ arm = 1)
    {path : List (Sub K)} {pts : List (Pt K)} (h : StraightPath tol limit w path pts) :
    ∀ {s : Sub K} {l : List (Sub K)} {p q : Pt K} {r : List (Pt K)} {τ : K}, path = s :: l → pts = p :: q :: r → Apart pts →
      ClearCorners t tol w pts → |τ| ≤ t.sqrt (dist2 p q) →
      (robustArm t tol limit arm (max 0 (-(arm : K) * τ / t.sqrt (dist2 p q))) s l).getLast? =
        some (laneEnd t (-(arm : K) * (w / 2)) pts) ∧
      chain (laneAt t (-(arm : K) * (w / 2)) p q (-(arm : K) * τ / t.sqrt (dist2 p q)) ::
        robustArm t tol limit arm (max 0 (-(arm : K) * τ / t.sqrt (dist2 p q))) s l) = laneSum t w (-(arm : K)) τ pts := by
  have harm' : arm = -1 ∨ arm = 1 ∨ arm = 0 := by rcases harm with h | h <;> simp [h]
  have habs (x : K) : |-(arm : K) * x| = |x| := by
    rw [abs_mul]
    rcases harm with rfl | rfl <;> simp
  have hbound {p q : Pt K} {τ : K} (h0 : 0 < dist2 p q) (hτ : |τ| ≤ t.sqrt (dist2 p q)) :
      max 0 (-(arm : K) * τ / t.sqrt (dist2 p q)) ≤ 1 := by
    refine max_le zero_le_one ((div_le_one (sqrt_pos_of ht h0)).2 ?_)
    rw [← habs, abs_le] at hτ
    exact hτ.2
  induction h with
  | @one s p q hs =>
    intro s' l p' q' r τ e1 e2 hd hc hτ
    cases e1
    cases e2
    unfold robustArm
    rw [straight_points ht hs harm' (le_max_left _ _) (hbound hd.1 hτ) zero_le_one le_rfl]
    refine ⟨rfl, ?_⟩
    simp only [chain, lane_cross, laneSum]
    ring
  | @more s s1 l p c q r hs hp ih =>
    intro s' l' p' q' r' τ e1 e2 hd hc hτ
    cases e1
    cases e2
    have hs1 := hp.first
    have hτ' : |inset t w p c q| ≤ t.sqrt (dist2 c q) := by
      rcases hc.1 with ⟨h, _⟩ | ⟨_, _, _, h⟩
      · unfold inset
        rw [h, mul_zero, zero_div, abs_zero]
        exact ht.sqrtNonneg _
      · exact h
    obtain ⟨g1, g2⟩ := ih rfl rfl hd.2 hc.2 hτ'
    obtain ⟨m, hm⟩ := arm_head ht hp hd.2 hc.2 harm (le_max_left 0 (-(arm : K) * inset t w p c q / t.sqrt (dist2 c q)))
      (hbound hd.2.1 hτ')
    have hmeet := lane_meet ht (w := w) hd.1 hd.2.1 (clear_denominator ht hd.1 hd.2.1 hc.1).ne' (-(arm : K))
    unfold robustArm
    simp only
    rw [corner_piece ht hs hs1 hd.1 hd.2.1 hc.1 harm (le_max_left _ _) (hbound hd.1 hτ)]
    simp only
    constructor
    · rw [List.getLast?_append, g1]
      rfl
    · split
      · rename_i hpos
        have hy : 0 ≤ -(arm : K) * inset t w p c q / t.sqrt (dist2 c q) := div_nonneg hpos (ht.sqrtNonneg _)
        rw [max_eq_right hy] at hm g2 ⊢
        rw [hm] at g2 ⊢
        rw [chain, cross_self, zero_add] at g2
        simp only [List.cons_append, List.nil_append, chain]
        rw [g2, ← hmeet, lane_cross, lane_cross, laneSum]
        ring
      · simp only [List.cons_append, List.nil_append]
        rw [chain, chain, chain, g2, ← hmeet, lane_cross, lane_cross, lane_cross, laneSum]
        ring

theorem lane_base {t : Num K} (ht : Num.Polar t) {p q : Pt K} (h : 0 < dist2 p q) (d : K) :
    cross (laneAt t d p q 0) (q.1 - p.1, q.2 - p.2) = cross p (q.1 - p.1, q.2 - p.2) - d * t.sqrt (dist2 p q) := by
  have hs := (sqrt_pos_of ht h).ne'
  have hq := ht.sqrtSq _ h.le
  have e : (q.1 - p.1) ^ 2 + (q.2 - p.2) ^ 2 = dist2 p q := by simp only [dist2]; ring
  replace hq := hq.trans e.symm
  simp only [laneAt, toLeft, cross, e]
  field_simp
  linear_combination d * hq

/-- No corner goes back. -/
def OpenCorners (t : Num K) : List (Pt K) → Prop
  | p :: c :: q :: r => t.sqrt (dist2 p c) * t.sqrt (dist2 c q) + aheadAt p c q ≠ 0 ∧ OpenCorners t (c :: q :: r)
  | _ => True

theorem open_of_clear {t : Num K} (ht : Num.Polar t) {tol w : K} : ∀ (r : List (Pt K)) (p q : Pt K), Apart (p :: q :: r) →
    ClearCorners t tol w (p :: q :: r) → OpenCorners t (p :: q :: r)
  | [], _, _, _, _ => trivial
  | b :: r, _, c, hd, hc => ⟨(clear_denominator ht hd.1 hd.2.1 hc.1).ne', open_of_clear ht r c b hd.2 hc.2⟩

/-- The area between the two sides. -/
theorem lane_area {t : Num K} (ht : Num.Polar t) {w : K} : ∀ (r : List (Pt K)) (p q : Pt K) (τ : K), Apart (p :: q :: r) →
    OpenCorners t (p :: q :: r) →
    laneSum t w (-1) τ (p :: q :: r) - laneSum t w 1 τ (p :: q :: r) +
      cross (laneEnd t (-1 * (w / 2)) (p :: q :: r)) (laneEnd t (1 * (w / 2)) (p :: q :: r)) +
      cross (laneAt t (1 * (w / 2)) p q 0) (laneAt t (-1 * (w / 2)) p q 0) =
    2 * w * lineLength t (p :: q :: r) + 2 * τ * cross p (q.1 - p.1, q.2 - p.2) / t.sqrt (dist2 p q) := by
  intro r
  induction r with
  | nil =>
    intro p q τ hd _
    have hL := (sqrt_pos_of ht hd.1).ne'
    have hq := ht.sqrtSq _ hd.1.le
    have e : (q.1 - p.1) ^ 2 + (q.2 - p.2) ^ 2 = dist2 p q := by simp only [dist2]; ring
    have hq' := hq.trans e.symm
    simp only [laneSum, laneEnd, lineLength, lane_base ht hd.1, add_zero]
    simp only [laneAt, toLeft, cross, e]
    generalize t.sqrt (dist2 p q) = L at *
    field_simp
    linear_combination (-4 * w * L) * hq'
  | cons b r ih =>
    intro p c τ hd hc
    have h := ih c b (inset t w p c b) hd.2 hc.2
    have hL := (sqrt_pos_of ht hd.1).ne'
    have hM := (sqrt_pos_of ht hd.2.1).ne'
    obtain ⟨i1, i2⟩ := inset_vec ht (w := w) hd.1 hd.2.1 hc.1
    have hq := ht.sqrtSq _ hd.1.le
    have e : (c.1 - p.1) ^ 2 + (c.2 - p.2) ^ 2 = dist2 p c := by simp only [dist2]; ring
    have hq' := hq.trans e.symm
    have hn : (c.1 - p.1) * (toLeft t (c.1 - p.1, c.2 - p.2)).2 - (c.2 - p.2) * (toLeft t (c.1 - p.1, c.2 - p.2)).1 =
        t.sqrt (dist2 p c) := by
      simp only [toLeft, e]
      field_simp
      linear_combination -hq'
    rw [laneSum, laneSum, laneEnd, laneEnd, lineLength, lane_base ht hd.1, lane_base ht hd.1]
    have key : laneSum t w (-1) (inset t w p c b) (c :: b :: r) - laneSum t w 1 (inset t w p c b) (c :: b :: r) +
        cross (laneEnd t (-1 * (w / 2)) (c :: b :: r)) (laneEnd t (1 * (w / 2)) (c :: b :: r)) =
        2 * w * lineLength t (c :: b :: r) + 2 * inset t w p c b * cross c (b.1 - c.1, b.2 - c.2) / t.sqrt (dist2 c b) -
          cross (laneAt t (1 * (w / 2)) c b 0) (laneAt t (-1 * (w / 2)) c b 0) := by linear_combination h
    have k1 : cross (laneAt t (1 * (w / 2)) c b 0) (laneAt t (-1 * (w / 2)) c b 0) =
        -(2 * (w / 2) * (c.1 * (toLeft t (b.1 - c.1, b.2 - c.2)).2 - c.2 * (toLeft t (b.1 - c.1, b.2 - c.2)).1)) := by
      simp only [laneAt, cross]; ring
    have k2 : cross (laneAt t (1 * (w / 2)) p c 0) (laneAt t (-1 * (w / 2)) p c 0) =
        -(2 * (w / 2) * (p.1 * (toLeft t (c.1 - p.1, c.2 - p.2)).2 - p.2 * (toLeft t (c.1 - p.1, c.2 - p.2)).1)) := by
      simp only [laneAt, cross]; ring
    rw [k1] at key
    rw [k2]
    generalize inset t w p c b = σ at *
    simp only [cross] at key ⊢
    generalize toLeft t (c.1 - p.1, c.2 - p.2) = n at *
    generalize toLeft t (b.1 - c.1, b.2 - c.2) = m at *
    simp only [div_eq_mul_inv] at key i1 i2 ⊢
    generalize t.sqrt (dist2 p c) = L at *
    generalize (t.sqrt (dist2 c b))⁻¹ = Mi at *
    generalize L⁻¹ = Li at *
    linear_combination key + (2 * c.1) * i2 - (2 * c.2) * i1 + w * hn

theorem Spec.StraightPath.final {tol : K} {limit : Nat} {w : K} {path : List (Sub K)} {pts : List (Pt K)}
    (h : StraightPath tol limit w path pts) (t : Num K) : ∀ {s : Sub K} {l : List (Sub K)}, path = s :: l → Apart pts →
    ∃ p q, StraightSection tol limit w (l.getLastD s) p q ∧ 0 < dist2 p q ∧ ∀ d, laneEnd t d pts = laneAt t d p q 1 := by
  induction h with
  | @one s p q hs =>
    intro s' l e hd
    cases e
    exact ⟨p, q, hs, hd.1, fun _ => rfl⟩
  | @more s s1 l p c q r hs hp ih =>
    intro s' l' e hd
    cases e
    rw [List.getLastD_cons]
    exact ih rfl hd.2

theorem straight_outward {t : Num K} (ht : Num.Polar t) {tol : K} {limit : Nat} {w : K} {s : Sub K} {p q : Pt K}
    (h : StraightSection tol limit w s p q) {u : K} (h0 : 0 ≤ u) (h1 : u ≤ 1) (hd : 0 < dist2 p q) :
    (outward t s u).1 * (toLeft t (q.1 - p.1, q.2 - p.2)).2 - (outward t s u).2 * (toLeft t (q.1 - p.1, q.2 - p.2)).1 =
      2 * u - 1 := by
  have hn : (q.1 - p.1, q.2 - p.2) ≠ ((0, 0) : Pt K) := by
    intro h
    rw [Prod.mk.injEq] at h
    have : dist2 p q = 0 := by
      unfold dist2
      linear_combination (q.1 - p.1) * h.1 + (q.2 - p.2) * h.2
    exact hd.ne' this
  have := toLeft_unit ht hn
  unfold outward
  simp only
  rw [straight_slope ht h 0 h0 h1]
  rw [unit_toLeft] at this ⊢
  simp only at this ⊢
  linear_combination (2 * u - 1) * this

theorem shoelace_swap (l m : List (Pt K)) : shoelace (l ++ m) = shoelace (m ++ l) := by
  rw [← List.rotate_append_length_eq l m, shoelace_rotate]

/-- **C74.** A RobustPath of constant width without offset that follows a line of points has the area width times length, with
the extensions of its ends. -/
theorem C74_area {ctx : FlexCtx K} (ht : Num.Polar ctx.num) {tol : K} {limit : Nat} {w : K} (hw : 0 < w)
    {s : Sub K} {l : List (Sub K)} {p q : Pt K} {r : List (Pt K)} (h : StraightPath tol limit w (s :: l) (p :: q :: r))
    (hd : Apart (p :: q :: r)) (hc : ClearCorners ctx.num tol w (p :: q :: r)) {fin : FlexEnd K}
    (hf : fin = .flush ∨ fin = .extended ∨ ∃ a b, fin = .pair a b) :
    ∃ P, robustOutline ctx tol limit fin (s :: l) = .ok P ∧
      shoelace P = 2 * (w * (lineLength ctx.num (p :: q :: r) + (reach fin w).1 + (reach fin w).2)) := by
  have hcap (s : Sub K) (arm : Int) : ∃ g, robustCap ctx tol limit fin s arm = .ok g := by
    rcases hf with rfl | rfl | ⟨a, b, rfl⟩ <;> exact ⟨_, rfl⟩
  obtain ⟨cap1, h1⟩ := hcap (l.getLastD s) (-1)
  obtain ⟨cap0, h0⟩ := hcap s 1
  refine ⟨cap1 ++ (robustArm ctx.num tol limit (-1) 0 s l).reverse ++ cap0 ++ robustArm ctx.num tol limit 1 0 s l, ?_, ?_⟩
  · unfold robustOutline
    simp only
    rw [h1, h0]
    rfl
  have hs := h.first
  obtain ⟨p', q', hs', hd', hend⟩ := h.final ctx.num rfl hd
  have hfr : fin ≠ .round := by rcases hf with rfl | rfl | ⟨a, b, rfl⟩ <;> simp
  have hz : |(0 : K)| ≤ ctx.num.sqrt (dist2 p q) := by rw [abs_zero]; exact ht.sqrtNonneg _
  have hne {a b : Pt K} (hab : 0 < dist2 a b) : (b.1 - a.1, b.2 - a.2) ≠ ((0, 0) : Pt K) := by
    intro h
    rw [Prod.mk.injEq] at h
    have : dist2 a b = 0 := by
      unfold dist2
      linear_combination (b.1 - a.1) * h.1 + (b.2 - a.2) * h.2
    exact hab.ne' this
  -- the sides
  obtain ⟨l1, l2⟩ := arm_chain ht (arm := -1) (.inl rfl) h rfl rfl hd hc hz
  obtain ⟨r1, r2⟩ := arm_chain ht (arm := 1) (.inr rfl) h rfl rfl hd hc hz
  obtain ⟨lm, l3⟩ := arm_head ht h hd hc (arm := -1) (.inl rfl) (le_refl (0 : K)) zero_le_one
  obtain ⟨rm, r3⟩ := arm_head ht h hd hc (arm := 1) (.inr rfl) (le_refl (0 : K)) zero_le_one
  rw [mul_zero, zero_div, max_self] at l1 l2 r1 r2
  have s1 : -((-1 : Int) : K) = 1 := by norm_num
  have s2 : -((1 : Int) : K) = -1 := by norm_num
  rw [s1] at l1 l2 l3
  rw [s2] at r1 r2 r3
  have l2' : chain (robustArm ctx.num tol limit (-1) 0 s l) = laneSum ctx.num w 1 0 (p :: q :: r) := by
    rw [← l2, l3, chain, cross_self, zero_add]
  have r2' : chain (robustArm ctx.num tol limit 1 0 s l) = laneSum ctx.num w (-1) 0 (p :: q :: r) := by
    rw [← r2, r3, chain, cross_self, zero_add]
  -- the ends
  have c0 := cap_ok ht (mat_of_identity hs.place) .id hs.step (arm := 1) (.inr rfl) (u := 0) (by simp)
    (by rw [straight_slope ht hs 0 le_rfl zero_le_one]; exact hne hd.1) (by rw [hs.wid]; simpa using hw) hfr h0
  have c1 := cap_ok ht (mat_of_identity hs'.place) .id hs'.step (arm := -1) (.inl rfl) (u := 1) (by simp)
    (by rw [straight_slope ht hs' 0 zero_le_one le_rfl]; exact hne hd') (by rw [hs'.wid]; simpa using hw) hfr h1
  rw [show (1 : K) - 2 * 0 = 1 by ring, show (2 : K) * 0 - 1 = -1 by ring, hs.wid, one_mul, one_mul,
    straight_edge ht hs 1 le_rfl zero_le_one, straight_edge ht hs (-1) le_rfl zero_le_one] at c0
  rw [show (1 : K) - 2 * 1 = -1 by ring, show (2 : K) * 1 - 1 = 1 by ring, hs'.wid, one_mul, one_mul,
    straight_edge ht hs' 1 zero_le_one le_rfl, straight_edge ht hs' (-1) zero_le_one le_rfl] at c1
  obtain ⟨E0, e0, f0⟩ := end_points hf c0
  obtain ⟨E1, e1, f1⟩ := end_points hf c1
  simp only [List.cons_append, List.cons.injEq, List.append_left_inj, true_and] at e0 e1
  subst e0 e1
  have g0 := (f0 (reach fin w).1 (by rintro rfl; rfl) (by rintro rfl; rfl) (by rintro a b rfl; simp [reach, extension])).1
  have g1 := (f1 (reach fin w).2 (by rintro rfl; rfl) (by rintro rfl; rfl) (by rintro a b rfl; simp [reach, extension])).1
  have o0 := straight_outward ht hs le_rfl zero_le_one hd.1
  have o1 := straight_outward ht hs' zero_le_one le_rfl hd'
  have area := lane_area ht (w := w) r p q 0 hd (open_of_clear ht r p q hd hc)
  rw [hend, hend] at area
  rw [hend] at l1 r1
  rw [mul_zero, zero_mul, zero_div, add_zero, ← l2', ← r2'] at area
  obtain ⟨ri, hri⟩ := List.getLast?_eq_some_iff.1 r1
  obtain ⟨lj, hlj⟩ := List.getLast?_eq_some_iff.1 l1
  rw [shoelace_swap]
  generalize robustArm ctx.num tol limit (-1) 0 s l = left at *
  generalize robustArm ctx.num tol limit 1 0 s l = right at *
  have hP : shoelace (right ++ (cap1 ++ left.reverse ++ cap0)) = chain (right ++ (cap1 ++ left.reverse ++ cap0) ++
      [laneAt ctx.num (-1 * (w / 2)) p q 0]) := by
    rw [r3]
    exact shoelace_chain _ _
  have hrev : left.reverse = lm.reverse ++ [laneAt ctx.num (1 * (w / 2)) p q 0] := by rw [l3, List.reverse_cons]
  have hrev' : left.reverse = laneAt ctx.num (1 * (w / 2)) p' q' 1 :: lj.reverse := by rw [hlj, List.reverse_append]; rfl
  have q1 : chain (right ++ (cap1 ++ left.reverse ++ cap0) ++ [laneAt ctx.num (-1 * (w / 2)) p q 0]) =
      chain right + chain (laneAt ctx.num (-1 * (w / 2)) p' q' 1 :: (cap1 ++ left.reverse ++ cap0) ++ [laneAt ctx.num (-1 * (w / 2)) p q 0]) := by
    conv_lhs => rw [hri, List.append_assoc, List.append_assoc]
    conv_rhs => rw [hri]
    exact chain_join _ _ _
  have q2 : chain (laneAt ctx.num (-1 * (w / 2)) p' q' 1 :: (cap1 ++ left.reverse ++ cap0) ++ [laneAt ctx.num (-1 * (w / 2)) p q 0]) =
      chain (laneAt ctx.num (-1 * (w / 2)) p' q' 1 :: cap1 ++ [laneAt ctx.num (1 * (w / 2)) p' q' 1]) +
      chain (left.reverse ++ cap0 ++ [laneAt ctx.num (-1 * (w / 2)) p q 0]) := by
    rw [hrev', List.append_assoc]
    have := chain_join (laneAt ctx.num (-1 * (w / 2)) p' q' 1 :: cap1) (lj.reverse ++ cap0 ++ [laneAt ctx.num (-1 * (w / 2)) p q 0])
      (laneAt ctx.num (1 * (w / 2)) p' q' 1)
    simpa using this
  have q3 : chain (left.reverse ++ cap0 ++ [laneAt ctx.num (-1 * (w / 2)) p q 0]) = -chain left +
      chain (laneAt ctx.num (1 * (w / 2)) p q 0 :: cap0 ++ [laneAt ctx.num (-1 * (w / 2)) p q 0]) := by
    rw [← chain_reverse, hrev]
    have := chain_join lm.reverse (cap0 ++ [laneAt ctx.num (-1 * (w / 2)) p q 0]) (laneAt ctx.num (1 * (w / 2)) p q 0)
    simpa using this
  rw [hP, q1, q2, q3, g0, g1]
  have u0 : (outward ctx.num s 0).1 * ((laneAt ctx.num (-1 * (w / 2)) p q 0).2 - (laneAt ctx.num (1 * (w / 2)) p q 0).2) -
      (outward ctx.num s 0).2 * ((laneAt ctx.num (-1 * (w / 2)) p q 0).1 - (laneAt ctx.num (1 * (w / 2)) p q 0).1) = w := by
    unfold laneAt
    simp only
    linear_combination (-w) * o0
  have u1 : (outward ctx.num (l.getLastD s) 1).1 * ((laneAt ctx.num (1 * (w / 2)) p' q' 1).2 - (laneAt ctx.num (-1 * (w / 2)) p' q' 1).2) -
      (outward ctx.num (l.getLastD s) 1).2 * ((laneAt ctx.num (1 * (w / 2)) p' q' 1).1 - (laneAt ctx.num (-1 * (w / 2)) p' q' 1).1) = w := by
    unfold laneAt
    simp only
    linear_combination w * o1
  rw [u0, u1]
  linear_combination area

end Gdspy
