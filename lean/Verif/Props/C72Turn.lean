import Verif.Props.C72
import Verif.Lemmas.RoundOutline
import Mathlib.Analysis.SpecialFunctions.Trigonometric.Deriv

/-!
# C72: directions

The directions kept with the sections, from which the offsets are measured, are those of their curves. A turn begins in the
direction of the paths if all of them have the same.
-/

namespace Gdspy

open Spec

theorem extended_last {r g : Robust ℝ} {c : ℝ → Pt ℝ} {d : ℝ → ℝ → Pt ℝ} {w o : RArg ℝ} (h : Extended r g c d w o)
    (hg : RobustAligned g) {p : List (Sub ℝ)} (hp : p ∈ g.paths) {s : Sub ℝ} (hs : s ∈ p.getLast?) :
    (∀ u, s.x u = c u) ∧ ∀ u e, s.dx u e = d u e := by
  obtain ⟨i, hi, rfl⟩ := List.getElem_of_mem hp
  have hin : i < r.n := by
    rw [← h.n, ← hg.paths]
    exact hi
  obtain ⟨q, _, _, _, _, s', e1, _, _, _, _, e6, _, _, e9, e10, _⟩ := h.rows i hin
  rw [List.getElem?_eq_getElem hi, Option.some.injEq] at e6
  rw [e6, List.getLast?_concat] at hs
  simp only [Option.mem_def, Option.some.injEq] at hs
  subst hs
  exact ⟨e9, e10⟩

theorem ramp_deriv (a b u : ℝ) : HasDerivAt (ramp a b) (b - a) u := by
  unfold ramp
  simpa using ((hasDerivAt_id u).const_mul (b - a)).const_add a

/-- **C72.** The direction of the section added by `segment`, `arc` or `bezier` is the derivative of its curve. -/
theorem C72_direction {r g : Robust ℝ} (ha : RobustAligned r) {w o : RArg ℝ}
    (h : (∃ p rel, r.segment p w o rel = (g, none)) ∨ (∃ radius ia fa, r.arc realNum radius ia fa w o = (g, none)) ∨
      ∃ pts rel, r.bezier pts w o rel = (g, none)) {p : List (Sub ℝ)} (hp : p ∈ g.paths) {s : Sub ℝ}
    (hs : s ∈ p.getLast?) (u e : ℝ) :
    HasDerivAt (fun v => (s.x v).1) (s.dx u e).1 u ∧ HasDerivAt (fun v => (s.x v).2) (s.dx u e).2 u := by
  rcases h with ⟨q, rel, h⟩ | ⟨radius, ia, fa, h⟩ | ⟨pts, rel, h⟩
  · obtain ⟨h1, h2⟩ := extended_last (C72_segment h) (robust_segment_aligned h ha) hp hs
    simp only [h1, h2]
    exact ⟨ramp_deriv _ _ u, ramp_deriv _ _ u⟩
  · obtain ⟨h1, h2⟩ := extended_last (C72_arc realNum h) (robust_arc_aligned h ha) hp hs
    simp only [h1, h2]
    have hr := ramp_deriv ia fa u
    constructor
    · have := (((Real.hasDerivAt_cos (ramp ia fa u)).comp u hr).sub_const (Real.cos ia)).const_mul radius |>.const_add r.x.1
      rw [show radius * (-Real.sin (ramp ia fa u) * (fa - ia)) = -(radius * (fa - ia) * Real.sin (ramp ia fa u)) by ring] at this
      exact this
    · have := (((Real.hasDerivAt_sin (ramp ia fa u)).comp u hr).sub_const (Real.sin ia)).const_mul radius |>.const_add r.x.2
      rw [show radius * (Real.cos (ramp ia fa u) * (fa - ia)) = radius * (fa - ia) * Real.cos (ramp ia fa u) by ring] at this
      exact this
  · obtain ⟨h1, h2⟩ := extended_last (C72_bezier h) (robust_bezier_aligned h ha) hp hs
    have hpts : pts ≠ [] := by
      intro e0
      rw [e0] at h
      cases h
    have hne : r.x :: pts.map (placedAt r.x rel) ≠ [] := by simp
    have hlen : 2 ≤ (r.x :: pts.map (placedAt r.x rel)).length := by
      cases pts with
      | nil => exact absurd rfl hpts
      | cons a l => simp
    have hd := C58_derivative (r.x :: pts.map (placedAt r.x rel)) hlen u
    have e1 : bezierDerivCtrl (r.x :: pts.map (placedAt r.x rel)) = slopes (r.x :: pts.map (placedAt r.x rel)) := by
      unfold bezierDerivCtrl slopes
      rw [List.drop_one]
    have hs' : slopes (r.x :: pts.map (placedAt r.x rel)) ≠ [] := by
      cases pts with
      | nil => exact absurd rfl hpts
      | cons p l => simp [slopes]
    rw [e1, C58_formula _ hs'] at hd
    have e2 : funcBezier (r.x :: pts.map (placedAt r.x rel)) = bezier (r.x :: pts.map (placedAt r.x rel)) :=
      funext (C58_formula _ hne)
    rw [e2] at hd
    simp only [h1, h2]
    exact hd

theorem atan2_multiple (d : Pt ℝ) {k : ℝ} (hk : 0 < k) :
    realNum.atan2 (k * d.2) (k * d.1) = realNum.atan2 d.2 d.1 := by
  show Complex.arg ⟨k * d.1, k * d.2⟩ = Complex.arg ⟨d.1, d.2⟩
  have : (⟨k * d.1, k * d.2⟩ : ℂ) = (k : ℂ) * ⟨d.1, d.2⟩ := by
    apply Complex.ext <;> simp
  rw [this, Complex.arg_real_mul _ hk]

/-- **C72.** `turn` leaves the path tangentially, if the paths all end in the same direction (that of the section before its
transformations): it adds the arc along which a turtle goes that looks in this direction. -/
theorem C72_turn {r g : Robust ℝ} (ha : RobustAligned r) {radius : ℝ} {angle : TurnArg ℝ} {w o : RArg ℝ} {d : Pt ℝ}
    (hd : d.1 ^ 2 + d.2 ^ 2 = 1)
    (hs : ∀ p ∈ r.paths, ∀ s ∈ p.getLast?, ∃ k, 0 < k ∧ s.gradRaw realNum 1 0 = (k * d.1, k * d.2))
    (h : r.turn realNum radius angle w o = (g, none)) :
    ∃ curve dir, Extended r g curve dir w o ∧ g.x = ((⟨r.x, d⟩ : Turtle ℝ).turn realNum radius angle).pos ∧
      (∀ u, 0 < u → curve u = ((⟨r.x, d⟩ : Turtle ℝ).turn realNum radius (.num (angle.value realNum * u))).pos) ∧
      curve 0 = r.x ∧
      ∀ e, dir 0 e = (radius * |angle.value realNum| * d.1, radius * |angle.value realNum| * d.2) := by
  obtain ⟨_, harc⟩ := turn_is_arc realNum ha (b := realNum.atan2 d.2 d.1) (by
    intro p hp s hs'
    obtain ⟨k, hk, e⟩ := hs p hp s hs'
    rw [e]
    exact atan2_multiple d hk) h
  have hc := sqrt_cos_atan2 d.1 d.2
  have hsn := sqrt_sin_atan2 d.1 d.2
  rw [hd, Real.sqrt_one, one_mul] at hc hsn
  have hdb : d = (realNum.cos (realNum.atan2 d.2 d.1), realNum.sin (realNum.atan2 d.2 d.1)) := Prod.ext hc.symm hsn.symm
  generalize hb : realNum.atan2 d.2 d.1 = b at *
  have hext := C72_arc realNum harc
  generalize hv : angle.value realNum = a at *
  have hext' : Extended r g _ _ w o :=
    ⟨hext.x, hext.rows, hext.n, hext.ends, hext.layers, hext.datatypes, hext.tolerance, hext.maxEvals⟩
  refine ⟨_, _, hext', ?_, ?_, ?_, ?_⟩
  · rw [hext.x, hdb, turtle_turn realNum_laws, hv]
    simp only [ramp]
    rw [show (b + if a < 0 then realNum.halfpi else -realNum.halfpi) +
      ((b + if a < 0 then realNum.halfpi else -realNum.halfpi) + a - (b + if a < 0 then realNum.halfpi else -realNum.halfpi)) * 1
      = (b + if a < 0 then realNum.halfpi else -realNum.halfpi) + a by ring]
  · intro u hu
    have hsign : a * u < 0 ↔ a < 0 := by
      constructor
      · intro h0
        by_contra hc0
        have := mul_nonneg (not_lt.mp hc0) hu.le
        linarith
      · intro h0
        exact mul_neg_of_neg_of_pos h0 hu
    rw [hdb, turtle_turn realNum_laws]
    have hval : (TurnArg.num (a * u)).value realNum = a * u := rfl
    rw [hval]
    simp only [hsign, ramp]
    rw [show (b + if a < 0 then realNum.halfpi else -realNum.halfpi) +
      ((b + if a < 0 then realNum.halfpi else -realNum.halfpi) + a - (b + if a < 0 then realNum.halfpi else -realNum.halfpi)) * u
      = (b + if a < 0 then realNum.halfpi else -realNum.halfpi) + a * u by ring]
  · simp [ramp]
  · intro e
    simp only [ramp, mul_zero, add_zero]
    have hcos : realNum.cos b = d.1 := hc
    have hsin : realNum.sin b = d.2 := hsn
    have hcb : Real.cos b = d.1 := hcos
    have hsb : Real.sin b = d.2 := hsin
    show (-(radius * _ * Real.sin (b + if a < 0 then Real.pi / 2 else -(Real.pi / 2))),
      radius * _ * Real.cos (b + if a < 0 then Real.pi / 2 else -(Real.pi / 2))) = _
    by_cases h0 : a < 0
    · simp only [if_pos h0]
      rw [Real.sin_add_pi_div_two, Real.cos_add_pi_div_two, abs_of_neg h0, hcb, hsb]
      refine Prod.ext ?_ ?_
      · show -(radius * (b + Real.pi / 2 + a - (b + Real.pi / 2)) * d.1) = radius * -a * d.1
        ring
      · show radius * (b + Real.pi / 2 + a - (b + Real.pi / 2)) * -d.2 = radius * -a * d.2
        ring
    · simp only [if_neg h0, ← sub_eq_add_neg]
      rw [Real.sin_sub_pi_div_two, Real.cos_sub_pi_div_two, abs_of_nonneg (not_lt.mp h0), hcb, hsb]
      refine Prod.ext ?_ ?_
      · show -(radius * (b - Real.pi / 2 + a - (b - Real.pi / 2)) * -d.1) = radius * a * d.1
        ring
      · show radius * (b - Real.pi / 2 + a - (b - Real.pi / 2)) * d.2 = radius * a * d.2
        ring

/-- A pair of paths that leads to the left (west), one of them moving up, the other down. -/
noncomputable def westPair : Py (Robust ℝ) :=
  Robust.new (0, 0) (.list [1, 1]) (.list [0, 0]) (.one .flush) (1 / 100) (1 / 1000) 199 1000 false true (.one 0) (.one 0)

/-- The pair after its first segment. -/
noncomputable def westRun : Out (Robust ℝ) :=
  match westPair with
  | .ok r => r.segment (-10, 0) .none (.list [.num 1, .num (-1)]) false
  | .error e => (⟨(0, 0), 0, [], [], [], [], [], [], 0, 0, 0, 0, false, false, none⟩, some e)

theorem western_slope (a : ℝ) :
    Sub.gradRaw realNum ⟨funcLinearPt (0, 0) (-10, 0), fun _ _ => (-10 - 0, 0 - 0), funcLinear 0 a, fun _ => 1, (1 / 100) ^ 2,
      1 / 2 / ((1000 : Nat) : ℝ), 1000, Mat.eye⟩ 1 0 = (-10, a) := by
  have hn : ∀ (v : Pt ℝ), v = (-10 - 0, 0 - 0) → rightNormal realNum v = (0, 1) := by
    rintro v rfl
    unfold rightNormal normSq
    have : realNum.sqrt (((0 - 0 : ℝ) * 1) ^ 2 + ((-10 - 0) * -1) ^ 2) = 10 := by
      show Real.sqrt _ = 10
      rw [show (((0 - 0 : ℝ) * 1) ^ 2 + ((-10 - 0) * -1) ^ 2) = 10 ^ 2 by norm_num]
      exact Real.sqrt_sq (by norm_num)
    simp only at this ⊢
    rw [this]
    norm_num
  have hm : ∀ u, Sub.raw realNum ⟨funcLinearPt (0, 0) (-10, 0), fun _ _ => (-10 - 0, 0 - 0), funcLinear 0 a, fun _ => 1,
      (1 / 100) ^ 2, 1 / 2 / ((1000 : Nat) : ℝ), 1000, Mat.eye⟩ u 0 = (-10 * u, a * u) := by
    intro u
    unfold Sub.raw Sub.mid
    rw [if_pos rfl]
    simp only
    rw [hn _ rfl]
    unfold padd psmul funcLinearPt funcLinear
    refine Prod.ext ?_ ?_ <;> simp only <;> ring
  unfold Sub.gradRaw subGrad
  simp only [hm]
  have e0 : max (0 : ℝ) (1 - 1 / 2 / ((1000 : Nat) : ℝ)) = 1999 / 2000 := by norm_num
  have e1 : min (1 : ℝ) (1 + 1 / 2 / ((1000 : Nat) : ℝ)) = 1 := by norm_num
  rw [e0, e1]
  unfold psmul psub
  refine Prod.ext ?_ ?_ <;> simp only <;> ring

/-- A section of the pair. -/
noncomputable def westSub (a : ℝ) : Sub ℝ :=
  ⟨funcLinearPt (0, 0) (-10, 0), fun _ _ => (-10 - 0, 0 - 0), funcLinear 0 a, fun _ => 1, (1 / 100) ^ 2,
    1 / 2 / ((1000 : Nat) : ℝ), 1000, Mat.eye⟩

theorem westRun_eq : ∃ r, westRun = (r, none) ∧ r.x = (-10, 0) ∧ r.n = 2 ∧ r.paths = [[westSub 1], [westSub (-1)]] ∧
    RobustAligned r ∧ ∀ c rad ia fa, (Robust.arc realNum rad ia fa .none .none { r with cache := c }).2 = none := by
  refine ⟨_, rfl, rfl, rfl, rfl, ?_, fun _ _ _ _ => rfl⟩
  exact ⟨rfl, rfl, rfl, rfl, rfl, rfl, 1, fun p hp => by
    rcases List.mem_cons.1 hp with rfl | hp
    · rfl
    · rcases List.mem_cons.1 hp with rfl | hp
      · rfl
      · cases hp⟩

/-- **C72**, violated: the directions of parallel paths are averaged as angles. A pair of paths that leads to the left (west),
one of them moving up, the other down, has the angles 180° - a and -180° + a, so that `turn` begins to the right: a turn to the
left with the radius 5 at (-10, 0) ends at (-5, 5) instead of (-15, -5). -/
theorem C72_turn_backwards : ∃ r, westRun = (r, none) ∧ r.x = (-10, 0) ∧
    (∀ p ∈ r.paths, ∀ s ∈ p.getLast?, (s.gradRaw realNum 1 0).1 = -10 ∧ |(s.gradRaw realNum 1 0).2| = 1) ∧
    ∃ g, r.turn realNum 5 .l .none .none = (g, none) ∧ g.x = (-5, 5) := by
  obtain ⟨r, h1, h2, h3, h4, h5, h6⟩ := westRun_eq
  refine ⟨r, h1, h2, ?_, ?_⟩
  · intro p hp s hs
    rw [h4] at hp
    have : s = westSub 1 ∨ s = westSub (-1) := by
      rcases List.mem_cons.1 hp with rfl | hp
      · left
        simpa using hs.symm
      · rcases List.mem_cons.1 hp with rfl | hp
        · right
          simpa using hs.symm
        · cases hp
    rcases this with rfl | rfl
    · have e : Sub.gradRaw realNum (westSub 1) 1 0 = (-10, 1) := western_slope 1
      rw [e]
      exact ⟨rfl, abs_one⟩
    · have e : Sub.gradRaw realNum (westSub (-1)) 1 0 = (-10, -1) := western_slope (-1)
      rw [e]
      exact ⟨rfl, by simp⟩
  · have hret : (r.turn realNum 5 .l .none .none).2 = none := by
      unfold Robust.turn
      simp only [h4]
      have em : (List.mapM (fun q => idx q ([westSub 1].length - 1)) [[westSub 1], [westSub (-1)]] : Py (List (Sub ℝ))) =
          .ok [westSub 1, westSub (-1)] := rfl
      rw [em, if_neg (by simp)]
      have := h6 none
      simp only [h4] at this
      exact this _ _ _
    refine ⟨(r.turn realNum 5 .l .none .none).1, Prod.ext rfl hret, ?_⟩
    have hg : r.turn realNum 5 .l .none .none = ((r.turn realNum 5 .l .none .none).1, none) := Prod.ext rfl hret
    generalize (r.turn realNum 5 .l .none .none).1 = g at hg ⊢
    unfold Robust.turn at hg
    simp only [h4] at hg
    have em : (List.mapM (fun q => idx q ([westSub 1].length - 1)) [[westSub 1], [westSub (-1)]] : Py (List (Sub ℝ))) =
        .ok [westSub 1, westSub (-1)] := rfl
    rw [em] at hg
    simp only [List.length_cons, List.length_nil, List.map_cons, List.map_nil, List.foldl_cons, List.foldl_nil] at hg
    rw [if_neg (by omega)] at hg
    have e1 : Sub.gradRaw realNum (westSub 1) 1 0 = (-10, 1) := western_slope 1
    have e2 : Sub.gradRaw realNum (westSub (-1)) 1 0 = (-10, -1) := western_slope (-1)
    have e3 : realNum.atan2 (-1) (-10) = -realNum.atan2 1 (-10) := by
      show Complex.arg ⟨-10, -1⟩ = -Complex.arg ⟨-10, 1⟩
      have : (⟨-10, -1⟩ : ℂ) = (starRingEnd ℂ) ⟨-10, 1⟩ := by
        apply Complex.ext <;> simp
      rw [this, Complex.arg_conj, if_neg]
      intro h
      have := (Complex.arg_eq_pi_iff.1 h).2
      norm_num at this
    rw [e1, e2] at hg
    simp only [e3] at hg
    have hx := (C72_arc realNum hg).x
    rw [hx]
    have ev : TurnArg.value realNum .l = Real.pi / 2 := rfl
    have hpi := Real.pi_pos
    simp only [ev, ramp, h2]
    rw [if_neg (by linarith), show (0 + realNum.atan2 1 (-10) + -realNum.atan2 1 (-10)) / _ + -realNum.halfpi = -(Real.pi / 2) by
      show _ + -(Real.pi / 2) = _
      ring]
    show ((-10 : ℝ) + 5 * (Real.cos _ - Real.cos _), (0 : ℝ) + 5 * (Real.sin _ - Real.sin _)) = _
    rw [show -(Real.pi / 2) + (-(Real.pi / 2) + Real.pi / 2 - -(Real.pi / 2)) * 1 = 0 by ring]
    rw [Real.cos_zero, Real.sin_zero, Real.cos_neg, Real.sin_neg, Real.cos_pi_div_two, Real.sin_pi_div_two]
    norm_num

end Gdspy
