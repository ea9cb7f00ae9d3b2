import Verif.Props.C65Tolerance
import Verif.Props.C70Defined
import Mathlib.Analysis.Real.Pi.Bounds

/-!
# C93: arcs of curves and the line of a FlexPath follow their ellipse within the tolerance

The number of segments is the angle over twice the angle at which a chord has exactly the tolerance for its sagitta, rounded
to the nearest integer, so that the full claim, "within the tolerance", is false (C93_curve_arc_over).
-/

namespace Gdspy

open Spec Real

/-! ### Specification -/

/-- The point at angle `a`, counted from the x axis, of an ellipse with the centre `c`, turned by `rot`. -/
noncomputable def Spec.tiltedAt (c : Pt ℝ) (rx ry rot a : ℝ) : Pt ℝ :=
  (c.1 + (rx * cos (a - rot) * cos rot - ry * sin (a - rot) * sin rot),
   c.2 + (rx * cos (a - rot) * sin rot + ry * sin (a - rot) * cos rot))

/-- The points `pts`, after a first point at `i`, are on the curve `g`, at `n` equal steps of the parameter from `i` to `f`,
and no point of the curve between is farther than `d` from the chain. -/
def Spec.Chain (g : ℝ → Pt ℝ) (i f d : ℝ) (pts : List (Pt ℝ)) : Prop :=
  (∀ k < pts.length, pts[k]? = some (g (i + (k + 1 : ℕ) * ((f - i) / pts.length)))) ∧
  ∀ a, a ∈ Set.uIcc i f → ∃ k < pts.length, NearSegment (g (i + k * ((f - i) / pts.length)))
    (g (i + (k + 1 : ℕ) * ((f - i) / pts.length))) (g a) d

/-! ### Chords -/

theorem nearSegment_symm {a b x : Pt ℝ} {d : ℝ} (h : NearSegment a b x d) : NearSegment b a x d := by
  obtain ⟨h0, s, s0, s1, hs⟩ := h
  refine ⟨h0, 1 - s, by linarith, by linarith, ?_⟩
  have : between b a (1 - s) = between a b s := by
    simp only [between]
    refine Prod.ext ?_ ?_ <;> simp only <;> ring
  rwa [this]

theorem oval_chain (c r : Pt ℝ) (hr1 : 0 ≤ r.1) (hr2 : 0 ≤ r.2) (R : ℝ) (hR1 : r.1 ≤ R) (hR2 : r.2 ≤ R) (i f : ℝ) (hne : i ≠ f)
    (n : Nat) (hn : 1 ≤ n) (hstep : |f - i| / n < π) (a : ℝ) (ha : a ∈ Set.uIcc i f) :
    ∃ k < n, NearSegment (ovalAt c r (i + k * ((f - i) / n))) (ovalAt c r (i + (k + 1 : ℕ) * ((f - i) / n))) (ovalAt c r a)
      (R * (1 - cos (|f - i| / n / 2))) := by
  have hn0 : (0 : ℝ) < n := by exact_mod_cast hn
  have e0 : ((n + 1 : ℕ) : ℝ) - 1 = n := by push_cast; ring
  have main : ∀ i f : ℝ, i < f → (f - i) / n < π → ∀ a, i ≤ a → a ≤ f → ∃ k < n,
      NearSegment (ovalAt c r (i + k * ((f - i) / n))) (ovalAt c r (i + (k + 1 : ℕ) * ((f - i) / n))) (ovalAt c r a)
        (R * (1 - cos ((f - i) / n / 2))) := by
    intro i f hlt hst a h0 h1
    obtain ⟨k, hk, b0, b1⟩ := linspace_bracket i f hlt (n + 1) (by omega) a h0 h1
    rw [e0] at b0 b1
    have hpos : 0 < (f - i) / n := div_pos (by linarith) hn0
    have hdiff : i + (k + 1 : ℕ) * ((f - i) / n) - (i + k * ((f - i) / n)) = (f - i) / n := by push_cast; ring
    have := ellipse_chord c r hr1 hr2 R hR1 hR2 (i + k * ((f - i) / n)) (i + (k + 1 : ℕ) * ((f - i) / n)) a (by linarith)
      (by rw [hdiff]; exact hst) b0 b1
    rw [hdiff] at this
    exact ⟨k, by omega, this⟩
  rcases lt_or_gt_of_ne hne with hlt | hgt
  · rw [abs_of_pos (by linarith : 0 < f - i)] at hstep ⊢
    rw [Set.uIcc_of_le hlt.le] at ha
    exact main i f hlt hstep a ha.1 ha.2
  · rw [abs_of_neg (by linarith : f - i < 0), neg_sub] at hstep ⊢
    rw [Set.uIcc_of_ge hgt.le] at ha
    obtain ⟨k, hk, hs⟩ := main f i hgt hstep a ha.1 ha.2
    refine ⟨n - 1 - k, by omega, ?_⟩
    have e1 : i + ((n - 1 - k : ℕ) : ℝ) * ((f - i) / n) = f + (k + 1 : ℕ) * ((i - f) / n) := by
      rw [Nat.sub_sub, Nat.cast_sub (by omega)]
      push_cast
      field_simp
      ring
    have e2 : i + ((n - 1 - k + 1 : ℕ) : ℝ) * ((f - i) / n) = f + (k : ℝ) * ((i - f) / n) := by
      rw [show n - 1 - k + 1 = n - k by omega, Nat.cast_sub (by omega)]
      field_simp
      ring
    rw [e1, e2]
    exact nearSegment_symm hs

theorem tilted_near {c : Pt ℝ} {rx ry rot a0 a1 a d : ℝ}
    (h : NearSegment (ovalAt (0, 0) (rx, ry) (a0 - rot)) (ovalAt (0, 0) (rx, ry) (a1 - rot)) (ovalAt (0, 0) (rx, ry) (a - rot)) d) :
    NearSegment (tiltedAt c rx ry rot a0) (tiltedAt c rx ry rot a1) (tiltedAt c rx ry rot a) d := by
  obtain ⟨h0, s, s0, s1, hs⟩ := h
  refine ⟨h0, s, s0, s1, le_trans (le_of_eq ?_) hs⟩
  have hp := cos_sq_add_sin_sq rot
  simp only [dist2, between, tiltedAt, ovalAt]
  set u := rx * cos (a - rot) - (rx * cos (a0 - rot) + s * (rx * cos (a1 - rot) - rx * cos (a0 - rot))) with hu
  set v := ry * sin (a - rot) - (ry * sin (a0 - rot) + s * (ry * sin (a1 - rot) - ry * sin (a0 - rot))) with hv
  have : ∀ x y : ℝ, x = (u * cos rot - v * sin rot) → y = (u * sin rot + v * cos rot) → x ^ 2 + y ^ 2 = u ^ 2 + v ^ 2 := by
    rintro x y rfl rfl
    linear_combination (u ^ 2 + v ^ 2) * hp
  rw [this _ _ (by rw [hu, hv]; ring) (by rw [hu, hv]; ring)]
  rw [hu, hv]
  ring

/-- What rounding the number of segments to the nearest integer gives. -/
theorem steps_tolerance {θ tol R : ℝ} {s : ℤ} (hR : 0 < R) (hθ : 0 < θ) (htol : tol ≤ R / 2)
    (h : arcSteps realNum θ tol R = .ok s) (n : ℕ) (hn : (n : ℤ) = max 2 s) :
    θ / n < π ∧ R * (1 - cos (θ / n / 2)) ≤ (1 + 1 / (2 * n)) ^ 2 * tol ∧
      (3 ≤ n → tol ≤ R * (1 - cos (θ / (2 * n - 1)))) := by
  obtain ⟨htol0, -, a, ha0, hapi, hcos, hsv⟩ := arcSteps_real hR h
  have hxnn : (0 : ℝ) ≤ θ / 2 / a + 1 / 2 := by positivity
  obtain ⟨t1, t2, t3⟩ := truncInt_bounds hxnn
  rw [← hsv] at t1 t2 t3
  have hca : 1 / 2 ≤ cos a := by
    have : R * (1 - cos a) ≤ R / 2 := by rw [hcos]; exact htol
    nlinarith
  have ha3 : a ≤ π / 3 := by
    by_contra hx
    push Not at hx
    have := cos_lt_cos_of_nonneg_of_le_pi (by positivity) hapi hx
    rw [cos_pi_div_three] at this
    linarith
  have hn2 : 2 ≤ n := by omega
  have hns : s ≤ n := by omega
  have hn2' : (2 : ℝ) ≤ n := by exact_mod_cast hn2
  have hns' : (s : ℝ) ≤ n := by exact_mod_cast hns
  have hn0 : (0 : ℝ) < n := by linarith
  have hx : θ / 2 < ((n : ℝ) + 1 / 2) * a := by
    have : θ / 2 / a < n + 1 / 2 := by linarith
    rwa [div_lt_iff₀ ha0] at this
  have hh : θ / n / 2 ≤ (1 + 1 / (2 * n)) * a := by
    rw [div_right_comm, div_le_iff₀ hn0]
    have : (1 + 1 / (2 * (n : ℝ))) * a * n = ((n : ℝ) + 1 / 2) * a := by field_simp
    rw [this]
    exact hx.le
  have hc : (1 : ℝ) + 1 / (2 * n) ≤ 5 / 4 := by
    have : 1 / (2 * (n : ℝ)) ≤ 1 / (2 * 2) := one_div_le_one_div_of_le (by norm_num) (by linarith)
    linarith
  have hc1 : (1 : ℝ) ≤ 1 + 1 / (2 * n) := by
    have : (0 : ℝ) ≤ 1 / (2 * n) := by positivity
    linarith
  have hpos : 0 ≤ θ / n / 2 := by positivity
  have hh2 : θ / n / 2 ≤ 5 / 12 * π := hh.trans (by nlinarith [pi_pos])
  refine ⟨by linarith [pi_pos], ?_, fun h3 => ?_⟩
  · have := chord_tolerance (θ / n / 2) a (1 + 1 / (2 * n)) ha0 hapi hpos (by linarith [pi_pos]) hc1 hh
    calc R * (1 - cos (θ / n / 2)) ≤ R * ((1 + 1 / (2 * n)) ^ 2 * (1 - cos a)) := mul_le_mul_of_nonneg_left this hR.le
      _ = (1 + 1 / (2 * n)) ^ 2 * tol := by rw [← hcos]; ring
  · have hs3 : (n : ℤ) = s := by omega
    have hs3' : (n : ℝ) = s := by exact_mod_cast hs3
    have h3' : (3 : ℝ) ≤ n := by exact_mod_cast h3
    have hle : a ≤ θ / (2 * n - 1) := by
      rw [le_div_iff₀ (by linarith)]
      have : (n : ℝ) - 1 / 2 ≤ θ / 2 / a := by linarith
      rw [le_div_iff₀ ha0] at this
      linarith
    have hlp : θ / (2 * n - 1) ≤ π := by
      rw [div_le_iff₀ (by linarith)]
      nlinarith [pi_pos]
    have := cos_le_cos_of_nonneg_of_le_pi ha0.le hlp hle
    rw [← hcos]
    exact mul_le_mul_of_nonneg_left (by linarith) hR.le

/-! ### C93 -/

/-- **C93.** `Curve.arc` with positive radii, in either direction and with any rotation, for tolerances of up to half of the
larger radius: it returns; the points added are on the ellipse that starts at the end of the curve, at `n ≥ 2` equal steps of
the angle; the arc is within `(1 + 1 / 2 n)^2` tolerances (at most 25/16) of the chain; and `n - 1/2` steps would not be
within the tolerance for a circle of the larger radius, unless there are two steps. -/
theorem C93_curve_arc_partial (rx ry i f rot tol : ℝ) (c : Curve ℝ) (hc : c.tol = tol ^ 2) (hx : 0 < rx) (hy : 0 < ry) (h0 : 0 < tol)
    (h1 : tol ≤ max rx ry / 2) (hne : i ≠ f) :
    ∃ c' pts centre, c.arc realNum rx ry i f rot = (c', none) ∧ c'.points = c.points ++ pts ∧ 2 ≤ pts.length ∧
      tiltedAt centre rx ry rot i = c.pen ∧ tiltedAt centre rx ry rot f = c'.pen ∧
      Chain (tiltedAt centre rx ry rot) i f ((1 + 1 / (2 * pts.length)) ^ 2 * tol) pts ∧
      (3 ≤ pts.length → tol ≤ max rx ry * (1 - cos (|f - i| / (2 * pts.length - 1)))) := by
  have hR : 0 < max rx ry := lt_max_of_lt_left hx
  have hsq : realNum.sqrt c.tol = tol := by rw [hc]; exact Real.sqrt_sq h0.le
  obtain ⟨s, hs⟩ : ∃ s, arcSteps realNum |f - i| tol (max rx ry) = .ok s := by
    have := C57_arc_ok tol rx ry i f rot h0 (by linarith)
    rw [← hc] at this
    obtain ⟨s, hs⟩ := this
    rw [hsq] at hs
    exact ⟨s, hs⟩
  obtain ⟨n, hn⟩ : ∃ n : ℕ, (n : ℤ) = max 2 s := ⟨(max 2 s).toNat, by omega⟩
  obtain ⟨b1, b2, b3⟩ := steps_tolerance hR (abs_pos.2 (sub_ne_zero.2 hne.symm)) h1 hs n hn
  have hN : (max 3 (1 + s)).toNat = n + 1 := by omega
  have hn2 : 2 ≤ n := by omega
  have hn0 : (0 : ℝ) < n := by exact_mod_cast (by omega : 0 < n)
  have hpt : ∀ a, ellipsePt realNum rx ry rot (a - rot) = tiltedAt (0, 0) rx ry rot a := by
    intro a
    unfold ellipsePt
    simp only [tiltedAt, realNum]
    split
    · rename_i hr
      subst hr
      simp
    · refine Prod.ext ?_ ?_ <;> simp only <;> ring
  set pts : List (Pt ℝ) := (List.range n).map fun k : ℕ =>
    tiltedAt (c.pen.1 - (tiltedAt (0, 0) rx ry rot i).1, c.pen.2 - (tiltedAt (0, 0) rx ry rot i).2) rx ry rot
      (i + (k + 1 : ℕ) * ((f - i) / n)) with hpts
  have hlen : pts.length = n := by simp [hpts]
  have hget : ∀ k < n, pts[k]? = some (tiltedAt (c.pen.1 - (tiltedAt (0, 0) rx ry rot i).1, c.pen.2 - (tiltedAt (0, 0) rx ry rot i).2)
      rx ry rot (i + (k + 1 : ℕ) * ((f - i) / n))) := by
    intro k hk
    rw [hpts, List.getElem?_map, List.getElem?_range hk]
    rfl
  have harc : c.arc realNum rx ry i f rot = ({ c.forget with points := c.points ++ pts }, none) := by
    unfold Curve.arc
    have e1 : c.forget.tol = c.tol := rfl
    have e2 : c.forget.pen = c.pen := rfl
    have e3 : c.forget.points = c.points := rfl
    simp only [e1, hsq, hs, hN, e2, e3]
    have el : (linspace (i - rot) (f - rot) (n + 1)).map (ellipsePt realNum rx ry rot) =
        (List.range (n + 1)).map fun k : ℕ => tiltedAt (0, 0) rx ry rot (i + k * ((f - i) / n)) := by
      unfold linspace
      rw [List.map_map]
      refine List.map_congr_left fun k _ => ?_
      rw [← hpt]
      simp only [Function.comp]
      congr 1
      push_cast
      ring
    rw [el, List.range_succ_eq_map]
    simp only [List.map_cons, List.headD_cons, List.drop_succ_cons, List.drop_zero, List.map_map, Nat.cast_zero, zero_mul, add_zero]
    rw [hpts]
    refine congrArg (fun l => (({ c.forget with points := c.points ++ l } : Curve ℝ), (none : Option PyErr))) ?_
    refine List.map_congr_left fun k _ => ?_
    simp only [Function.comp, tiltedAt]
    refine Prod.ext ?_ ?_ <;> simp only <;> push_cast <;> ring
  refine ⟨_, pts, (c.pen.1 - (tiltedAt (0, 0) rx ry rot i).1, c.pen.2 - (tiltedAt (0, 0) rx ry rot i).2), harc, rfl,
    by omega, ?_, ?_, ?_, ?_⟩
  · simp only [tiltedAt]
    refine Prod.ext ?_ ?_ <;> simp only <;> ring
  · have hl := hget (n - 1) (by omega)
    have hlast : pts.getLast? = pts[n - 1]? := by rw [List.getLast?_eq_getElem?, hlen]
    show _ = (c.points ++ pts).getLastD (0, 0)
    rw [List.getLastD_eq_getLast?, List.getLast?_append, hlast, hl]
    simp only [Option.some_or, Option.getD_some]
    congr 1
    rw [show n - 1 + 1 = n by omega]
    field_simp
    ring
  · rw [Chain, hlen]
    refine ⟨hget, fun a ha => ?_⟩
    have ha' : a - rot ∈ Set.uIcc (i - rot) (f - rot) := by
      rw [Set.mem_uIcc] at ha ⊢
      rcases ha with ⟨u, v⟩ | ⟨u, v⟩
      · exact Or.inl ⟨by linarith, by linarith⟩
      · exact Or.inr ⟨by linarith, by linarith⟩
    have hd : f - rot - (i - rot) = f - i := by ring
    obtain ⟨k, hk, hs'⟩ := oval_chain (0, 0) (rx, ry) hx.le hy.le (max rx ry) (le_max_left _ _) (le_max_right _ _) (i - rot) (f - rot)
      (fun e => hne (by linarith)) n (by omega) (by rw [hd]; exact b1) (a - rot) ha'
    rw [hd] at hs'
    refine ⟨k, hk, NearSegment.mono (tilted_near ?_) b2⟩
    rw [show ∀ x : ℝ, i + x - rot = i - rot + x by intro x; ring, show ∀ x : ℝ, i + x - rot = i - rot + x by intro x; ring]
    exact hs'
  · rw [hlen]
    exact b3

/-- **C93.** When `Curve.arc` raises: `ValueError` for radii that are negative or smaller than half of the tolerance,
`ZeroDivisionError` for a radius of 0. The points stay. -/
theorem C93_curve_arc_raises (rx ry i f rot tol : ℝ) (c : Curve ℝ) (hc : c.tol = tol ^ 2) (h0 : 0 < tol) :
    (max rx ry = 0 → c.arc realNum rx ry i f rot = (c.forget, some .zeroDivision)) ∧
    (max rx ry ≠ 0 → 2 * max rx ry < tol → c.arc realNum rx ry i f rot = (c.forget, some .valueError)) := by
  have hsq : realNum.sqrt c.forget.tol = tol := by
    show Real.sqrt c.tol = tol
    rw [hc]; exact Real.sqrt_sq h0.le
  refine ⟨fun h => ?_, fun h h1 => ?_⟩
  · unfold Curve.arc
    simp only [hsq, h, arcSteps, if_true]
  · have := flexSteps_raises (angle := |f - i|) h0 h1
    unfold flexSteps at this
    rw [if_neg h] at this
    unfold Curve.arc
    simp only [hsq, this]

/-- **C93, disagreement.** An arc of radius 1 from 0 to 240 degrees with a tolerance of 0.36: there are two segments, and the
point at 60 degrees is at a distance of 1/2 or more of both. -/
theorem C93_curve_arc_over : ∃ c' : Curve ℝ, (Curve.new (1, 0) (36 / 100)).arc realNum 1 1 0 (4 * π / 3) 0 = (c', none) ∧
    c'.points = [(1, 0), (-1 / 2, √3 / 2), (-1 / 2, -(√3 / 2))] ∧
    ∀ d, NearSegment (1, 0) (-1 / 2, √3 / 2) (cos (π / 3), sin (π / 3)) d ∨
      NearSegment (-1 / 2, √3 / 2) (-1 / 2, -(√3 / 2)) (cos (π / 3), sin (π / 3)) d → 1 / 2 ≤ d := by
  have hpi := pi_pos
  have hsq : realNum.sqrt (((36 / 100 : ℝ)) ^ 2) = 36 / 100 := Real.sqrt_sq (by norm_num)
  obtain ⟨s, hs⟩ : ∃ s, arcSteps realNum |4 * π / 3 - 0| (36 / 100) (max 1 1) = .ok s := by
    have := C57_arc_ok (36 / 100) 1 1 0 (4 * π / 3) 0 (by norm_num) (by norm_num)
    obtain ⟨s, hs⟩ := this
    rw [hsq] at hs
    exact ⟨s, hs⟩
  have hs2 : s ≤ 2 := by
    obtain ⟨-, -, a, ha0, hapi, hcos, hsv⟩ := arcSteps_real (by norm_num) hs
    have hc : cos a = 64 / 100 := by
      rw [max_self] at hcos
      linarith
    have ha : 4 * π / 15 < a := by
      by_contra hx
      push Not at hx
      have h1 := cos_le_cos_of_nonneg_of_le_pi ha0.le (by linarith : 4 * π / 15 ≤ π) hx
      have h2 := one_sub_sq_div_two_le_cos (x := 4 * π / 15)
      have h3 : π < 3.1416 := pi_lt_d4
      rw [hc] at h1
      nlinarith
    have hxnn : (0 : ℝ) ≤ |4 * π / 3 - 0| / 2 / a + 1 / 2 := by positivity
    obtain ⟨t1, -, -⟩ := truncInt_bounds hxnn
    rw [← hsv] at t1
    have h5 : |4 * π / 3 - 0| / 2 / a < 5 / 2 := by
      rw [sub_zero, abs_of_pos (by positivity), div_lt_iff₀ ha0]
      linarith
    have : (s : ℝ) < 3 := by linarith
    have : s < 3 := by exact_mod_cast this
    omega
  have hN : (max 3 (1 + s)).toNat = 3 := by omega
  have c1 : cos (2 * π / 3) = -1 / 2 := by
    rw [show 2 * π / 3 = π - π / 3 by ring, cos_pi_sub, cos_pi_div_three]; norm_num
  have s1 : sin (2 * π / 3) = √3 / 2 := by
    rw [show 2 * π / 3 = π - π / 3 by ring, sin_pi_sub, sin_pi_div_three]
  have c2 : cos (4 * π / 3) = -1 / 2 := by
    rw [show 4 * π / 3 = π / 3 + π by ring, cos_add_pi, cos_pi_div_three]; norm_num
  have s2 : sin (4 * π / 3) = -(√3 / 2) := by
    rw [show 4 * π / 3 = π / 3 + π by ring, sin_add_pi, sin_pi_div_three]
  refine ⟨⟨[(1, 0), (-1 / 2, √3 / 2), (-1 / 2, -(√3 / 2))], (36 / 100) ^ 2, none, none⟩, ?_, rfl, ?_⟩
  · unfold Curve.arc
    have e1 : (Curve.new ((1 : ℝ), (0 : ℝ)) (36 / 100)).forget.tol = (36 / 100) ^ 2 := rfl
    simp only [e1, hsq, hs, hN]
    have e2 : (4 * π / 3 - 0 - (0 - 0)) / (((3 : ℕ) : ℝ) - 1) = 2 * π / 3 := by push_cast; ring
    have e3 : 0 - 0 + ((2 : ℕ) : ℝ) * (2 * π / 3) = 4 * π / 3 := by push_cast; ring
    have e4 : 0 - 0 + ((1 : ℕ) : ℝ) * (2 * π / 3) = 2 * π / 3 := by push_cast; ring
    have e5 : 0 - 0 + ((0 : ℕ) : ℝ) * (2 * π / 3) = 0 := by push_cast; ring
    have hl : linspace ((0 : ℝ) - 0) (4 * π / 3 - 0) 3 = [0, 2 * π / 3, 4 * π / 3] := by
      unfold linspace
      rw [e2]
      simp only [List.range_succ, List.range_zero, List.nil_append, List.cons_append, List.map_cons, List.map_nil, e3, e4, e5]
    rw [hl]
    have p0 : ellipsePt realNum 1 1 0 0 = (1, 0) := by simp [ellipsePt, realNum]
    have p1 : ellipsePt realNum 1 1 0 (2 * π / 3) = (-1 / 2, √3 / 2) := by
      simp only [ellipsePt, realNum, if_true, c1, s1, one_mul]
    have p2 : ellipsePt realNum 1 1 0 (4 * π / 3) = (-1 / 2, -(√3 / 2)) := by
      simp only [ellipsePt, realNum, if_true, c2, s2, one_mul]
    simp only [List.map_cons, List.map_nil, p0, p1, p2, List.headD_cons, List.drop_succ_cons, List.drop_zero]
    simp [Curve.new, Curve.forget, Curve.pen]
  · rw [cos_pi_div_three, sin_pi_div_three]
    have h3 : √3 * √3 = 3 := Real.mul_self_sqrt (by norm_num)
    have key : ∀ d x : ℝ, 0 ≤ d → (1 / 2) ^ 2 ≤ x → x ≤ d ^ 2 → 1 / 2 ≤ d := fun d x hd h1 h2 =>
      le_of_sq_le_sq (h1.trans h2) hd
    rintro d (⟨hd, t, t0, t1, ht⟩ | ⟨hd, t, t0, t1, ht⟩)
    · refine key d _ hd ?_ ht
      simp only [dist2, between]
      nlinarith [sq_nonneg (2 * t - 1)]
    · refine key d _ hd ?_ ht
      simp only [dist2, between]
      nlinarith [sq_nonneg (√3 / 2 - (√3 / 2 + t * (-(√3 / 2) - √3 / 2)))]

/-- The hypotheses of C93_curve_arc_partial: three quarters of an ellipse, clockwise and turned, with the default tolerance. -/
example : ∃ c' : Curve ℝ, (Curve.new (1, 2) (1 / 100)).arc realNum 3 1 π (-π / 2) 1 = (c', none) ∧ 3 ≤ c'.points.length := by
  obtain ⟨c', pts, -, h, hp, hl, -⟩ := C93_curve_arc_partial 3 1 π (-π / 2) 1 (1 / 100) (Curve.new (1, 2) (1 / 100)) rfl
    (by norm_num) (by norm_num) (by norm_num) (by norm_num) (by linarith [pi_pos])
  refine ⟨c', h, ?_⟩
  rw [hp, List.length_append]
  have : (Curve.new ((1 : ℝ), (2 : ℝ)) (1 / 100)).points.length = 1 := rfl
  omega

/-! ### FlexPath.arc -/

/-- **C93.** The points that `FlexPath.arc` adds to the line of the path are on the circle that starts at its end, and the
circle is within `(1 + 1 / 2 n)^2` tolerances of them, for tolerances of up to half of the radius, if offset and width of
some path have a sum of at least 0. -/
theorem C93_flex_arc_partial {f g : Flex ℝ} (hf : FlexAligned f) {r ia fa : ℝ} {w o : FArg ℝ} (hw : FArgOk f.n w)
    (ho : FArgOk f.n o) (h : f.arc realNum r ia fa w o = (g, none)) (hr : f.tolerance ≤ r / 2) (h0 : 0 < r) (hne : ia ≠ fa)
    (hk : ∃ (k : ℕ) (a b : ℝ), (lastRow f.offsets)[k]? = some a ∧ (lastRow f.widths)[k]? = some b ∧ 0 ≤ a + b) :
    ∃ pts centre, g.points = f.points ++ pts ∧ 2 ≤ pts.length ∧ ovalAt centre (r, r) ia = f.tip ∧
      Chain (ovalAt centre (r, r)) ia fa ((1 + 1 / (2 * pts.length)) ^ 2 * f.tolerance) pts := by
  rcases arc_cases realNum r ia fa w o f with ⟨e', h'⟩ | ⟨np, hnp, h'⟩
  · rw [h'] at h; cases h
  rw [h'] at h
  unfold Flex.arcPoints at hnp
  obtain ⟨m0, hm0, hnp⟩ := bind_ok hnp
  obtain ⟨m1, -, hnp⟩ := bind_ok hnp
  obtain ⟨s, hs, hnp⟩ := bind_ok hnp
  simp only [Except.ok.injEq] at hnp
  have hm : 0 ≤ m0 := by
    obtain ⟨k, a, b, ha, hb, hab⟩ := hk
    have hlen : (lastRow f.offsets).length = (lastRow f.widths).length :=
      (lastRow_length hf.offsetCols hf.offsets_ne).trans (lastRow_length hf.widthCols hf.widths_ne).symm
    unfold bcast2 at hm0
    rw [if_pos hlen] at hm0
    have hmem : a + b ∈ List.zipWith (· + ·) (lastRow f.offsets) (lastRow f.widths) := by
      refine List.mem_of_getElem? (i := k) ?_
      rw [List.getElem?_zipWith, ha, hb]
    have hmax : ∀ (l : List ℝ) (x m : ℝ), pyMax l = .ok m → x ∈ l → x ≤ m := by
      intro l x m hp hx
      cases l with
      | nil => cases hx
      | cons y l =>
        cases hp
        have : ∀ (l : List ℝ) (y : ℝ), y ≤ l.foldl max y ∧ ∀ x ∈ l, x ≤ l.foldl max y := by
          intro l
          induction l with
          | nil => intro y; simp
          | cons z l ih =>
            intro y
            rw [List.foldl_cons]
            refine ⟨(le_max_left _ _).trans (ih _).1, fun x hx => ?_⟩
            rcases List.mem_cons.1 hx with rfl | hx
            · exact (le_max_right _ _).trans (ih _).1
            · exact (ih _).2 x hx
        rcases List.mem_cons.1 hx with rfl | hx
        · exact (this l _).1
        · exact (this l _).2 x hx
    exact hab.trans (hmax _ _ _ hm0 hmem)
  have hrm : r ≤ r + max m0 m1 := by linarith [le_max_left m0 m1]
  have hR : 0 < r + max m0 m1 := by linarith
  unfold flexSteps at hs
  rw [if_neg hR.ne'] at hs
  obtain ⟨n, hn⟩ : ∃ n : ℕ, (n : ℤ) = max 2 s := ⟨(max 2 s).toNat, by omega⟩
  obtain ⟨b1, b2, -⟩ := steps_tolerance hR (abs_pos.2 (sub_ne_zero.2 hne.symm))
    (show f.tolerance ≤ (r + max m0 m1) / 2 by linarith) hs n hn
  have hN : np = n + 1 := by omega
  have hn2 : 2 ≤ n := by omega
  subst hN
  have hp := (extend_rows (hf.uncached none) (widthArg_ok hw) ho h).1
  set centre : Pt ℝ := (f.tip.1 - r * cos ia, f.tip.2 - r * sin ia) with hcen
  have hpts : (((linspace ia fa (n + 1)).map fun a => (r * realNum.cos a, r * realNum.sin a)).drop 1 |>.map
      fun p => (p.1 + (f.tip.1 - (((linspace ia fa (n + 1)).map fun a => (r * realNum.cos a, r * realNum.sin a)).headD (0, 0)).1),
        p.2 + (f.tip.2 - (((linspace ia fa (n + 1)).map fun a => (r * realNum.cos a, r * realNum.sin a)).headD (0, 0)).2))) =
      (List.range n).map fun k : ℕ => ovalAt centre (r, r) (ia + (k + 1 : ℕ) * ((fa - ia) / n)) := by
    unfold linspace
    rw [List.range_succ_eq_map]
    simp only [List.map_cons, List.headD_cons, List.drop_succ_cons, List.drop_zero, List.map_map, Nat.cast_zero, zero_mul, add_zero]
    refine List.map_congr_left fun k _ => ?_
    have e : ((n + 1 : ℕ) : ℝ) - 1 = n := by push_cast; ring
    simp only [Function.comp, ovalAt, hcen, realNum, e, Nat.succ_eq_add_one]
    refine Prod.ext ?_ ?_ <;> simp only <;> ring
  rw [hpts] at hp
  refine ⟨_, centre, hp, by simpa using hn2, ?_, ?_⟩
  · simp only [ovalAt, hcen]
    refine Prod.ext ?_ ?_ <;> simp only <;> ring
  · rw [Chain, List.length_map, List.length_range]
    refine ⟨fun k hk => by rw [List.getElem?_map, List.getElem?_range hk]; rfl, fun a ha => ?_⟩
    obtain ⟨k, hk, hs'⟩ := oval_chain centre (r, r) h0.le h0.le r le_rfl le_rfl ia fa hne n (by omega) b1 a ha
    refine ⟨k, hk, NearSegment.mono hs' (le_trans ?_ b2)⟩
    exact mul_le_mul_of_nonneg_right hrm (by linarith [cos_le_one (|fa - ia| / n / 2)])

/-- **C93, disagreement.** A path with an offset of `-(radius + width)` or less can not be given an arc, in either direction:
`ValueError`, although in one of them the path is at a distance of more than the radius from the centre. -/
theorem C93_flex_arc_raises (f : Flex ℝ) (r ia fa a b : ℝ) (hb : lastRow f.widths = [b]) (ha : lastRow f.offsets = [a])
    (ht : 0 < f.tolerance) (h : r + (a + b) ≤ 0) :
    f.arc realNum r ia fa .none .none = ({ f with cache := none }, some .valueError) := by
  have h1 : flexSteps realNum |fa - ia| f.tolerance (r + max (a + b) (a + b)) = .error .valueError :=
    flexSteps_raises ht (by rw [max_self]; linarith)
  have hwa : ∀ g : Flex ℝ, g.widthArg .none = .none := by
    intro g
    unfold Flex.widthArg
    split <;> rfl
  have h2 : Flex.arcPoints realNum r ia fa .none .none { f with cache := none } = .error .valueError := by
    unfold Flex.arcPoints Flex.finalOffset Flex.finalWidth
    simp only [ha, hb]
    show (flexSteps realNum |fa - ia| f.tolerance (r + max (a + b) (a + b)) >>= _) = _
    rw [h1]
    rfl
  unfold Flex.arc
  simp only [hwa, h2]

/-- A path of width 1 with an offset. -/
noncomputable def Sample.bare (off : ℝ) : Flex ℝ where
  points := [(0, 0)]
  widths := [[1]]
  offsets := [[off]]
  n := 1
  ends := [.flush]
  corners := [.natural]
  bendRadius := [none]
  layers := [0]
  datatypes := [0]
  tolerance := 1 / 100
  precision := 1 / 1000
  maxPoints := 199
  gdsiiPath := false
  widthTransform := true
  cache := none

/-- The hypotheses of C93_flex_arc_partial: half a turn of radius 5, of a path with an offset of 1/2, narrowing to 1/3. -/
example : ∃ g, (Sample.bare (1 / 2)).arc realNum 5 0 π (.num (1 / 3)) .none = (g, none) ∧ FlexAligned (Sample.bare (1 / 2)) ∧
    (Sample.bare (1 / 2)).tolerance ≤ 5 / 2 ∧ ∃ (k : ℕ) (a b : ℝ), (lastRow (Sample.bare (1 / 2)).offsets)[k]? = some a ∧
      (lastRow (Sample.bare (1 / 2)).widths)[k]? = some b ∧ 0 ≤ a + b := by
  have hal : FlexAligned (Sample.bare (1 / 2)) := by constructor <;> simp [Sample.bare]
  have hp : ∃ np, Flex.arcPoints realNum 5 0 π (.num (1 / 3)) .none { Sample.bare (1 / 2) with cache := none } = .ok np := by
    obtain ⟨s, hs⟩ := flexSteps_ok (angle := |π - 0|) (tol := 1 / 100) (r := 5 + max (1 / 2 + 1) (1 / 2 + 1 / 3)) (by norm_num)
      (by norm_num)
    refine ⟨(max 3 (1 + s)).toNat, ?_⟩
    show (flexSteps realNum |π - 0| (1 / 100) (5 + max (1 / 2 + 1) (1 / 2 + 1 / 3)) >>= _) = _
    rw [hs]
    rfl
  obtain ⟨np, hnp⟩ := hp
  obtain ⟨g, hg⟩ := extend_good (f := { Sample.bare (1 / 2) with cache := none }) (w := .num (1 / 3)) (o := .none)
    ((((linspace 0 π np).map fun a => (5 * realNum.cos a, 5 * realNum.sin a)).drop 1).map
      fun p => (p.1 + ((Sample.bare (1 / 2)).tip.1 - (((linspace 0 π np).map fun a => (5 * realNum.cos a, 5 * realNum.sin a)).headD (0, 0)).1),
        p.2 + ((Sample.bare (1 / 2)).tip.2 - (((linspace 0 π np).map fun a => (5 * realNum.cos a, 5 * realNum.sin a)).headD (0, 0)).2)))
    (hal.uncached none) trivial trivial
  refine ⟨g, ?_, hal, by norm_num [Sample.bare], 0, 1 / 2, 1, rfl, rfl, by norm_num⟩
  unfold Flex.arc
  have hwa : Flex.widthArg { Sample.bare (1 / 2) with cache := none } (.num (1 / 3)) = .num (1 / 3) := rfl
  simp only [hwa, hnp]
  exact hg

/-- A path 10 to the right of its line: no arc of radius 5. -/
example : (Sample.bare (-10)).arc realNum 5 0 π .none .none = (Sample.bare (-10), some .valueError) :=
  C93_flex_arc_raises (Sample.bare (-10)) 5 0 π (-10) 1 rfl rfl (by norm_num [Sample.bare]) (by norm_num)

end Gdspy
