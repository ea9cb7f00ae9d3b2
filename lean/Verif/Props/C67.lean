import Verif.Model.Fillet
import Verif.Spec.Fillet
import Verif.Props.C66

/-!
# C67: rounded corners
-/

set_option linter.unusedSectionVars false

namespace Gdspy

open Spec Real

/-- The direction of the arc in terms of the directions of the edges. -/
theorem fillet_arc_dir (a0 f s x S : ℝ) (e1 : Pt ℝ) (hf : f = S ∨ f = -S) (hS : sin S ≠ 0) (hx : x = cos S)
    (h1 : e1 = (cos (a0 + f), sin (a0 + f))) :
    cos (a0 + s * f) = sin ((1 - s) * S) / sin S * cos a0 + sin (s * S) / sin S * e1.1 ∧
    sin (a0 + s * f) = sin ((1 - s) * S) / sin S * sin a0 + sin (s * S) / sin S * e1.2 := by
  have h2 : sin ((1 - s) * S) = sin S * cos (s * S) - cos S * sin (s * S) := by
    rw [show (1 - s) * S = S - s * S by ring, sin_sub]
  subst h1
  simp only
  rcases hf with rfl | rfl
  · rw [cos_add, sin_add, cos_add, sin_add, h2]
    constructor <;> · field_simp; ring
  · rw [show s * -S = -(s * S) by ring, cos_add, sin_add, cos_add, sin_add, cos_neg, sin_neg, cos_neg, sin_neg, h2]
    constructor <;> · field_simp; ring

/-- The pieces `k`, `m` of a point of the arc along the two edges. -/
theorem fillet_inside (S s : ℝ) (h0 : 0 < S) (h1 : S < π) (s0 : 0 ≤ s) (s1 : s ≤ 1) :
    0 ≤ (1 - cos ((1 - s) * S)) / (1 - cos S) ∧ 0 ≤ (1 - cos (s * S)) / (1 - cos S) ∧
    (1 - cos ((1 - s) * S)) / (1 - cos S) + (1 - cos (s * S)) / (1 - cos S) ≤ 1 := by
  have hc : 0 < 1 - cos S := by
    have : cos S < cos 0 := cos_lt_cos_of_nonneg_of_le_pi (le_refl _) h1.le h0
    rw [cos_zero] at this
    linarith
  refine ⟨div_nonneg (by linarith [cos_le_one ((1 - s) * S)]) hc.le, div_nonneg (by linarith [cos_le_one (s * S)]) hc.le, ?_⟩
  rw [← add_div, div_le_one hc]
  have e := cos_add_cos ((1 - s) * S) (s * S)
  rw [show ((1 - s) * S + s * S) / 2 = S / 2 by ring] at e
  have hle : cos (S / 2) ≤ cos (((1 - s) * S - s * S) / 2) := by
    rw [← cos_abs (((1 - s) * S - s * S) / 2)]
    apply cos_le_cos_of_nonneg_of_le_pi (abs_nonneg _) (by linarith)
    rw [abs_le]
    constructor <;> nlinarith
  have hpos : 0 < cos (S / 2) := cos_pos_of_mem_Ioo ⟨by linarith, by linarith⟩
  have e2 := cos_two_mul (S / 2)
  rw [show 2 * (S / 2) = S by ring] at e2
  nlinarith

/-- The difference of two arguments, made small. -/
theorem adjust_angle (a0 a1 : ℝ) (h0 : -π < a0) (h0' : a0 ≤ π) (h1 : -π < a1) (h1' : a1 ≤ π) (a : ℝ)
    (ha : a = if a1 - a0 > π then a1 - 2 * π else if a1 - a0 < -π then a1 + 2 * π else a1) :
    |a - a0| ≤ π ∧ cos a = cos a1 ∧ sin a = sin a1 := by
  subst ha
  split
  · refine ⟨?_, cos_sub_two_pi _, sin_sub_two_pi _⟩
    rw [abs_le]; constructor <;> linarith
  · split
    · refine ⟨?_, cos_add_two_pi _, sin_add_two_pi _⟩
      rw [abs_le]; constructor <;> linarith
    · refine ⟨?_, rfl, rfl⟩
      rw [abs_le]; constructor <;> linarith

theorem arg_unit (x y : ℝ) (h : x ^ 2 + y ^ 2 = 1) :
    cos (realNum.atan2 y x) = x ∧ sin (realNum.atan2 y x) = y ∧ -π < realNum.atan2 y x ∧ realNum.atan2 y x ≤ π := by
  have hn : ‖(⟨x, y⟩ : ℂ)‖ = 1 := by
    rw [Complex.norm_eq_sqrt_sq_add_sq]
    show Real.sqrt (x ^ 2 + y ^ 2) = 1
    rw [h, Real.sqrt_one]
  have h1 := Complex.norm_mul_cos_arg ⟨x, y⟩
  have h2 := Complex.norm_mul_sin_arg ⟨x, y⟩
  rw [hn, one_mul] at h1 h2
  exact ⟨h1, h2, Complex.neg_pi_lt_arg _, Complex.arg_le_pi _⟩

theorem edgeLen_real (p q : Pt ℝ) : edgeLen realNum p q = Real.sqrt (dist2 p q) := by
  show Real.sqrt ((q.1 - p.1) ^ 2 + (q.2 - p.2) ^ 2) = Real.sqrt ((p.1 - q.1) ^ 2 + (p.2 - q.2) ^ 2)
  congr 1; ring

theorem edgeLen_pos {p q : Pt ℝ} (h : p ≠ q) : 0 < edgeLen realNum p q := by
  rw [edgeLen_real]
  apply Real.sqrt_pos.2
  unfold dist2
  by_contra hc
  apply h
  have h1 : (p.1 - q.1) ^ 2 = 0 := by nlinarith [sq_nonneg (p.1 - q.1), sq_nonneg (p.2 - q.2)]
  have h2 : (p.2 - q.2) ^ 2 = 0 := by nlinarith [sq_nonneg (p.1 - q.1), sq_nonneg (p.2 - q.2)]
  ext
  · linarith [pow_eq_zero_iff (two_ne_zero) |>.1 h1]
  · linarith [pow_eq_zero_iff (two_ne_zero) |>.1 h2]

theorem edgeLen_sq (p q : Pt ℝ) : edgeLen realNum p q ^ 2 = (q.1 - p.1) ^ 2 + (q.2 - p.2) ^ 2 :=
  Real.sq_sqrt (by positivity)

/-- The radius that is used: the wanted one unless the tangent would be longer than 49% of one of the edges. -/
theorem fillet_radius (radius tt len0 len1 : ℝ) (hr : 0 ≤ radius) (ht : 0 < tt) (h0 : 0 < len0) (h1 : 0 < len1) (r : ℝ)
    (h : r = (if (if radius * tt > 49 / 100 * len0 then (49 / 100 * len0 / tt, 49 / 100 * len0) else (radius, radius * tt)).2 >
        49 / 100 * len1 then 49 / 100 * len1 / tt
      else (if radius * tt > 49 / 100 * len0 then (49 / 100 * len0 / tt, 49 / 100 * len0) else (radius, radius * tt)).1)) :
    0 ≤ r ∧ r ≤ radius ∧ r * tt ≤ 49 / 100 * len0 ∧ r * tt ≤ 49 / 100 * len1 ∧
      (r = radius ∨ r * tt = 49 / 100 * len0 ∨ r * tt = 49 / 100 * len1) := by
  have e0 : 49 / 100 * len0 / tt * tt = 49 / 100 * len0 := div_mul_cancel₀ _ ht.ne'
  have e1 : 49 / 100 * len1 / tt * tt = 49 / 100 * len1 := div_mul_cancel₀ _ ht.ne'
  have p0 : 0 ≤ 49 / 100 * len0 / tt := by positivity
  have p1 : 0 ≤ 49 / 100 * len1 / tt := by positivity
  by_cases c0 : radius * tt > 49 / 100 * len0
  · simp only [if_pos c0] at h
    have q0 : 49 / 100 * len0 / tt ≤ radius := by rw [div_le_iff₀ ht]; exact c0.le
    by_cases c1 : 49 / 100 * len0 > 49 / 100 * len1
    · rw [if_pos c1] at h
      subst h
      exact ⟨p1, by rw [div_le_iff₀ ht]; linarith, by linarith, by linarith, Or.inr (Or.inr e1)⟩
    · rw [if_neg c1] at h
      subst h
      exact ⟨p0, q0, by linarith, by linarith, Or.inr (Or.inl e0)⟩
  · simp only [if_neg c0] at h
    by_cases c1 : radius * tt > 49 / 100 * len1
    · rw [if_pos c1] at h
      subst h
      exact ⟨p1, by rw [div_le_iff₀ ht]; linarith, by linarith, by linarith, Or.inr (Or.inr e1)⟩
    · rw [if_neg c1] at h
      subst h
      exact ⟨hr, le_refl _, by linarith, by linarith, Or.inl rfl⟩

theorem fillet_touch (R S x L u1 u2 w1 w2 v1 v2 : ℝ) (hS : S ≠ 0) (uu : u1 ^ 2 + u2 ^ 2 = 1) (ww : w1 ^ 2 + w2 ^ 2 = 1)
    (hx : x = w1 * u1 + w2 * u2) :
    ((v1 - R * ((1 - x) / S) * u1) - (R * (w1 - u1) / S + v1)) * (L * u1) +
      ((v2 - R * ((1 - x) / S) * u2) - (R * (w2 - u2) / S + v2)) * (L * u2) = 0 ∧
    ((v1 + R * ((1 - x) / S) * w1) - (R * (w1 - u1) / S + v1)) * (L * w1) +
      ((v2 + R * ((1 - x) / S) * w2) - (R * (w2 - u2) / S + v2)) * (L * w2) = 0 := by
  constructor
  · field_simp
    linear_combination L * R * x * uu + L * R * hx
  · field_simp
    linear_combination -L * R * x * ww - L * R * hx

theorem between_mul (T L w v : ℝ) (hL : L ≠ 0) : v + T / L * (L * w) = v + T * w := by field_simp

set_option maxHeartbeats 1000000 in
/-- One corner. -/
theorem C67_corner (pp : ℝ) (p v q : Pt ℝ) (radius : ℝ) (hpp : 0 ≤ pp) (hr : 0 ≤ radius) (hp : p ≠ v) (hq : v ≠ q)
    (hrev : turnAt p v q < π) :
    ∃ l, filletCorner realNum pp p v q radius = .ok l ∧
      ((turnAt p v q ≤ 1 / 1000000 ∧ l = [v]) ∨ (1 / 1000000 < turnAt p v q ∧ RoundedCorner p v q radius pp l)) := by
  have L0 := edgeLen_pos hp
  have L1 := edgeLen_pos hq
  have Q0 := edgeLen_sq p v
  have Q1 := edgeLen_sq v q
  set len0 := edgeLen realNum p v with hlen0
  set len1 := edgeLen realNum v q with hlen1
  set u : Pt ℝ := ((v.1 - p.1) / len0, (v.2 - p.2) / len0) with hu
  set w : Pt ℝ := ((q.1 - v.1) / len1, (q.2 - v.2) / len1) with hw
  have uu : u.1 ^ 2 + u.2 ^ 2 = 1 := by
    simp only [hu, div_pow, ← add_div]
    rw [← Q0]; exact div_self (by positivity)
  have ww : w.1 ^ 2 + w.2 ^ 2 = 1 := by
    simp only [hw, div_pow, ← add_div]
    rw [← Q1]; exact div_self (by positivity)
  set x := w.1 * u.1 + w.2 * u.2 with hx
  have hturn : turnAt p v q = arccos x := by
    unfold turnAt
    rw [← edgeLen_real, ← edgeLen_real, ← hlen0, ← hlen1]
    congr 1
    simp only [hx, hu, hw, dotSeg]
    field_simp
  have x1 : x ≤ 1 := by nlinarith [sq_nonneg (w.1 - u.1), sq_nonneg (w.2 - u.2)]
  have x2 : -1 ≤ x := by nlinarith [sq_nonneg (w.1 + u.1), sq_nonneg (w.2 + u.2)]
  have hacos : realNum.acos x = some (arccos x) := by
    simp only [realNum]
    rw [if_pos ⟨x2, x1⟩]
  set θ := arccos x with hθ
  have hcosθ : cos θ = x := cos_arccos x2 x1
  rw [hturn] at hrev
  have hθ0 : 0 ≤ θ := arccos_nonneg x
  have hcorner : filletCorner realNum pp p v q radius =
      (if θ > 1 / 1000000 then
        if cos (θ / 2) = 0 then .error .unmodelled
        else
          let d : Pt ℝ := if edgeLen realNum u w ≠ 0 then ((w.1 - u.1) / edgeLen realNum u w, (w.2 - u.2) / edgeLen realNum u w)
            else (w.1 - u.1, w.2 - u.2)
          let ct := cos (θ / 2)
          let tt := sin (θ / 2) / ct
          let a0 := realNum.atan2 (-u.2 * tt - d.2 / ct) (-u.1 * tt - d.1 / ct)
          let a1 := realNum.atan2 (w.2 * tt - d.2 / ct) (w.1 * tt - d.1 / ct)
          let pi := 2 * realNum.halfpi
          let a1 := if a1 - a0 > pi then a1 - 2 * pi else if a1 - a0 < -pi then a1 + 2 * pi else a1
          let ll := radius * tt
          let (r, ll) := if ll > 49 / 100 * len0 then (49 / 100 * len0 / tt, 49 / 100 * len0) else (radius, ll)
          let r := if ll > 49 / 100 * len1 then 49 / 100 * len1 / tt else r
          .ok ((filletAngles realNum pp a0 a1).map fun a =>
            (r * d.1 / ct + v.1 + r * cos a, r * d.2 / ct + v.2 + r * sin a))
      else .ok [v]) := by
    unfold filletCorner
    simp only
    rw [← hlen0, ← hlen1, ← hu, ← hw, ← hx, hacos]
    rfl
  rw [hcorner, hturn]
  clear hcorner
  clear_value θ x u w len0 len1
  by_cases hbig : θ > 1 / 1000000
  swap
  · rw [if_neg hbig]
    exact ⟨_, rfl, Or.inl ⟨not_lt.1 hbig, rfl⟩⟩
  have hθpos : 0 < θ := by linarith
  have hct : 0 < cos (θ / 2) := cos_pos_of_mem_Ioo ⟨by linarith, by linarith⟩
  have hst : 0 < sin (θ / 2) := sin_pos_of_pos_of_lt_pi (by linarith) (by linarith)
  have hS : 0 < sin θ := sin_pos_of_pos_of_lt_pi hθpos hrev
  have hS2 : sin θ = 2 * sin (θ / 2) * cos (θ / 2) := by rw [← sin_two_mul]; congr 1; ring
  have hC2 : x = 2 * cos (θ / 2) ^ 2 - 1 := by rw [← hcosθ, ← cos_two_mul]; congr 1; ring
  have hpy := cos_sq_add_sin_sq (θ / 2)
  have hpyθ := cos_sq_add_sin_sq θ
  rw [if_pos hbig, if_neg hct.ne']
  have hnorm : edgeLen realNum u w = 2 * sin (θ / 2) := by
    show Real.sqrt ((w.1 - u.1) ^ 2 + (w.2 - u.2) ^ 2) = _
    rw [show (w.1 - u.1) ^ 2 + (w.2 - u.2) ^ 2 = (2 * sin (θ / 2)) ^ 2 by
      linear_combination uu + ww + 2 * hx - 2 * hC2 - 4 * hpy]
    exact Real.sqrt_sq (by positivity)
  rw [hnorm]
  simp only
  rw [if_pos (show 2 * sin (θ / 2) ≠ 0 by positivity)]
  set st := sin (θ / 2) with hstd
  set ct := cos (θ / 2) with hctd
  have hpi : 2 * realNum.halfpi = π := by show 2 * (π / 2) = π; ring
  rw [hpi]
  -- the unit vectors from the centre to the ends of the arc
  have g : ∀ z z' : ℝ, -z * (st / ct) - (z' - z) / (2 * st) / ct = (x * z - z') / sin θ ∧
      z' * (st / ct) - (z' - z) / (2 * st) / ct = (z - x * z') / sin θ := by
    intro z z'
    rw [hS2, hC2]
    constructor
    · field_simp
      linear_combination (-2 * z) * hpy
    · field_simp
      linear_combination (2 * z') * hpy
  simp only [(g _ _).1, (g _ _).2]
  have hxx : 1 - x ^ 2 = sin θ ^ 2 := by rw [hcosθ] at hpyθ; linarith
  have n0 : ((x * u.1 - w.1) / sin θ) ^ 2 + ((x * u.2 - w.2) / sin θ) ^ 2 = 1 := by
    rw [div_pow, div_pow, ← add_div, div_eq_one_iff_eq (by positivity), ← hxx]
    linear_combination x ^ 2 * uu + ww + 2 * x * hx
  have n1 : ((u.1 - x * w.1) / sin θ) ^ 2 + ((u.2 - x * w.2) / sin θ) ^ 2 = 1 := by
    rw [div_pow, div_pow, ← add_div, div_eq_one_iff_eq (by positivity), ← hxx]
    linear_combination uu + x ^ 2 * ww + 2 * x * hx
  obtain ⟨c0, s0, l0, l0'⟩ := arg_unit _ _ n0
  obtain ⟨c1, s1, l1, l1'⟩ := arg_unit _ _ n1
  set a0 := realNum.atan2 ((x * u.2 - w.2) / sin θ) ((x * u.1 - w.1) / sin θ) with ha0
  set b1 := realNum.atan2 ((u.2 - x * w.2) / sin θ) ((u.1 - x * w.1) / sin θ) with hb1
  obtain ⟨hab, hc1, hs1⟩ := adjust_angle a0 b1 l0 l0' l1 l1' _ rfl
  set a1 := (if b1 - a0 > π then b1 - 2 * π else if b1 - a0 < -π then b1 + 2 * π else b1) with ha1
  have hcd : cos (a1 - a0) = cos θ := by
    rw [cos_sub, hc1, hs1, c0, c1, s0, s1, hcosθ]
    field_simp
    rw [← hxx]
    linear_combination x * uu + x * ww + (1 + x ^ 2) * hx
  have habs : |a1 - a0| = θ := by
    rw [← cos_abs] at hcd
    exact injOn_cos ⟨abs_nonneg _, hab⟩ ⟨hθ0, hrev.le⟩ hcd
  have hf : a1 - a0 = θ ∨ a1 - a0 = -θ := by
    rcases abs_choice (a1 - a0) with h | h
    · left; rw [← habs, h]
    · right; rw [← habs, h]; ring
  have htt : 0 < st / ct := div_pos hst hct
  obtain ⟨r0, r1, r2, r3, r4⟩ := fillet_radius radius (st / ct) len0 len1 hr htt L0 L1 _ rfl
  set R := (if (if radius * (st / ct) > 49 / 100 * len0 then (49 / 100 * len0 / (st / ct), 49 / 100 * len0)
        else (radius, radius * (st / ct))).2 > 49 / 100 * len1 then 49 / 100 * len1 / (st / ct)
      else (if radius * (st / ct) > 49 / 100 * len0 then (49 / 100 * len0 / (st / ct), 49 / 100 * len0)
        else (radius, radius * (st / ct))).1) with hR
  refine ⟨_, rfl, Or.inr ⟨hbig, ?_⟩⟩
  clear_value R a1 b1 a0 st ct
  -- the tangent length
  have htan : (1 - x) / sin θ = st / ct := by
    rw [hS2, hC2]
    field_simp
    linear_combination (-2 : ℝ) * hpy
  -- the points
  have hpt : ∀ s, (R * ((w.1 - u.1) / (2 * st)) / ct + v.1 + R * cos (a0 + s * (a1 - a0)),
      R * ((w.2 - u.2) / (2 * st)) / ct + v.2 + R * sin (a0 + s * (a1 - a0))) =
      (v.1 - R * (1 - cos ((1 - s) * θ)) / sin θ * u.1 + R * (1 - cos (s * θ)) / sin θ * w.1,
       v.2 - R * (1 - cos ((1 - s) * θ)) / sin θ * u.2 + R * (1 - cos (s * θ)) / sin θ * w.2) := by
    intro s
    obtain ⟨k1, k2⟩ := fillet_arc_dir a0 (a1 - a0) s x θ _ hf hS.ne' hcosθ.symm rfl
    have e : a0 + (a1 - a0) = a1 := by ring
    rw [e, hc1, c1, c0] at k1
    rw [e, hs1, s1, s0] at k2
    rw [k1, k2]
    have m1 : sin ((1 - s) * θ) = sin θ * cos (s * θ) - x * sin (s * θ) := by
      rw [show (1 - s) * θ = θ - s * θ by ring, sin_sub, hcosθ]
    have m2 : cos ((1 - s) * θ) = x * cos (s * θ) + sin θ * sin (s * θ) := by
      rw [show (1 - s) * θ = θ - s * θ by ring, cos_sub, hcosθ]
    rw [m1, m2]
    have hd : ∀ z z' : ℝ, R * ((z' - z) / (2 * st)) / ct = R * (z' - z) / sin θ := by
      intro z z'; rw [hS2]; field_simp
    rw [hd, hd]
    ext
    · simp only
      field_simp
      linear_combination R * u.1 * sin (s * θ) * hxx
    · simp only
      field_simp
      linear_combination R * u.2 * sin (s * θ) * hxx
  -- the ends
  have hT : R * (1 - x) / sin θ = R * (st / ct) := by rw [mul_div_assoc, htan]
  have hfirst := hpt 0
  have hlast := hpt 1
  simp only [zero_mul, add_zero, cos_zero, sub_self, mul_zero, zero_div, sub_zero, one_mul, hcosθ, hT] at hfirst hlast
  have hone : 1 - x ≠ 0 := by
    intro h0
    rw [h0, zero_div] at htan
    exact htt.ne htan
  have hRn : ∀ s, R * (1 - cos (s * θ)) / sin θ = R * (st / ct) * ((1 - cos (s * θ)) / (1 - cos θ)) := by
    intro s
    rw [← htan, hcosθ]
    field_simp
  set n := (max (truncInt ((⌈|a1 - a0| / (2 * (2 * realNum.halfpi)) * pp⌉ : ℝ) + 1 / 2)) 2).toNat with hn
  have hnz : (n : ℤ) = max 2 ⌈θ / (2 * π) * pp⌉ := by
    have hc0 : (0 : ℤ) ≤ ⌈θ / (2 * π) * pp⌉ := Int.ceil_nonneg (by positivity)
    have hcr : (0 : ℝ) ≤ (⌈θ / (2 * π) * pp⌉ : ℤ) := by exact_mod_cast hc0
    have htr : truncInt ((⌈θ / (2 * π) * pp⌉ : ℝ) + 1 / 2) = ⌈θ / (2 * π) * pp⌉ :=
      truncInt_sample _ _ hc0 (by linarith) (by linarith)
    rw [hn, habs, hpi, htr, Int.toNat_of_nonneg (by omega), max_comm]
  have hn2 : 2 ≤ n := by omega
  have hn1 : (n : ℝ) - 1 ≠ 0 := by
    have : (2 : ℝ) ≤ n := by exact_mod_cast hn2
    linarith
  have hmem : ∀ i : ℕ, a0 + (i : ℝ) * ((a1 - a0) / ((n : ℝ) - 1)) = a0 + ((i : ℝ) / ((n : ℝ) - 1)) * (a1 - a0) := by
    intro i; ring
  have hlist : (filletAngles realNum pp a0 a1).map (fun a =>
      (R * ((w.1 - u.1) / (2 * st)) / ct + v.1 + R * cos a, R * ((w.2 - u.2) / (2 * st)) / ct + v.2 + R * sin a)) =
      (List.range n).map (fun i : ℕ => ovalAt (R * ((w.1 - u.1) / (2 * st)) / ct + v.1, R * ((w.2 - u.2) / (2 * st)) / ct + v.2)
        (R, R) (a0 + (i : ℝ) * ((a1 - a0) / ((n : ℝ) - 1)))) := by
    unfold filletAngles linspace
    rw [← hn, List.map_map]
    rfl
  have hu1 : len0 * u.1 = v.1 - p.1 := by simp only [hu]; field_simp
  have hu2 : len0 * u.2 = v.2 - p.2 := by simp only [hu]; field_simp
  have hw1 : len1 * w.1 = q.1 - v.1 := by simp only [hw]; field_simp
  have hw2 : len1 * w.2 = q.2 - v.2 := by simp only [hw]; field_simp
  have hcd' : ∀ z z' : ℝ, R * ((z' - z) / (2 * st)) / ct = R * (z' - z) / sin θ := by
    intro z z'; rw [hS2]; field_simp
  refine ⟨R, (R * ((w.1 - u.1) / (2 * st)) / ct + v.1, R * ((w.2 - u.2) / (2 * st)) / ct + v.2),
    (v.1 - R * (st / ct) * u.1, v.2 - R * (st / ct) * u.2), (v.1 + R * (st / ct) * w.1, v.2 + R * (st / ct) * w.2),
    R * (st / ct) / len0, R * (st / ct) / len1, a0, a1, n, r0, r1, ?_, ?_, ?_, ?_, ?_, ?_, ?_, ?_, ?_, hn2, ?_, ?_, hlist, ?_, ?_, ?_⟩
  · rcases r4 with h | h | h
    · exact Or.inl h
    · exact Or.inr (Or.inl (by rw [h]; field_simp))
    · exact Or.inr (Or.inr (by rw [h]; field_simp))
  · exact div_nonneg (mul_nonneg r0 htt.le) L0.le
  · rw [div_le_iff₀ L0]; exact r2
  · unfold between
    ext
    · simp only
      rw [show p.1 - v.1 = len0 * -u.1 by rw [mul_neg, hu1]; ring, between_mul _ _ _ _ L0.ne']
      ring
    · simp only
      rw [show p.2 - v.2 = len0 * -u.2 by rw [mul_neg, hu2]; ring, between_mul _ _ _ _ L0.ne']
      ring
  · unfold dotSeg
    simp only
    rw [← hu1, ← hu2, hcd', hcd', ← htan]
    exact (fillet_touch R (sin θ) x len0 u.1 u.2 w.1 w.2 v.1 v.2 hS.ne' uu ww hx).1
  · exact div_nonneg (mul_nonneg r0 htt.le) L1.le
  · rw [div_le_iff₀ L1]; exact r3
  · unfold between
    ext
    · simp only
      rw [← hw1, between_mul _ _ _ _ L1.ne']
    · simp only
      rw [← hw2, between_mul _ _ _ _ L1.ne']
  · unfold dotSeg
    simp only
    rw [← hw1, ← hw2, hcd', hcd', ← htan]
    exact (fillet_touch R (sin θ) x len1 u.1 u.2 w.1 w.2 v.1 v.2 hS.ne' uu ww hx).2
  · rw [hturn]; exact hnz
  · rw [hturn]; exact habs
  · rw [hlist, List.head?_eq_getElem?, List.getElem?_map, List.getElem?_range (by omega)]
    simp only [Option.map_some, Nat.cast_zero, zero_mul, add_zero, Option.some.injEq]
    exact hfirst
  · rw [hlist, List.getLast?_eq_getElem?, List.length_map, List.length_range, List.getElem?_map, List.getElem?_range (by omega)]
    simp only [Option.map_some, Option.some.injEq]
    rw [hmem, Nat.cast_sub (by omega), Nat.cast_one, div_self hn1, one_mul]
    exact hlast
  · intro y hy
    rw [hlist] at hy
    obtain ⟨i, hi, rfl⟩ := List.mem_map.1 hy
    have hi' : i < n := List.mem_range.1 hi
    rw [hmem]
    have hn0 : 0 < (n : ℝ) - 1 := by
      have : (2 : ℝ) ≤ n := by exact_mod_cast hn2
      linarith
    have hsx : (i : ℝ) / ((n : ℝ) - 1) ≤ 1 := by
      rw [div_le_one hn0]
      have : (i : ℝ) + 1 ≤ n := by exact_mod_cast hi'
      linarith
    have hs0 : 0 ≤ (i : ℝ) / ((n : ℝ) - 1) := by positivity
    obtain ⟨k0, k1, k2⟩ := fillet_inside θ _ hθpos hrev hs0 hsx
    refine ⟨_, _, k0, k1, k2, ?_⟩
    refine (hpt _).trans ?_
    rw [hRn, hRn]
    ext
    · simp only; ring
    · simp only; ring

theorem edgeLen_ne_zero (p q : Pt ℝ) : edgeLen realNum p q ≠ 0 ↔ p ≠ q := by
  constructor
  · rintro h rfl
    apply h
    rw [edgeLen_real]
    simp [dist2]
  · intro h
    exact (edgeLen_pos h).ne'

/-- What is left when repeated vertices are gone. -/
theorem filletDistinct_spec (l : List (Pt ℝ × ℝ)) : ∀ q : Pt ℝ,
    (filletDistinct realNum q l = [] → ∀ x ∈ l, x.1 = q) ∧
    (filletDistinct realNum q l).IsChain (fun a b => a.1 ≠ b.1) ∧
    (∀ h, (filletDistinct realNum q l).head? = some h → h.1 ≠ q) ∧
    (∀ z, (filletDistinct realNum q l).getLast? = some z → l.getLast?.map Prod.fst = some z.1) := by
  induction l with
  | nil => intro q; simp [filletDistinct]
  | cons a l ih =>
    obtain ⟨p, r⟩ := a
    intro q
    obtain ⟨h1, h2, h3, h4⟩ := ih p
    by_cases hq : q = p
    · have e : filletDistinct realNum q ((p, r) :: l) = filletDistinct realNum p l := by
        rw [filletDistinct, if_neg (by rw [edgeLen_ne_zero]; exact not_not.2 hq)]
      rw [e]
      subst hq
      refine ⟨?_, h2, h3, ?_⟩
      · intro he x hx
        rcases List.mem_cons.1 hx with rfl | hx
        · rfl
        · exact h1 he x hx
      · intro z hz
        have := h4 z hz
        cases l with
        | nil => simp at this
        | cons b l => rw [List.getLast?_cons_cons]; exact this
    · have e : filletDistinct realNum q ((p, r) :: l) = (p, r) :: filletDistinct realNum p l := by
        rw [filletDistinct, if_pos ((edgeLen_ne_zero _ _).2 hq)]
      rw [e]
      refine ⟨by simp, ?_, ?_, ?_⟩
      · rw [List.isChain_cons]
        exact ⟨fun y hy => (h3 y hy).symm, h2⟩
      · intro h hh
        simp only [List.head?_cons, Option.some.injEq] at hh
        subst hh
        exact fun hc => hq hc.symm
      · intro z hz
        cases hd : filletDistinct realNum p l with
        | nil =>
          rw [hd] at hz
          simp only [List.getLast?_singleton, Option.some.injEq] at hz
          subst hz
          cases l with
          | nil => simp
          | cons b l =>
            rw [List.getLast?_cons_cons]
            have hne : (b :: l) ≠ [] := by simp
            rw [List.getLast?_eq_some_getLast hne, Option.map_some, h1 hd _ (List.getLast_mem hne)]
        | cons b m =>
          rw [hd] at hz h4
          rw [List.getLast?_cons_cons] at hz
          have := h4 z hz
          cases l with
          | nil => simp at this
          | cons b l => rw [List.getLast?_cons_cons]; exact this

theorem filletDistinct_filter (l : List (Pt ℝ × ℝ)) : ∀ (q : Pt ℝ),
    filletDistinct realNum q l = by
      classical
      exact ((l.zip (q :: l.map Prod.fst)).filter fun x => decide (x.1.1 ≠ x.2)).map Prod.fst := by
  classical
  induction l with
  | nil => intro q; simp [filletDistinct]
  | cons a l ih =>
    obtain ⟨p, r⟩ := a
    intro q
    by_cases hq : q = p
    · rw [filletDistinct, if_neg (by rw [edgeLen_ne_zero]; exact not_not.2 hq), ih p]
      subst hq
      simp
    · have hq' : ¬ p = q := fun h => hq h.symm
      rw [filletDistinct, if_pos ((edgeLen_ne_zero _ _).2 hq), ih p]
      simp [hq']

theorem filletVertices_firsts (p : Pgon ℝ) (rs : List ℝ) (h : rs.length = p.length) :
    filletVertices realNum p rs = firsts p rs := by
  classical
  have hmap : (p.zip rs).map Prod.fst = p := List.map_fst_zip (by omega)
  have hlast : (p.zip rs).getLast?.map Prod.fst = p.getLast? := by
    rw [← List.getLast?_map, hmap]
  unfold filletVertices
  simp only
  cases hl : (p.zip rs).getLast? with
  | none =>
    rw [hl] at hlast
    obtain rfl := List.getLast?_eq_none_iff.1 hlast.symm
    simp [firsts]
  | some q =>
    rw [hl] at hlast
    simp only
    rw [filletDistinct_filter, hmap]
    unfold firsts
    rw [← hlast]
    rfl

/-- Consecutive vertices of what is left are different, around the polygon. -/
theorem filletVertices_distinct (p : Pgon ℝ) (rs : List ℝ) (i : Nat) (a b : Pt ℝ × ℝ)
    (ha : (filletVertices realNum p rs)[i % (filletVertices realNum p rs).length]? = some a)
    (hb : (filletVertices realNum p rs)[(i + 1) % (filletVertices realNum p rs).length]? = some b) : a.1 ≠ b.1 := by
  unfold filletVertices at ha hb
  simp only at ha hb
  cases hl : (p.zip rs).getLast? with
  | none => rw [hl] at ha; simp at ha
  | some q =>
    rw [hl] at ha hb
    simp only at ha hb
    obtain ⟨h1, h2, h3, h4⟩ := filletDistinct_spec (p.zip rs) q.1
    set r := filletDistinct realNum q.1 (p.zip rs) with hr
    have hn : 0 < r.length := by
      rcases Nat.eq_zero_or_pos r.length with h0 | h0
      · rw [List.length_eq_zero_iff.1 h0] at ha; simp at ha
      · exact h0
    have hi := Nat.mod_lt i hn
    by_cases hw : i % r.length + 1 = r.length
    · have e : (i + 1) % r.length = 0 := by
        rw [Nat.add_mod, show 1 % r.length = 1 % r.length from rfl]
        rcases Nat.lt_or_ge 1 r.length with h | h
        · rw [Nat.mod_eq_of_lt h, hw, Nat.mod_self]
        · have : r.length = 1 := by omega
          rw [this]; omega
      rw [e, ← List.head?_eq_getElem?] at hb
      rw [show i % r.length = r.length - 1 by omega, ← List.getLast?_eq_getElem?] at ha
      have hz := h4 a ha
      rw [hl] at hz
      simp only [Option.map_some, Option.some.injEq] at hz
      rw [← hz]
      exact (h3 b hb).symm
    · have e : (i + 1) % r.length = i % r.length + 1 := by
        rw [Nat.add_mod, Nat.mod_eq_of_lt (show 1 < r.length by omega), Nat.mod_eq_of_lt (by omega)]
      rw [e] at hb
      obtain ⟨hia, rfl⟩ := List.getElem?_eq_some_iff.1 ha
      obtain ⟨hib, rfl⟩ := List.getElem?_eq_some_iff.1 hb
      exact List.isChain_iff_getElem.1 h2 _ hib

theorem mapM_total {α β : Type} (f : α → Py β) (l : List α) (h : ∀ x ∈ l, ∃ y, f x = .ok y) :
    ∃ r, l.mapM f = .ok r := by
  induction l with
  | nil => exact ⟨[], rfl⟩
  | cons a l ih =>
    obtain ⟨y, hy⟩ := h a (by simp)
    obtain ⟨r, hr⟩ := ih fun x hx => h x (by simp [hx])
    refine ⟨y :: r, ?_⟩
    rw [List.mapM_cons, hy, hr]
    rfl

theorem cyc_back1 (i n : Nat) (hn : 0 < n) : ((i + 2) % n + n - 1) % n = (i + 1) % n := by
  apply Nat.ModEq.add_right_cancel' 1
  rw [show (i + 2) % n + n - 1 + 1 = (i + 2) % n + n by omega]
  show ((i + 2) % n + n) % n = (i + 1 + 1) % n
  rw [Nat.add_mod_right, Nat.mod_mod]

theorem cyc_back (i n : Nat) (hn : 0 < n) : ((i + 2) % n + n + n - 2) % n = i % n := by
  apply Nat.ModEq.add_right_cancel' 2
  rw [show (i + 2) % n + n + n - 2 + 2 = (i + 2) % n + n + n by omega]
  show ((i + 2) % n + n + n) % n = (i + 2) % n
  rw [Nat.add_mod_right, Nat.add_mod_right, Nat.mod_mod]

/-- One polygon: the vertices that repeat the one before are dropped, each other vertex is replaced by a rounded
corner. -/
theorem C67_polygon (pp : ℝ) (p : Pgon ℝ) (rs : List ℝ) (hpp : 0 ≤ pp) (hlen : rs.length = p.length)
    (hr : ∀ r ∈ rs, 0 ≤ r) (hrev : NoReversal (firsts p rs)) :
    ∃ out, filletPolygon realNum pp p rs = .ok out ∧ Filleted (firsts p rs) pp out := by
  have hv := filletVertices_firsts p rs hlen
  have hd := filletVertices_distinct p rs
  rw [hv] at hd
  set l := firsts p rs with hl
  have hrad : ∀ x ∈ l, 0 ≤ x.2 := by
    intro x hx
    rw [hl] at hx
    unfold firsts at hx
    obtain ⟨y, hy, rfl⟩ := List.mem_map.1 hx
    have := (List.of_mem_zip (List.mem_filter.1 hy).1).1
    exact hr _ (List.of_mem_zip this).2
  clear_value l
  -- a corner
  have hat : ∀ i, 0 < l.length → l[i % l.length]? = some (l.getD (i % l.length) ((0, 0), 0)) := by
    intro i hn
    rw [List.getD_eq_getElem?_getD, List.getElem?_eq_getElem (Nat.mod_lt i hn)]
    rfl
  have hcorner : ∀ i, 0 < l.length → ∃ c, filletCorner realNum pp (l.getD (i % l.length) ((0, 0), 0)).1
      (l.getD ((i + 1) % l.length) ((0, 0), 0)).1 (l.getD ((i + 2) % l.length) ((0, 0), 0)).1
      (l.getD ((i + 1) % l.length) ((0, 0), 0)).2 = .ok c ∧
      ((turnAt (l.getD (i % l.length) ((0, 0), 0)).1 (l.getD ((i + 1) % l.length) ((0, 0), 0)).1
          (l.getD ((i + 2) % l.length) ((0, 0), 0)).1 ≤ 1 / 1000000 ∧ c = [(l.getD ((i + 1) % l.length) ((0, 0), 0)).1]) ∨
        (1 / 1000000 < turnAt (l.getD (i % l.length) ((0, 0), 0)).1 (l.getD ((i + 1) % l.length) ((0, 0), 0)).1
          (l.getD ((i + 2) % l.length) ((0, 0), 0)).1 ∧
          RoundedCorner (l.getD (i % l.length) ((0, 0), 0)).1 (l.getD ((i + 1) % l.length) ((0, 0), 0)).1
            (l.getD ((i + 2) % l.length) ((0, 0), 0)).1 (l.getD ((i + 1) % l.length) ((0, 0), 0)).2 pp c)) := by
    intro i hn
    exact C67_corner pp _ _ _ _ hpp (hrad _ (List.mem_of_getElem? (hat (i + 1) hn)))
      (hd i _ _ (hat i hn) (hat (i + 1) hn)) (hd (i + 1) _ _ (hat (i + 1) hn) (hat (i + 2) hn))
      (hrev i _ _ _ (hat i hn) (hat (i + 1) hn) (hat (i + 2) hn))
  unfold filletPolygon
  rw [hv]
  simp only
  -- indices
  have hi1 : ∀ i, i < l.length → (i + l.length + l.length - 2) % l.length = (i + l.length + l.length - 2) % l.length ∧
      (i + l.length + l.length - 2 + 1) % l.length = (i + l.length - 1) % l.length ∧
      (i + l.length + l.length - 2 + 2) % l.length = i % l.length := by
    intro i hi
    refine ⟨rfl, ?_, ?_⟩
    · rw [show i + l.length + l.length - 2 + 1 = (i + l.length - 1) + l.length by omega, Nat.add_mod_right]
    · rw [show i + l.length + l.length - 2 + 2 = i + l.length + l.length by omega, Nat.add_mod_right, Nat.add_mod_right]
  obtain ⟨pieces, hp⟩ := mapM_total (fun i : ℕ => filletCorner realNum pp
      (l.getD ((i + l.length + l.length - 2) % l.length) ((0, 0), 0)).1 (l.getD ((i + l.length - 1) % l.length) ((0, 0), 0)).1
      (l.getD (i % l.length) ((0, 0), 0)).1 (l.getD ((i + l.length - 1) % l.length) ((0, 0), 0)).2) (List.range l.length) (by
    intro i hi
    have hi' := List.mem_range.1 hi
    obtain ⟨c, hc, -⟩ := hcorner (i + l.length + l.length - 2) (by omega)
    rw [(hi1 i hi').2.1, (hi1 i hi').2.2] at hc
    exact ⟨c, hc⟩)
  obtain ⟨m1, m2⟩ := mapM_inv _ _ _ hp
  rw [hp]
  refine ⟨pieces.flatten, rfl, pieces, rfl, by simpa using m1, ?_⟩
  intro i a v b ha hv' hb
  have hn : 0 < l.length := by
    rcases Nat.eq_zero_or_pos l.length with h0 | h0
    · rw [List.length_eq_zero_iff.1 h0] at ha; simp at ha
    · exact h0
  have hk := Nat.mod_lt (i + 2) hn
  obtain ⟨c, hc, hc2⟩ := m2 ((i + 2) % l.length) ((i + 2) % l.length) (by simp [hk])
  refine ⟨c, hc, ?_⟩
  obtain ⟨c', hc', hspec⟩ := hcorner i hn
  rw [hat i hn] at ha
  rw [hat (i + 1) hn] at hv'
  rw [hat (i + 2) hn] at hb
  simp only [Option.some.injEq] at ha hv' hb
  rw [ha, hv', hb] at hc' hspec
  have e0 : ((i + 2) % l.length + l.length + l.length - 2) % l.length = i % l.length := cyc_back _ _ hn
  have e1 : ((i + 2) % l.length + l.length - 1) % l.length = (i + 1) % l.length := cyc_back1 _ _ hn
  rw [e0, e1, Nat.mod_mod, ha, hv', hb, hc'] at hc2
  cases hc2
  exact hspec

/-! ### Radii -/

theorem filletPerPolygon_spec (rs : List (RadItem ℝ)) : ∀ (ps : List (Pgon ℝ)) (out : List (List ℝ)),
    rs.length = ps.length → filletPerPolygon rs ps = .ok out →
    out.length = ps.length ∧ ∀ (j : Nat) (p : Pgon ℝ), ps[j]? = some p → ∃ l : List ℝ, out[j]? = some l ∧ l.length = p.length ∧
      ∀ (i : Nat) (r : ℝ), l[i]? = some r → (rs[j]? = some (RadItem.one r) ∨ ∃ l : List ℝ, rs[j]? = some (RadItem.many l) ∧ l[i]? = some r) := by
  induction rs with
  | nil =>
    intro ps out hl h
    obtain rfl : ps = [] := List.length_eq_zero_iff.1 hl.symm
    cases h
    simp
  | cons a rs ih =>
    intro ps out hl h
    cases ps with
    | nil => simp at hl
    | cons p ps =>
      have hl' : rs.length = ps.length := by simpa using hl
      cases a with
      | one r =>
        rw [filletPerPolygon] at h
        obtain ⟨o, ho, h⟩ := bind_ok_inv h
        cases h
        obtain ⟨h1, h2⟩ := ih ps o hl' ho
        refine ⟨by simpa using h1, ?_⟩
        intro j q hq
        cases j with
        | zero =>
          simp only [List.getElem?_cons_zero, Option.some.injEq] at hq
          subst hq
          refine ⟨_, rfl, by simp, ?_⟩
          intro i r' hr'
          left
          have : r' = r := (List.mem_replicate.1 (List.mem_of_getElem? hr')).2
          rw [this]; rfl
        | succ j => simpa using h2 j q (by simpa using hq)
      | many l =>
        rw [filletPerPolygon] at h
        split at h
        · cases h
        · rename_i hlen
          obtain ⟨o, ho, h⟩ := bind_ok_inv h
          cases h
          obtain ⟨h1, h2⟩ := ih ps o hl' ho
          refine ⟨by simpa using h1, ?_⟩
          intro j q hq
          cases j with
          | zero =>
            simp only [List.getElem?_cons_zero, Option.some.injEq] at hq
            subst hq
            exact ⟨_, rfl, not_not.1 hlen, fun i r hr => Or.inr ⟨_, rfl, hr⟩⟩
          | succ j => simpa using h2 j q (by simpa using hq)

theorem radNumbers_spec (rs : List (RadItem ℝ)) : ∀ out, radNumbers rs = .ok out → rs = out.map RadItem.one := by
  induction rs with
  | nil => intro out h; cases h; rfl
  | cons a rs ih =>
    intro out h
    cases a with
    | one r =>
      rw [radNumbers] at h
      obtain ⟨o, ho, h⟩ := bind_ok_inv h
      cases h
      rw [ih o ho]
      rfl
    | many l => cases h

theorem filletSlices_spec (ps : List (Pgon ℝ)) : ∀ (rs : List ℝ), rs.length = (ps.map List.length).sum →
    (filletSlices rs ps).length = ps.length ∧ ∀ (j : Nat) (p : Pgon ℝ), ps[j]? = some p → ∃ l : List ℝ, (filletSlices rs ps)[j]? = some l ∧
      l.length = p.length ∧ ∀ (i : Nat) (r : ℝ), l[i]? = some r → rs[((ps.take j).map List.length).sum + i]? = some r := by
  induction ps with
  | nil => intro rs _; simp [filletSlices]
  | cons p ps ih =>
    intro rs hl
    simp only [List.map_cons, List.sum_cons] at hl
    obtain ⟨h1, h2⟩ := ih (rs.drop p.length) (by rw [List.length_drop]; omega)
    refine ⟨by simpa [filletSlices] using h1, ?_⟩
    intro j q hq
    cases j with
    | zero =>
      simp only [List.getElem?_cons_zero, Option.some.injEq] at hq
      subst hq
      refine ⟨_, rfl, by rw [List.length_take]; omega, ?_⟩
      intro i r hr
      rw [List.getElem?_take] at hr
      split at hr
      · simpa using hr
      · cases hr
    | succ j =>
      obtain ⟨l, h3, h4, h5⟩ := h2 j q (by simpa using hq)
      refine ⟨l, by simpa [filletSlices] using h3, h4, ?_⟩
      intro i r hr
      have := h5 i r hr
      rw [List.getElem?_drop] at this
      simpa [Nat.add_assoc] using this

/-- **C67**, radii: each vertex gets the radius that the documentation says. -/
theorem C67_radii (arg : FilletArg ℝ) (ps : List (Pgon ℝ)) (out : List (List ℝ)) (h : filletRadii arg ps = .ok out) :
    out.length = ps.length ∧ ∀ (j : Nat) (p : Pgon ℝ), ps[j]? = some p → ∃ l : List ℝ, out[j]? = some l ∧ l.length = p.length ∧
      ∀ (i : Nat) (r : ℝ), l[i]? = some r → RadiusFor arg ps j i r := by
  cases arg with
  | one r =>
    cases h
    refine ⟨by simp, ?_⟩
    intro j p hp
    refine ⟨_, by rw [List.getElem?_map, hp]; rfl, by simp, ?_⟩
    intro i r' hr'
    exact (List.mem_replicate.1 (List.mem_of_getElem? hr')).2
  | list rs =>
    unfold filletRadii at h
    simp only at h
    split at h
    · rename_i hl
      obtain ⟨h1, h2⟩ := filletPerPolygon_spec rs ps out hl h
      refine ⟨h1, ?_⟩
      intro j p hp
      obtain ⟨l, h3, h4, h5⟩ := h2 j p hp
      refine ⟨l, h3, h4, ?_⟩
      intro i r hr
      simp only [RadiusFor, if_pos hl]
      exact h5 i r hr
    · rename_i hl
      split at h
      · cases h
      · rename_i hsum
        obtain ⟨o, ho, h⟩ := bind_ok_inv h
        cases h
        have hrs := radNumbers_spec rs o ho
        obtain ⟨h1, h2⟩ := filletSlices_spec ps o (by rw [← not_not.1 hsum, hrs, List.length_map])
        refine ⟨h1, ?_⟩
        intro j p hp
        obtain ⟨l, h3, h4, h5⟩ := h2 j p hp
        refine ⟨l, h3, h4, ?_⟩
        intro i r hr
        simp only [RadiusFor, if_neg hl]
        rw [hrs, List.getElem?_map, h5 i r hr]
        rfl

/-- **C67**: `fillet` returns the set with every corner rounded, with the layers and datatypes it had, fractured if one of
the new polygons has too many vertices. -/
theorem C67_fillet (chop : Slicer ℝ) (fuel : Nat) (arg : FilletArg ℝ) (pp : ℝ) (mp : Nat) (ps : PolySet ℝ)
    (radii : List (List ℝ)) (hpp : 0 ≤ pp) (h : filletRadii arg ps.polygons = .ok radii)
    (hr : ∀ l ∈ radii, ∀ r ∈ l, 0 ≤ r) (hrev : ∀ x ∈ ps.polygons.zip radii, NoReversal (firsts x.1 x.2)) :
    ∃ out : PolySet ℝ, out.layers = ps.layers ∧ out.datatypes = ps.datatypes ∧
      out.polygons.length = ps.polygons.length ∧
      (∀ (j : Nat) (p : Pgon ℝ) (l : List ℝ), ps.polygons[j]? = some p → radii[j]? = some l → ∃ q : Pgon ℝ, out.polygons[j]? = some q ∧ Filleted (firsts p l) pp q) ∧
      ps.fillet realNum chop fuel arg pp mp =
        if ∃ q ∈ out.polygons, mp < q.length then out.fracture chop fuel mp else .ok (some out) := by
  obtain ⟨h1, h2⟩ := C67_radii arg ps.polygons radii h
  have hlen : ∀ x ∈ ps.polygons.zip radii, x.2.length = x.1.length := by
    intro x hx
    obtain ⟨j, hj⟩ := List.mem_iff_getElem?.1 hx
    rw [List.getElem?_zip_eq_some] at hj
    obtain ⟨l, e1, e2, -⟩ := h2 j _ hj.1
    rw [hj.2] at e1
    cases e1
    exact e2
  have hpoly : ∀ x ∈ ps.polygons.zip radii, ∃ out, filletPolygon realNum pp x.1 x.2 = .ok out ∧ Filleted (firsts x.1 x.2) pp out :=
    fun x hx => C67_polygon pp x.1 x.2 hpp (hlen x hx) (hr _ (List.of_mem_zip hx).2) (hrev x hx)
  obtain ⟨polys, hp⟩ := mapM_total (fun x : Pgon ℝ × List ℝ => filletPolygon realNum pp x.1 x.2) (ps.polygons.zip radii)
    fun x hx => (hpoly x hx).imp fun _ h => h.1
  obtain ⟨m1, m2⟩ := mapM_inv _ _ _ hp
  refine ⟨{ ps with polygons := polys }, rfl, rfl, by rw [m1, List.length_zip]; omega, ?_, ?_⟩
  · intro j p l hj hl
    have hz : (ps.polygons.zip radii)[j]? = some (p, l) := List.getElem?_zip_eq_some.2 ⟨hj, hl⟩
    obtain ⟨q, q1, q2⟩ := m2 j (p, l) hz
    obtain ⟨q', q3, q4⟩ := hpoly (p, l) (List.mem_of_getElem? hz)
    rw [q2] at q3
    cases q3
    exact ⟨q, q1, q4⟩
  · unfold PolySet.fillet
    rw [h]
    simp only [bind, Except.bind]
    rw [show List.mapM (fun x : Pgon ℝ × List ℝ => filletPolygon realNum pp x.1 x.2) (ps.polygons.zip radii) = .ok polys from hp]
    simp

/-- Wrong numbers of radii: a list whose length is neither the number of polygons nor that of vertices raises ValueError
and changes nothing. A list for one polygon that is too long or too short is meant to raise ValueError too, but raises
TypeError: the text of the message has `len(p.shape[0])`. -/
theorem C67_wrong_length (t : Num ℝ) (chop : Slicer ℝ) (fuel : Nat) (rs : List (RadItem ℝ)) (pp : ℝ) (mp : Nat) (ps : PolySet ℝ) :
    (rs.length ≠ ps.polygons.length → rs.length ≠ (ps.polygons.map List.length).sum →
      ps.fillet t chop fuel (.list rs) pp mp = .error .valueError) ∧
    (rs.length = ps.polygons.length → (∃ x ∈ rs.zip ps.polygons, ∃ l, x.1 = .many l ∧ l.length ≠ x.2.length) →
      ps.fillet t chop fuel (.list rs) pp mp = .error .typeError) := by
  constructor
  · intro h1 h2
    unfold PolySet.fillet filletRadii
    simp only
    rw [if_neg h1, if_pos h2]
    rfl
  · intro h1 h2
    have key : ∀ (rs : List (RadItem ℝ)) (ps : List (Pgon ℝ)),
        (∃ x ∈ rs.zip ps, ∃ l, x.1 = .many l ∧ l.length ≠ x.2.length) → filletPerPolygon rs ps = .error .typeError := by
      intro rs
      induction rs with
      | nil => rintro ps ⟨x, hx, -⟩; simp at hx
      | cons a rs ih =>
        intro ps
        cases ps with
        | nil => rintro ⟨x, hx, -⟩; simp at hx
        | cons p ps =>
          rintro ⟨x, hx, l, hl, hne⟩
          rw [List.zip_cons_cons] at hx
          cases a with
          | one r =>
            rcases List.mem_cons.1 hx with rfl | hx
            · cases hl
            · rw [filletPerPolygon, ih ps ⟨x, hx, l, hl, hne⟩]; rfl
          | many m =>
            rw [filletPerPolygon]
            split
            · rfl
            · rename_i hm
              rcases List.mem_cons.1 hx with rfl | hx
              · cases hl
                exact absurd hne hm
              · rw [ih ps ⟨x, hx, l, hl, hne⟩]; rfl
    unfold PolySet.fillet filletRadii
    simp only
    rw [if_pos h1, key rs ps.polygons h2]
    rfl

/-- The right numbers of radii are accepted. -/
theorem C67_right_length (rs : List (RadItem ℝ)) (ps : List (Pgon ℝ)) :
    (rs.length = ps.length → (∀ x ∈ rs.zip ps, ∀ l, x.1 = .many l → l.length = x.2.length) →
      ∃ out, filletRadii (.list rs) ps = .ok out) ∧
    (rs.length = (ps.map List.length).sum → (∀ x ∈ rs, ∃ r, x = .one r) → ∃ out, filletRadii (.list rs) ps = .ok out) := by
  have per : ∀ (rs : List (RadItem ℝ)) (ps : List (Pgon ℝ)),
      (∀ x ∈ rs.zip ps, ∀ l, x.1 = .many l → l.length = x.2.length) → ∃ out, filletPerPolygon rs ps = .ok out := by
    intro rs
    induction rs with
    | nil => intro ps _; exact ⟨[], rfl⟩
    | cons a rs ih =>
      intro ps hx
      cases ps with
      | nil => cases a <;> exact ⟨[], rfl⟩
      | cons p ps =>
        rw [List.zip_cons_cons] at hx
        obtain ⟨o, ho⟩ := ih ps fun x h => hx x (List.mem_cons_of_mem _ h)
        cases a with
        | one r => exact ⟨_, by rw [filletPerPolygon, ho]; rfl⟩
        | many l =>
          have := hx _ List.mem_cons_self l rfl
          exact ⟨_, by rw [filletPerPolygon, if_neg (not_not.2 this), ho]; rfl⟩
  have num : ∀ rs : List (RadItem ℝ), (∀ x ∈ rs, ∃ r, x = .one r) → ∃ out, radNumbers rs = .ok out := by
    intro rs
    induction rs with
    | nil => intro _; exact ⟨[], rfl⟩
    | cons a rs ih =>
      intro h
      obtain ⟨r, rfl⟩ := h a List.mem_cons_self
      obtain ⟨o, ho⟩ := ih fun x hx => h x (List.mem_cons_of_mem _ hx)
      exact ⟨_, by rw [radNumbers, ho]; rfl⟩
  constructor
  · intro h1 h2
    obtain ⟨o, ho⟩ := per rs ps h2
    exact ⟨o, by simp only [filletRadii]; rw [if_pos h1, ho]⟩
  · intro h1 h2
    by_cases h : rs.length = ps.length
    · obtain ⟨o, ho⟩ := per rs ps fun x hx l hl => by
        obtain ⟨r, hr⟩ := h2 x.1 (List.of_mem_zip hx).1
        rw [hr] at hl
        cases hl
      exact ⟨o, by simp only [filletRadii]; rw [if_pos h, ho]⟩
    · obtain ⟨o, ho⟩ := num rs h2
      exact ⟨_, by simp only [filletRadii]; rw [if_neg h, if_neg (not_not.2 h1), ho]; rfl⟩

/-- A polygon all of whose vertices are the same is left with no vertex. -/
theorem C67_point_vanishes (pp : ℝ) (x : Pt ℝ) (n : Nat) (r : ℝ) :
    filletPolygon realNum pp (List.replicate n x) (List.replicate n r) = .ok [] := by
  have h : filletVertices realNum (List.replicate n x) (List.replicate n r) = [] := by
    rw [filletVertices_firsts _ _ (by simp)]
    unfold firsts
    rw [List.map_eq_nil_iff, List.filter_eq_nil_iff]
    intro y hy
    have h1 := List.of_mem_zip hy
    have e1 : y.1.1 = x := (List.mem_replicate.1 (List.of_mem_zip h1.1).1).2
    have e2 : y.2 = x := by
      rcases List.mem_append.1 h1.2 with h | h
      · cases n with
        | zero => simp at h
        | succ n =>
          simp only [Option.mem_toList, List.getLast?_replicate] at h
          simpa using h.symm
      · exact (List.mem_replicate.1 h).2
    simp [e1, e2]
  unfold filletPolygon
  simp only [h]
  rfl

/-- A square with corners of radius 1/4: all hypotheses of `C67_fillet` hold, and each corner becomes 3 points. -/
example (chop : Slicer ℝ) : ∃ out : PolySet ℝ,
    (⟨[[(0, 0), (1, 0), (1, 1), (0, 1)]], [1], [2]⟩ : PolySet ℝ).fillet realNum chop 5 (.one (1 / 4)) 12 199 = .ok (some out) ∧
      ∃ q, out.polygons = [q] ∧ q.length = 12 ∧ out.layers = [1] := by
  have ht : ∀ p v q : Pt ℝ, dotSeg p v v q = 0 → turnAt p v q = π / 2 := by
    intro p v q h
    rw [turnAt, h, zero_div, Real.arccos_zero]
  have hf : firsts [((0 : ℝ), (0 : ℝ)), (1, 0), (1, 1), (0, 1)] (List.replicate 4 (1 / 4)) =
      [((0, 0), 1 / 4), ((1, 0), 1 / 4), ((1, 1), 1 / 4), ((0, 1), 1 / 4)] := by
    simp [firsts, List.replicate]
  have hturn : ∀ i a v b, [(((0 : ℝ), (0 : ℝ)), (1 / 4 : ℝ)), ((1, 0), 1 / 4), ((1, 1), 1 / 4), ((0, 1), 1 / 4)][i % 4]? = some a →
      [(((0 : ℝ), (0 : ℝ)), (1 / 4 : ℝ)), ((1, 0), 1 / 4), ((1, 1), 1 / 4), ((0, 1), 1 / 4)][(i + 1) % 4]? = some v →
      [(((0 : ℝ), (0 : ℝ)), (1 / 4 : ℝ)), ((1, 0), 1 / 4), ((1, 1), 1 / 4), ((0, 1), 1 / 4)][(i + 2) % 4]? = some b →
      turnAt a.1 v.1 b.1 = π / 2 := by
    intro i a v b ha hv hb
    have h4 : i % 4 = 0 ∨ i % 4 = 1 ∨ i % 4 = 2 ∨ i % 4 = 3 := by omega
    apply ht
    rcases h4 with h | h | h | h
    · rw [h] at ha; rw [show (i + 1) % 4 = 1 by omega] at hv; rw [show (i + 2) % 4 = 2 by omega] at hb
      cases ha; cases hv; cases hb; norm_num [dotSeg]
    · rw [h] at ha; rw [show (i + 1) % 4 = 2 by omega] at hv; rw [show (i + 2) % 4 = 3 by omega] at hb
      cases ha; cases hv; cases hb; norm_num [dotSeg]
    · rw [h] at ha; rw [show (i + 1) % 4 = 3 by omega] at hv; rw [show (i + 2) % 4 = 0 by omega] at hb
      cases ha; cases hv; cases hb; norm_num [dotSeg]
    · rw [h] at ha; rw [show (i + 1) % 4 = 0 by omega] at hv; rw [show (i + 2) % 4 = 1 by omega] at hb
      cases ha; cases hv; cases hb; norm_num [dotSeg]
  obtain ⟨out, h1, -, h3, h4, h5⟩ := C67_fillet chop 5 (.one (1 / 4)) 12 199
    ⟨[[(0, 0), (1, 0), (1, 1), (0, 1)]], [1], [2]⟩ [List.replicate 4 (1 / 4)] (by norm_num) rfl
    (by
      intro l hl r hr
      rw [List.mem_singleton.1 hl] at hr
      rw [(List.mem_replicate.1 hr).2]; norm_num)
    (by
      intro x hx
      rw [List.mem_singleton.1 hx]
      intro i a v b
      show (firsts _ _)[i % (firsts _ _).length]? = _ → _
      rw [hf]
      intro ha hv hb
      rw [hturn i a v b ha hv hb]
      linarith [Real.pi_pos])
  obtain ⟨q, hq, pieces, hout, hlen, hp⟩ := h4 0 _ _ rfl rfl
  rw [hf] at hlen hp
  have hpieces : ∀ l ∈ pieces, l.length = 3 := by
    intro l hl
    obtain ⟨j, hj⟩ := List.mem_iff_getElem?.1 hl
    have hj4 : j < 4 := by
      have := (List.getElem?_eq_some_iff.1 hj).1
      simpa [hlen] using this
    obtain ⟨l', e1, e2⟩ := hp (j + 2) _ _ _ (List.getElem?_eq_getElem (by simp; omega)) (List.getElem?_eq_getElem (by simp; omega))
      (List.getElem?_eq_getElem (by simp; omega))
    have e3 := hturn (j + 2) _ _ _ (List.getElem?_eq_getElem (by simp; omega)) (List.getElem?_eq_getElem (by simp; omega))
      (List.getElem?_eq_getElem (by simp; omega))
    simp only [List.length_cons, List.length_nil] at e1 e2 e3
    rw [show (j + 2 + 2) % (0 + 1 + 1 + 1 + 1) = j by omega, hj] at e1
    cases e1
    rcases e2 with ⟨e, -⟩ | ⟨-, _, _, _, _, _, _, _, _, n, -, -, -, -, -, -, -, -, -, -, -, -, hn, -, hl', -⟩
    · rw [e3] at e
      linarith [Real.two_le_pi]
    · rw [e3] at hn
      have : π / 2 / (2 * π) * 12 = (3 : ℤ) := by
        have := Real.pi_ne_zero
        field_simp
        norm_num
      rw [this, Int.ceil_intCast] at hn
      rw [hl', List.length_map, List.length_range]
      omega
  have hq12 : q.length = 12 := by
    rw [hout, List.length_flatten, List.map_congr_left hpieces, List.map_const', List.sum_replicate, hlen]
    rfl
  have hone : out.polygons = [q] := by
    cases hpol : out.polygons with
    | nil => rw [hpol] at hq; cases hq
    | cons a l =>
      rw [hpol] at h3 hq
      cases hq
      rw [List.length_eq_zero_iff.1 (by simpa using h3 : l.length = 0)]
  refine ⟨out, ?_, q, hone, hq12, h1⟩
  rw [h5, if_neg]
  rw [hone]
  rintro ⟨x, hx, hlt⟩
  rw [List.mem_singleton.1 hx, hq12] at hlt
  omega

end Gdspy
