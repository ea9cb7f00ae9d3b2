import Verif.Spec.Arc
import Verif.Props.C48
import Verif.Props.C43
import Verif.Props.C57
import Verif.Props.C59
import Mathlib.Analysis.SpecialFunctions.Trigonometric.Bounds
import Mathlib.Analysis.SpecialFunctions.Trigonometric.Inverse
import Mathlib.Tactic.Ring
import Mathlib.Tactic.Linarith
import Mathlib.Tactic.FieldSimp
import Mathlib.Tactic.NormNum
import Mathlib.Tactic.Positivity
import Mathlib.Tactic.LinearCombination

/-!
# C66: how well round shapes follow their curves
-/

set_option linter.unusedSectionVars false

namespace Gdspy

open Spec Real

/-- A chord of the unit circle, of half angle less than a right angle, meets every radius to its arc at a distance between
`cos h` and 1 of the centre. -/
theorem chord_radius (m h τ : ℝ) (h0 : 0 < h) (h1 : h < π / 2) (hτ : |τ| ≤ h) :
    ∃ s k : ℝ, 0 ≤ s ∧ s ≤ 1 ∧ cos h ≤ k ∧ k ≤ 1 ∧
      cos (m - h) + s * (cos (m + h) - cos (m - h)) = k * cos (m + τ) ∧
      sin (m - h) + s * (sin (m + h) - sin (m - h)) = k * sin (m + τ) := by
  obtain ⟨t1, t2⟩ := abs_le.1 hτ
  have hsh : 0 < sin h := sin_pos_of_pos_of_lt_pi h0 (by linarith [pi_pos])
  have hch : 0 < cos h := cos_pos_of_mem_Ioo ⟨by linarith, h1⟩
  have hcτ : 0 < cos τ := cos_pos_of_mem_Ioo ⟨by linarith, by linarith⟩
  have hle : cos h ≤ cos τ := by
    rw [← cos_abs τ]
    exact cos_le_cos_of_nonneg_of_le_pi (abs_nonneg _) (by linarith [pi_pos]) hτ
  have a1 : 0 ≤ sin (h - τ) := sin_nonneg_of_nonneg_of_le_pi (by linarith) (by linarith [pi_pos])
  have a2 : 0 ≤ sin (h + τ) := sin_nonneg_of_nonneg_of_le_pi (by linarith) (by linarith [pi_pos])
  rw [sin_sub] at a1
  rw [sin_add] at a2
  refine ⟨(1 + cos h * sin τ / (cos τ * sin h)) / 2, cos h / cos τ, ?_, ?_, ?_, ?_, ?_, ?_⟩
  · have : -1 ≤ cos h * sin τ / (cos τ * sin h) := by
      rw [le_div_iff₀ (by positivity)]; linarith
    linarith
  · have : cos h * sin τ / (cos τ * sin h) ≤ 1 := by
      rw [div_le_one (by positivity)]; linarith
    linarith
  · rw [le_div_iff₀ hcτ]
    nlinarith [cos_le_one τ]
  · rw [div_le_one hcτ]; exact hle
  · rw [cos_sub, cos_add, cos_add]
    field_simp
    ring
  · rw [sin_sub, sin_add, sin_add]
    field_simp
    ring

/-- The distance between an arc of an ellipse and its chord. -/
theorem ellipse_chord (c r : Pt ℝ) (hr1 : 0 ≤ r.1) (hr2 : 0 ≤ r.2) (R : ℝ) (hR1 : r.1 ≤ R) (hR2 : r.2 ≤ R) (a0 a1 a : ℝ)
    (h0 : a0 < a1) (h1 : a1 - a0 < π) (ha0 : a0 ≤ a) (ha1 : a ≤ a1) :
    NearSegment (ovalAt c r a0) (ovalAt c r a1) (ovalAt c r a) (R * (1 - cos ((a1 - a0) / 2))) := by
  obtain ⟨s, k, s0, s1, k0, k1, e1, e2⟩ := chord_radius ((a0 + a1) / 2) ((a1 - a0) / 2) (a - (a0 + a1) / 2)
    (by linarith) (by linarith) (by rw [abs_le]; constructor <;> linarith)
  rw [show (a0 + a1) / 2 - (a1 - a0) / 2 = a0 by ring, show (a0 + a1) / 2 + (a1 - a0) / 2 = a1 by ring,
    show (a0 + a1) / 2 + (a - (a0 + a1) / 2) = a by ring] at e1 e2
  have hR : 0 ≤ R := hr1.trans hR1
  have hk : 0 ≤ 1 - k := by linarith
  refine ⟨mul_nonneg hR (by linarith [cos_le_one ((a1 - a0) / 2)]), s, s0, s1, ?_⟩
  have d1 : (ovalAt c r a).1 - (between (ovalAt c r a0) (ovalAt c r a1) s).1 = (1 - k) * (r.1 * cos a) := by
    simp only [ovalAt, between]
    linear_combination (-r.1) * e1
  have d2 : (ovalAt c r a).2 - (between (ovalAt c r a0) (ovalAt c r a1) s).2 = (1 - k) * (r.2 * sin a) := by
    simp only [ovalAt, between]
    linear_combination (-r.2) * e2
  unfold dist2
  rw [d1, d2]
  have hsum : (r.1 * cos a) ^ 2 + (r.2 * sin a) ^ 2 ≤ R ^ 2 := by
    have q1 : r.1 ^ 2 ≤ R ^ 2 := by nlinarith
    have q2 : r.2 ^ 2 ≤ R ^ 2 := by nlinarith
    have := cos_sq_add_sin_sq a
    nlinarith [sq_nonneg (cos a), sq_nonneg (sin a), mul_le_mul_of_nonneg_right q1 (sq_nonneg (cos a)),
      mul_le_mul_of_nonneg_right q2 (sq_nonneg (sin a))]
  have hk2 : (1 - k) ^ 2 ≤ (1 - cos ((a1 - a0) / 2)) ^ 2 := by nlinarith
  calc ((1 - k) * (r.1 * cos a)) ^ 2 + ((1 - k) * (r.2 * sin a)) ^ 2
      = (1 - k) ^ 2 * ((r.1 * cos a) ^ 2 + (r.2 * sin a) ^ 2) := by ring
    _ ≤ (1 - k) ^ 2 * R ^ 2 := mul_le_mul_of_nonneg_left hsum (sq_nonneg _)
    _ ≤ (1 - cos ((a1 - a0) / 2)) ^ 2 * R ^ 2 := mul_le_mul_of_nonneg_right hk2 (sq_nonneg _)
    _ = (R * (1 - cos ((a1 - a0) / 2))) ^ 2 := by ring

theorem NearSegment.mono {a b x : Pt ℝ} {d e : ℝ} (h : NearSegment a b x d) (hde : d ≤ e) : NearSegment a b x e := by
  obtain ⟨h0, s, s0, s1, hs⟩ := h
  exact ⟨h0.trans hde, s, s0, s1, hs.trans (by nlinarith)⟩

/-- The piece of `linspace` that contains a value. -/
theorem linspace_bracket (a0 a1 : ℝ) (h : a0 < a1) (n : Nat) (hn : 2 ≤ n) (a : ℝ) (ha0 : a0 ≤ a) (ha1 : a ≤ a1) :
    ∃ i, i + 1 < n ∧ a0 + i * ((a1 - a0) / ((n : ℝ) - 1)) ≤ a ∧ a ≤ a0 + (i + 1 : ℕ) * ((a1 - a0) / ((n : ℝ) - 1)) := by
  have hn1 : (0 : ℝ) < (n : ℝ) - 1 := by
    have : (2 : ℝ) ≤ n := by exact_mod_cast hn
    linarith
  set δ := (a1 - a0) / ((n : ℝ) - 1) with hδ
  have hδ0 : 0 < δ := div_pos (by linarith) hn1
  have hend : a0 + ((n - 1 : ℕ) : ℝ) * δ = a1 := by
    rw [hδ, Nat.cast_sub (by omega)]
    push_cast
    field_simp
    ring
  have hex : ∃ i, a ≤ a0 + (i + 1 : ℕ) * δ := by
    refine ⟨n - 2, ?_⟩
    rw [show n - 2 + 1 = n - 1 by omega, hend]
    exact ha1
  classical
  refine ⟨Nat.find hex, ?_, ?_, Nat.find_spec hex⟩
  · have : Nat.find hex ≤ n - 2 := Nat.find_min' hex (by
      rw [show n - 2 + 1 = n - 1 by omega, hend]
      exact ha1)
    omega
  · cases hf : Nat.find hex with
    | zero => simpa using ha0
    | succ j =>
      have := Nat.find_min hex (m := j) (by omega)
      push Not at this
      exact this.le

/-- Points at equal angles follow the ellipse. -/
theorem linspace_follows (c r : Pt ℝ) (hr1 : 0 ≤ r.1) (hr2 : 0 ≤ r.2) (R : ℝ) (hR1 : r.1 ≤ R) (hR2 : r.2 ≤ R) (a0 a1 : ℝ)
    (h : a0 < a1) (n : Nat) (hn : 2 ≤ n) (hstep : (a1 - a0) / ((n : ℝ) - 1) < π) :
    Follows c r a0 a1 (R * (1 - cos ((a1 - a0) / ((n : ℝ) - 1) / 2))) ((linspace a0 a1 n).map (ovalAt c r)) := by
  have hn1 : (0 : ℝ) < (n : ℝ) - 1 := by
    have : (2 : ℝ) ≤ n := by exact_mod_cast hn
    linarith
  constructor
  · refine ⟨_, rfl, ?_, ?_, linspace_inc h hn⟩
    · rw [List.head?_eq_getElem?]; exact linspace_first _ _ _ (by omega)
    · rw [List.getLast?_eq_getElem?, linspace_length]; exact linspace_last _ _ _ hn
  · intro a ha0 ha1
    obtain ⟨i, hi, b0, b1⟩ := linspace_bracket a0 a1 h n hn a ha0 ha1
    have hget : ∀ j, j < n → ((linspace a0 a1 n).map (ovalAt c r))[j]? =
        some (ovalAt c r (a0 + j * ((a1 - a0) / ((n : ℝ) - 1)))) := by
      intro j hj
      rw [List.getElem?_map]
      unfold linspace
      rw [List.getElem?_map, List.getElem?_range hj]
      rfl
    refine ⟨i, _, _, hget i (by omega), hget (i + 1) hi, ?_⟩
    have hpos : 0 < (a1 - a0) / ((n : ℝ) - 1) := div_pos (by linarith) hn1
    have hdiff : a0 + (i + 1 : ℕ) * ((a1 - a0) / ((n : ℝ) - 1)) - (a0 + i * ((a1 - a0) / ((n : ℝ) - 1))) =
        (a1 - a0) / ((n : ℝ) - 1) := by push_cast; ring
    have := ellipse_chord c r hr1 hr2 R hR1 hR2 (a0 + i * ((a1 - a0) / ((n : ℝ) - 1)))
      (a0 + (i + 1 : ℕ) * ((a1 - a0) / ((n : ℝ) - 1))) a (by linarith) (by rw [hdiff]; exact hstep) b0 b1
    rwa [hdiff] at this

theorem ellPt_oval (c : Pt ℝ) (r : ℝ × ℝ) (a : ℝ) : ellPt realNum c r a = ovalAt c r a := by
  show (cos a * r.1 + c.1, sin a * r.2 + c.2) = (c.1 + r.1 * cos a, c.2 + r.2 * sin a)
  rw [mul_comm (cos a), mul_comm (sin a), add_comm (r.1 * cos a), add_comm (r.2 * sin a)]

theorem ellPt_oval_fun (c : Pt ℝ) (r : ℝ × ℝ) : ellPt realNum c r = ovalAt c r := funext (ellPt_oval c r)

theorem realNum_two_pi : 2 * (2 * realNum.halfpi) = 2 * π := by
  show 2 * (2 * (π / 2)) = 2 * π
  ring

/-- What the number of steps means over the reals. -/
theorem arcSteps_real {θ tol R : ℝ} {s : ℤ} (hR : 0 < R) (h : arcSteps realNum θ tol R = .ok s) :
    0 < tol ∧ tol ≤ 2 * R ∧ ∃ a, 0 < a ∧ a ≤ π ∧ R * (1 - cos a) = tol ∧ s = truncInt (θ / 2 / a + 1 / 2) := by
  unfold arcSteps at h
  rw [if_neg hR.ne'] at h
  by_cases hd : -1 ≤ 1 - tol / R ∧ 1 - tol / R ≤ 1
  · have hac : realNum.acos (1 - tol / R) = some (arccos (1 - tol / R)) := by
      simp only [realNum]
      rw [if_pos hd]
    rw [hac] at h
    simp only at h
    split at h
    · cases h
    · rename_i hne
      cases h
      have hpos : 0 < arccos (1 - tol / R) := lt_of_le_of_ne (arccos_nonneg _) (Ne.symm hne)
      have hlt : 1 - tol / R < 1 := by
        rw [arccos_pos] at hpos
        exact hpos
      have htol : 0 < tol := by
        have : 0 < tol / R := by linarith
        have := mul_pos this hR
        rwa [div_mul_cancel₀ _ hR.ne'] at this
      refine ⟨htol, ?_, _, hpos, arccos_le_pi _, ?_, rfl⟩
      · have : tol / R ≤ 2 := by linarith [hd.1]
        rwa [div_le_iff₀ hR] at this
      · rw [cos_arccos hd.1 hd.2]
        field_simp
        ring
  · have hac : realNum.acos (1 - tol / R) = none := by
      simp only [realNum]
      rw [if_neg hd]
    rw [hac] at h
    cases h

theorem truncInt_bounds {x : ℝ} (hx : 0 ≤ x) : (truncInt x : ℝ) ≤ x ∧ x < truncInt x + 1 ∧ 0 ≤ truncInt x := by
  unfold truncInt
  rw [if_pos hx]
  exact ⟨Int.floor_le x, Int.lt_floor_add_one x, Int.floor_nonneg.2 hx⟩

/-- Sum over the edges of a closed chain given by a function with `f n = f 0`. -/
theorem shoelace_range (f : ℕ → Pt ℝ) (n : Nat) (hf : f n = f 0) :
    shoelace ((List.range n).map f) = ∑ i ∈ Finset.range n, ((f i).1 * (f (i + 1)).2 - (f (i + 1)).1 * (f i).2) := by
  have hrot : ((List.range n).map f).rotate 1 = (List.range n).map fun i => f (i + 1) := by
    apply List.ext_getElem
    · simp
    · intro i h1 h2
      simp only [List.length_rotate, List.length_map, List.length_range] at h1
      rw [List.getElem_rotate]
      simp only [List.length_map, List.length_range, List.getElem_map, List.getElem_range]
      by_cases hi : i + 1 = n
      · rw [hi, Nat.mod_self, hf]
      · rw [Nat.mod_eq_of_lt (by omega)]
  unfold shoelace
  rw [hrot, List.zipWith_map, List.zipWith_self]
  rfl

/-- A disc is a regular polygon stretched to the radii: its area. -/
theorem oval_area (c r : Pt ℝ) (n : Nat) (hn : 0 < n) :
    shoelace ((List.range n).map fun i : ℕ => ovalAt c r ((i : ℝ) * (2 * π / n))) = n * (r.1 * r.2 * sin (2 * π / n)) := by
  have hn' : (n : ℝ) ≠ 0 := by exact_mod_cast hn.ne'
  have hper : (n : ℝ) * (2 * π / n) = 2 * π := by field_simp
  rw [shoelace_range _ n (by simp only [hper, ovalAt]; simp)]
  set δ := 2 * π / (n : ℝ) with hδ
  have hterm : ∀ i : ℕ, (ovalAt c r ((i : ℝ) * δ)).1 * (ovalAt c r (((i + 1 : ℕ) : ℝ) * δ)).2 -
      (ovalAt c r (((i + 1 : ℕ) : ℝ) * δ)).1 * (ovalAt c r ((i : ℝ) * δ)).2 =
      r.1 * r.2 * sin δ + ((c.1 * r.2 * sin (((i + 1 : ℕ) : ℝ) * δ) - c.2 * r.1 * cos (((i + 1 : ℕ) : ℝ) * δ)) -
        (c.1 * r.2 * sin ((i : ℝ) * δ) - c.2 * r.1 * cos ((i : ℝ) * δ))) := by
    intro i
    have hd : sin δ = sin (((i + 1 : ℕ) : ℝ) * δ) * cos ((i : ℝ) * δ) - cos (((i + 1 : ℕ) : ℝ) * δ) * sin ((i : ℝ) * δ) := by
      rw [← sin_sub]; congr 1; push_cast; ring
    simp only [ovalAt]
    rw [hd]
    ring
  rw [Finset.sum_congr rfl (fun i _ => hterm i), Finset.sum_add_distrib, Finset.sum_const, Finset.card_range, nsmul_eq_mul,
    Finset.sum_range_sub (fun i : ℕ => c.1 * r.2 * sin ((i : ℝ) * δ) - c.2 * r.1 * cos ((i : ℝ) * δ)) n, hper]
  simp

/-- **C66**, discs: a full disc in one piece is a polygon with at least 3 vertices, at equal parameter steps around the
ellipse and in counter-clockwise order, no point of the ellipse is farther than the tolerance from the side that belongs
to it, and the area is that of a stretched regular polygon. -/
theorem C66_disc {c : Pt ℝ} {orr irr : Radius ℝ} {ia tol : ℝ} {mp : Nat} {layer datatype : Int} {ps : PolySet ℝ}
    (h : roundNew realNum c orr irr ia ia tol none mp layer datatype = .ok ps)
    (hx : 0 < orr.xy.1) (hy : 0 < orr.xy.2) (hi : irr.max' ≤ 0) (h1 : ps.polygons.length = 1) :
    ∃ n : ℕ, 3 ≤ n ∧ ps.polygons = [(List.range n).map fun i : ℕ => ovalAt c orr.xy ((i : ℝ) * (2 * π / n))] ∧
      (∀ a, 0 ≤ a → a ≤ 2 * π → ∃ i < n, NearSegment (ovalAt c orr.xy ((i : ℝ) * (2 * π / n)))
        (ovalAt c orr.xy (((i + 1 : ℕ) : ℝ) * (2 * π / n))) (ovalAt c orr.xy a) tol) ∧
      ∀ q ∈ ps.polygons, shoelace q = n * (orr.xy.1 * orr.xy.2 * sin (2 * π / n)) := by
  obtain ⟨n, k, fa', hn, hk, hk0, hfa, -, -, hlen, hall⟩ := roundNew_inv h
  obtain rfl : k = 1 := by omega
  rw [if_neg (by omega)] at hfa
  subst hfa
  obtain ⟨q, hq, hp⟩ := hall 0 (by omega)
  have hR1 : orr.xy.1 ≤ orr.max' := by cases orr <;> simp [Radius.xy, Radius.max']
  have hR2 : orr.xy.2 ≤ orr.max' := by cases orr <;> simp [Radius.xy, Radius.max']
  have hR : 0 < orr.max' := hx.trans_le hR1
  -- the number of points
  unfold roundPoints at hn
  obtain ⟨s, hs, hn⟩ := bind_ok_inv hn
  rw [if_pos rfl, realNum_two_pi] at hs
  obtain ⟨htol, -, a, ha0, hapi, hcos, hsv⟩ := arcSteps_real hR hs
  have hxnn : (0 : ℝ) ≤ 2 * π / 2 / a + 1 / 2 := by have := pi_pos; positivity
  obtain ⟨t1, t2, t3⟩ := truncInt_bounds hxnn
  rw [← hsv] at t1 t2 t3
  cases hn
  rw [if_neg (not_lt.2 hi), mul_one] at hp
  set N := (max 3 (1 + s)).toNat with hN
  have hN3 : 3 ≤ N := by omega
  have hNs : (1 + s : ℤ) ≤ (N : ℤ) := by omega
  have hNr : (1 : ℝ) + s ≤ N := by exact_mod_cast hNs
  have hN0 : (0 : ℝ) < N := by
    have : (3 : ℝ) ≤ N := by exact_mod_cast hN3
    linarith
  have hlt : π / N < a := by
    rw [div_lt_iff₀ hN0]
    have : π / a < N := by
      have e : 2 * π / 2 / a = π / a := by ring
      rw [e] at t2
      linarith
    rw [div_lt_iff₀ ha0] at this
    linarith
  -- the polygon
  unfold roundPiece at hp
  simp only [Nat.div_one] at hp
  rw [if_pos (by simp), if_pos hi] at hp
  cases hp
  have hang : ∀ i : ℕ, (i : ℝ) * 2 * (2 * realNum.halfpi) / (N : ℝ) = (i : ℝ) * (2 * π / N) := by
    intro i
    have := realNum_two_pi
    rw [mul_assoc, this]
    ring
  have hpoly : ps.polygons = [(List.range N).map fun i : ℕ => ovalAt c orr.xy ((i : ℝ) * (2 * π / N))] := by
    cases hps : ps.polygons with
    | nil => rw [hps] at h1; simp at h1
    | cons x l =>
      rw [hps] at h1 hq
      obtain rfl : l = [] := by simpa using h1
      simp only [List.getElem?_cons_zero, Option.some.injEq] at hq
      rw [hq]
      simp only [ellPt_oval, hang]
  refine ⟨N, hN3, hpoly, ?_, ?_⟩
  · intro b hb0 hb1
    obtain ⟨i, hi', l0, l1⟩ := linspace_bracket 0 (2 * π) (by linarith [pi_pos]) (N + 1) (by omega) b hb0 hb1
    have e : (2 * π - 0) / (((N + 1 : ℕ) : ℝ) - 1) = 2 * π / N := by push_cast; ring
    rw [e, zero_add] at l0 l1
    refine ⟨i, by omega, ?_⟩
    have hdiff : ((i + 1 : ℕ) : ℝ) * (2 * π / N) - (i : ℝ) * (2 * π / N) = 2 * π / N := by push_cast; ring
    have hstep : 0 < 2 * π / (N : ℝ) := by have := pi_pos; positivity
    have hsmall : 2 * π / (N : ℝ) < π := by
      rw [div_lt_iff₀ hN0]
      have : (3 : ℝ) ≤ N := by exact_mod_cast hN3
      nlinarith [pi_pos]
    have := ellipse_chord c orr.xy hx.le hy.le orr.max' hR1 hR2 _ _ b (by linarith) (by rw [hdiff]; exact hsmall) l0 l1
    rw [hdiff] at this
    refine NearSegment.mono this ?_
    rw [← hcos]
    apply mul_le_mul_of_nonneg_left _ hR.le
    have : cos a ≤ cos (2 * π / N / 2) := by
      apply cos_le_cos_of_nonneg_of_le_pi (by linarith) hapi
      have : 2 * π / (N : ℝ) / 2 = π / N := by ring
      rw [this]; exact hlt.le
    linarith
  · intro q hq
    rw [hpoly] at hq
    obtain rfl := List.mem_singleton.1 hq
    exact oval_area c orr.xy N (by omega)

theorem linspace_flip (a b : ℝ) (n : Nat) (hn : 2 ≤ n) : linspace b a n = (linspace a b n).reverse := by
  have hn1 : (n : ℝ) - 1 ≠ 0 := by
    have : (2 : ℝ) ≤ n := by exact_mod_cast hn
    linarith
  apply List.ext_getElem
  · simp [linspace]
  · intro i h1 h2
    simp only [linspace, List.length_map, List.length_range] at h1
    simp only [linspace, List.getElem_reverse, List.length_map, List.length_range, List.getElem_map, List.getElem_range]
    rw [Nat.sub_sub, Nat.cast_sub (by omega)]
    push_cast
    field_simp
    ring

/-- Steps a factor larger than those that meet a tolerance. -/
theorem chord_tolerance (h a c : ℝ) (ha : 0 < a) (hapi : a ≤ π) (h0 : 0 ≤ h) (hpi : h ≤ π) (hc : 1 ≤ c) (hle : h ≤ c * a) :
    1 - cos h ≤ c ^ 2 * (1 - cos a) := by
  have hnn : 0 ≤ 1 - cos a := by linarith [cos_le_one a]
  rcases le_total h a with hha | hah
  · have : cos a ≤ cos h := cos_le_cos_of_nonneg_of_le_pi h0 hapi hha
    have hc2 : 1 ≤ c ^ 2 := by nlinarith
    nlinarith [mul_le_mul_of_nonneg_right hc2 hnn]
  · have hs : a / h * sin (h / 2) ≤ sin (a / 2) := by
      have hh : 0 < h := ha.trans_le hah
      have hk1 : a / h ≤ 1 := (div_le_one hh).2 hah
      have hm : h / 2 ∈ Set.Icc 0 π := ⟨by linarith, by linarith⟩
      have hz : (0 : ℝ) ∈ Set.Icc 0 π := ⟨le_refl _, pi_pos.le⟩
      have := strictConcaveOn_sin_Icc.concaveOn.2 hm hz (show 0 ≤ a / h by positivity)
        (show 0 ≤ 1 - a / h by linarith) (by ring)
      simp only [smul_eq_mul, sin_zero, mul_zero, add_zero] at this
      have e : a / h * (h / 2) = a / 2 := by field_simp
      rwa [e] at this
    have hh : 0 < h := ha.trans_le hah
    have s0 : 0 ≤ sin (h / 2) := sin_nonneg_of_nonneg_of_le_pi (by linarith) (by linarith)
    have s1 : 0 ≤ sin (a / 2) := sin_nonneg_of_nonneg_of_le_pi (by linarith) (by linarith)
    have hb : sin (h / 2) ≤ c * sin (a / 2) := by
      have h1 : sin (h / 2) ≤ h / a * sin (a / 2) := by
        rw [div_mul_eq_mul_div, le_div_iff₀ ha]
        rw [div_mul_eq_mul_div, div_le_iff₀ hh] at hs
        linarith
      refine h1.trans (mul_le_mul_of_nonneg_right ?_ s1)
      rw [div_le_iff₀ ha]; exact hle
    have e : ∀ x : ℝ, 1 - cos x = 2 * sin (x / 2) ^ 2 := by
      intro x
      have h1 := cos_two_mul (x / 2)
      have h2 := cos_sq_add_sin_sq (x / 2)
      rw [show 2 * (x / 2) = x by ring] at h1
      linarith
    rw [e, e]
    nlinarith [mul_self_le_mul_self s0 hb]

/-- Pieces without a hole: the piece is the centre followed by a chain along its part of the ellipse. -/
theorem roundPiece_follows_pie {c : Pt ℝ} {orr irr : Radius ℝ} {n : Nat} {o0 o1 i0 i1 : ℝ} {q : Pgon ℝ}
    (h : roundPiece realNum c orr irr n o0 o1 i0 i1 = .ok q) (hx : 0 < orr.xy.1) (hy : 0 < orr.xy.2) (hi : irr.max' ≤ 0)
    (ho : o0 < o1) (hn : 3 ≤ n) (hstep : (o1 - o0) / ((n : ℝ) - 2) < π) :
    ∃ l, q = c :: l ∧ Follows c orr.xy o0 o1 (orr.max' * (1 - cos ((o1 - o0) / ((n : ℝ) - 2) / 2))) l := by
  have hR1 : orr.xy.1 ≤ orr.max' := by cases orr <;> simp [Radius.xy, Radius.max']
  have hR2 : orr.xy.2 ≤ orr.max' := by cases orr <;> simp [Radius.xy, Radius.max']
  unfold roundPiece at h
  simp only at h
  rw [if_neg ho.ne', if_pos hi, if_neg (by omega)] at h
  cases h
  have e : (((n - 1 : ℕ) : ℝ) - 1) = (n : ℝ) - 2 := by rw [Nat.cast_sub (by omega)]; push_cast; ring
  have := linspace_follows c orr.xy hx.le hy.le orr.max' hR1 hR2 o0 o1 ho (n - 1) (by omega) (by rw [e]; exact hstep)
  rw [e] at this
  refine ⟨_, ?_, this⟩
  simp only [zero_add, ellPt_oval_fun]

/-- Pieces with a hole: the piece is a chain along its part of the outer ellipse and back along its part of the
inner ellipse. -/
theorem roundPiece_follows_ring {c : Pt ℝ} {orr irr : Radius ℝ} {n : Nat} {o0 o1 i0 i1 : ℝ} {q : Pgon ℝ}
    (h : roundPiece realNum c orr irr n o0 o1 i0 i1 = .ok q) (hx : 0 < orr.xy.1) (hy : 0 < orr.xy.2)
    (hix : 0 < irr.xy.1) (hiy : 0 < irr.xy.2) (ho : o0 < o1) (hi : i0 < i1) (hn : 4 ≤ n)
    (hstep : (o1 - o0) / ((n : ℝ) - (n / 2 : ℕ) - 1) < π) (hstep' : (i1 - i0) / (((n / 2 : ℕ) : ℝ) - 1) < π) :
    ∃ l l', q = l ++ l'.reverse ∧ l.length = n - n / 2 ∧
      Follows c orr.xy o0 o1 (orr.max' * (1 - cos ((o1 - o0) / ((n : ℝ) - (n / 2 : ℕ) - 1) / 2))) l ∧
      Follows c irr.xy i0 i1 (irr.max' * (1 - cos ((i1 - i0) / (((n / 2 : ℕ) : ℝ) - 1) / 2))) l' := by
  have hR1 : orr.xy.1 ≤ orr.max' := by cases orr <;> simp [Radius.xy, Radius.max']
  have hR2 : orr.xy.2 ≤ orr.max' := by cases orr <;> simp [Radius.xy, Radius.max']
  have hI1 : irr.xy.1 ≤ irr.max' := by cases irr <;> simp [Radius.xy, Radius.max']
  have hI2 : irr.xy.2 ≤ irr.max' := by cases irr <;> simp [Radius.xy, Radius.max']
  unfold roundPiece at h
  simp only at h
  rw [if_neg ho.ne', if_neg (not_le.2 (hix.trans_le hI1))] at h
  cases h
  have e : (((n - n / 2 : ℕ) : ℝ) - 1) = (n : ℝ) - (n / 2 : ℕ) - 1 := by rw [Nat.cast_sub (by omega)]
  have f1 := linspace_follows c orr.xy hx.le hy.le orr.max' hR1 hR2 o0 o1 ho (n - n / 2) (by omega) (by rw [e]; exact hstep)
  rw [e] at f1
  have f2 := linspace_follows c irr.xy hix.le hiy.le irr.max' hI1 hI2 i0 i1 hi (n / 2) (by omega) hstep'
  refine ⟨_, _, ?_, by simp [linspace], f1, f2⟩
  rw [← List.map_reverse, ← linspace_flip _ _ _ (by omega)]
  simp only [ellPt_oval_fun]

/-- **C66**, sections: the pieces of a circular section, of a ring section, and of a disc or a ring in several pieces
divide the angle equally, and each follows its part of the circles. -/
theorem C66_pieces {c : Pt ℝ} {R r ia fa tol : ℝ} {N : Option Nat} {mp : Nat} {layer datatype : Int} {ps : PolySet ℝ}
    (h : roundNew realNum c (.one R) (.one r) ia fa tol N mp layer datatype = .ok ps) (hR : 0 < R)
    (hfa : ia < fa ∨ fa = ia ∧ 1 < ps.polygons.length) (w : ℝ)
    (hw : w = (if fa = ia then 2 * π else fa - ia) / ps.polygons.length) (i : Nat) (q : Pgon ℝ)
    (hq : ps.polygons[i]? = some q) :
    (r ≤ 0 → 3 ≤ q.length → w / ((q.length : ℝ) - 2) < π →
      ∃ l, q = c :: l ∧ Follows c (R, R) (ia + i * w) (ia + (i + 1 : ℕ) * w)
        (R * (1 - cos (w / ((q.length : ℝ) - 2) / 2))) l) ∧
    (0 < r → 4 ≤ q.length → w / (((q.length / 2 : ℕ) : ℝ) - 1) < π →
      ∃ l l', q = l ++ l'.reverse ∧ l.length = q.length - q.length / 2 ∧
        Follows c (R, R) (ia + i * w) (ia + (i + 1 : ℕ) * w)
          (R * (1 - cos (w / ((q.length : ℝ) - (q.length / 2 : ℕ) - 1) / 2))) l ∧
        Follows c (r, r) (ia + i * w) (ia + (i + 1 : ℕ) * w)
          (r * (1 - cos (w / (((q.length / 2 : ℕ) : ℝ) - 1) / 2))) l') := by
  obtain ⟨n, k, fa', hn, hk, hk0, hfa', -, -, hlen, hall⟩ := roundNew_inv h
  have hi : i < k := by
    rw [← hlen]
    exact (List.getElem?_eq_some_iff.1 hq).1
  obtain ⟨q', h1, h2⟩ := hall i hi
  rw [hq] at h1
  cases h1
  have hk1 : (0 : ℝ) < k := by exact_mod_cast Nat.pos_of_ne_zero hk0
  have hw0 : (fa' - ia) / (k : ℝ) = w := by
    rw [hw, hfa', hlen]
    rcases hfa with hlt | ⟨heq, hgt⟩
    · rw [if_neg (fun hc => hlt.ne' hc.1), if_neg hlt.ne']
    · rw [hlen] at hgt
      rw [if_pos ⟨heq, hgt⟩, if_pos heq, heq, realNum_two_pi]
      ring
  have hwpos : 0 < w := by
    rw [hw, hlen]
    apply div_pos _ hk1
    rcases hfa with hlt | ⟨heq, -⟩
    · rw [if_neg hlt.ne']; linarith
    · rw [if_pos heq]; linarith [pi_pos]
  have hd : ia + ((i + 1 : ℕ) : ℝ) * w - (ia + (i : ℝ) * w) = w := by push_cast; ring
  have hl := roundPiece_length _ _ _ _ _ _ _ _ _ _ h2
  rw [hw0, ← hl] at h2
  simp only [Radius.angle] at h2
  constructor
  · intro hr h3 hs
    have := roundPiece_follows_pie h2 hR hR hr (by linarith) h3 (by rw [hd]; exact hs)
    rw [hd] at this
    exact this
  · intro hr h4 hs
    have hs' : w / ((q.length : ℝ) - (q.length / 2 : ℕ) - 1) < π := by
      refine lt_of_le_of_lt ?_ hs
      have e1 : ((q.length / 2 : ℕ) : ℝ) ≤ (q.length : ℝ) - (q.length / 2 : ℕ) := by
        have : q.length / 2 + q.length / 2 ≤ q.length := by omega
        have : ((q.length / 2 : ℕ) : ℝ) + (q.length / 2 : ℕ) ≤ q.length := by exact_mod_cast this
        linarith
      have e2 : (2 : ℝ) ≤ (q.length / 2 : ℕ) := by
        have : 2 ≤ q.length / 2 := by omega
        exact_mod_cast this
      exact div_le_div_of_nonneg_left hwpos.le (by linarith) (by linarith)
    have := roundPiece_follows_ring h2 hR hR hr hr (by linarith) (by linarith) h4 (by rw [hd]; exact hs')
      (by rw [hd]; exact hs)
    rw [hd] at this
    exact this

/-- **C66**, tolerance of sections in one piece: the boundary of a ring section is never farther from the circles than
25/16 of the tolerance, that of a circular section of less than half a turn never farther than 25/4 of it. -/
theorem C66_sections_partial {c : Pt ℝ} {R r ia fa tol : ℝ} {mp : Nat} {layer datatype : Int} {ps : PolySet ℝ} {q : Pgon ℝ}
    (h : roundNew realNum c (.one R) (.one r) ia fa tol none mp layer datatype = .ok ps) (hR : 0 < R) (hrR : r ≤ R)
    (hfa : ia < fa) (h1 : ps.polygons = [q]) :
    (r ≤ 0 → fa - ia < π → ∃ l, q = c :: l ∧ Follows c (R, R) ia fa (25 / 4 * tol) l) ∧
    (0 < r → fa - ia < 2 * π → ∃ l l', q = l ++ l'.reverse ∧ l.length = l'.length ∧
      Follows c (R, R) ia fa (25 / 16 * tol) l ∧ Follows c (r, r) ia fa (25 / 16 * tol) l') := by
  have hp := C66_pieces h hR (Or.inl hfa) (fa - ia) (by rw [h1, if_neg hfa.ne']; simp) 0 q (by rw [h1]; rfl)
  simp only [Nat.cast_zero, zero_mul, add_zero, zero_add, Nat.cast_one, one_mul, add_sub_cancel] at hp
  obtain ⟨n, k, fa', hn, hk, hk0, hfa', -, -, hlen, hall⟩ := roundNew_inv h
  obtain rfl : k = 1 := by rw [← hlen, h1]; rfl
  obtain ⟨q', e1, e2⟩ := hall 0 (by omega)
  rw [h1] at e1
  cases e1
  have hl := roundPiece_length _ _ _ _ _ _ _ _ _ _ e2
  rw [Nat.div_one] at hl
  unfold roundPoints at hn
  obtain ⟨s, hs, hn⟩ := bind_ok_inv hn
  rw [if_neg hfa.ne', abs_of_pos (by linarith)] at hs
  obtain ⟨htol, -, a, ha0, hapi, hcos, hsv⟩ := arcSteps_real hR hs
  have hxnn : (0 : ℝ) ≤ (fa - ia) / 2 / a + 1 / 2 := by
    have : 0 < fa - ia := by linarith
    positivity
  obtain ⟨t1, t2, t3⟩ := truncInt_bounds hxnn
  rw [← hsv] at t1 t2 t3
  have hxa : (fa - ia) / 2 < ((s : ℝ) + 1 / 2) * a := by
    have : (fa - ia) / 2 / a < s + 1 / 2 := by linarith
    rwa [div_lt_iff₀ ha0] at this
  simp only [Except.ok.injEq] at hn
  have hs3 : (s : ℝ) ≤ 2 ∨ (3 : ℝ) ≤ s := by
    rcases le_or_gt s 2 with h' | h'
    · left; exact_mod_cast h'
    · right
      have : (3 : ℤ) ≤ s := h'
      exact_mod_cast this
  constructor
  · intro hr hlt
    rw [if_neg (show ¬ (Radius.one r).max' > 0 from not_lt.2 hr), mul_one] at hn
    have hq3 : 3 ≤ q.length := by omega
    have hqs : (1 + s : ℤ) ≤ q.length := by omega
    have hqs' : (1 : ℝ) + s ≤ q.length := by exact_mod_cast hqs
    have hq3' : (3 : ℝ) ≤ q.length := by exact_mod_cast hq3
    have hst : (fa - ia) / ((q.length : ℝ) - 2) < π := by
      rw [div_lt_iff₀ (by linarith)]
      nlinarith [pi_pos]
    obtain ⟨l, hl1, hl2⟩ := hp.1 hr hq3 hst
    refine ⟨l, hl1, hl2.1, fun b hb0 hb1 => ?_⟩
    obtain ⟨i, x, y, hx, hy, hnear⟩ := hl2.2 b hb0 hb1
    refine ⟨i, x, y, hx, hy, NearSegment.mono hnear ?_⟩
    have hpos : 0 ≤ (fa - ia) / ((q.length : ℝ) - 2) / 2 :=
      div_nonneg (div_nonneg (by linarith) (by linarith)) (by norm_num)
    have := chord_tolerance ((fa - ia) / ((q.length : ℝ) - 2) / 2) a (5 / 2) ha0 hapi hpos (by linarith) (by norm_num) (by
      rw [div_right_comm, div_le_iff₀ (by linarith)]
      rcases hs3 with h' | h'
      · nlinarith
      · nlinarith)
    calc R * (1 - cos ((fa - ia) / ((q.length : ℝ) - 2) / 2)) ≤ R * ((5 / 2) ^ 2 * (1 - cos a)) :=
          mul_le_mul_of_nonneg_left this hR.le
      _ = 25 / 4 * tol := by rw [← hcos]; ring
  · intro hr hlt
    rw [if_pos (show (Radius.one r).max' > 0 from hr)] at hn
    set M := (max 3 (1 + s)).toNat with hM
    have hM3 : 3 ≤ M := by omega
    have hMs : (1 + s : ℤ) ≤ M := by omega
    have hMs' : (1 : ℝ) + s ≤ M := by exact_mod_cast hMs
    have hM3' : (3 : ℝ) ≤ M := by exact_mod_cast hM3
    have hq : q.length = M * 2 := by omega
    have hq2 : q.length / 2 = M := by omega
    have hst : (fa - ia) / ((M : ℝ) - 1) < π := by
      rw [div_lt_iff₀ (by linarith)]
      nlinarith [pi_pos]
    obtain ⟨l, l', hl1, hl2, hl3, hl4⟩ := hp.2 hr (by omega) (by rw [hq2]; exact hst)
    have hd : (q.length : ℝ) - (q.length / 2 : ℕ) - 1 = M - 1 := by rw [hq2, hq]; push_cast; ring
    rw [hd] at hl3
    rw [hq2] at hl4
    have hpos : 0 ≤ (fa - ia) / ((M : ℝ) - 1) / 2 :=
      div_nonneg (div_nonneg (by linarith) (by linarith)) (by norm_num)
    have hch := chord_tolerance ((fa - ia) / ((M : ℝ) - 1) / 2) a (5 / 4) ha0 hapi hpos (by linarith) (by norm_num) (by
      rw [div_right_comm, div_le_iff₀ (by linarith)]
      rcases hs3 with h' | h'
      · nlinarith
      · nlinarith)
    have hb : R * (1 - cos ((fa - ia) / ((M : ℝ) - 1) / 2)) ≤ 25 / 16 * tol := by
      calc R * (1 - cos ((fa - ia) / ((M : ℝ) - 1) / 2)) ≤ R * ((5 / 4) ^ 2 * (1 - cos a)) :=
            mul_le_mul_of_nonneg_left hch hR.le
        _ = 25 / 16 * tol := by rw [← hcos]; ring
    have hb' : r * (1 - cos ((fa - ia) / ((M : ℝ) - 1) / 2)) ≤ 25 / 16 * tol :=
      (mul_le_mul_of_nonneg_right hrR (by linarith [cos_le_one ((fa - ia) / ((M : ℝ) - 1) / 2)])).trans hb
    have hlen' : l'.length = M := by
      have := congrArg List.length hl1
      simp only [List.length_append, List.length_reverse] at this
      omega
    refine ⟨l, l', hl1, by omega, ⟨hl3.1, fun b hb0 hb1 => ?_⟩, ⟨hl4.1, fun b hb0 hb1 => ?_⟩⟩
    · obtain ⟨i, x, y, hx, hy, hnear⟩ := hl3.2 b hb0 hb1
      exact ⟨i, x, y, hx, hy, NearSegment.mono hnear hb⟩
    · obtain ⟨i, x, y, hx, hy, hnear⟩ := hl4.2 b hb0 hb1
      exact ⟨i, x, y, hx, hy, NearSegment.mono hnear hb'⟩

/-- The samples below: tolerance half the radius. -/
theorem arcSteps_sample (θ : ℝ) : arcSteps realNum θ (1 / 2) 1 = .ok (truncInt (θ / 2 / (π / 3) + 1 / 2)) := by
  unfold arcSteps
  have hac : realNum.acos (1 - 1 / 2 / 1) = some (π / 3) := by
    simp only [realNum]
    rw [if_pos (by norm_num), show (1 : ℝ) - 1 / 2 / 1 = cos (π / 3) by rw [cos_pi_div_three]; norm_num,
      arccos_cos (by linarith [pi_pos]) (by linarith [pi_pos])]
  rw [if_neg one_ne_zero, hac]
  simp only
  rw [if_neg (by linarith [pi_pos])]

theorem roundNew_sample (c : Pt ℝ) (R r ia fa tol : ℝ) (n : Nat) (hn : 0 < n)
    (h : roundPoints realNum (.one R) (.one r) ia fa tol none = .ok n) :
    ∃ q, roundNew realNum c (.one R) (.one r) ia fa tol none 0 1 2 = .ok ⟨[q], [1], [2]⟩ := by
  have hp : ∀ o0 o1 i0 i1, ∃ q, roundPiece realNum c (.one R) (.one r) n o0 o1 i0 i1 = .ok q := by
    intro o0 o1 i0 i1
    unfold roundPiece
    simp only
    rw [if_neg (show ¬ n = 0 by omega)]
    split <;> split <;> exact ⟨_, rfl⟩
  unfold roundNew
  rw [h]
  obtain ⟨q, hq⟩ := hp (((linspace ia fa 2).map (Radius.angle realNum (.one R))).getD 0 0)
    (((linspace ia fa 2).map (Radius.angle realNum (.one R))).getD 1 0)
    (((linspace ia fa 2).map (Radius.angle realNum (.one r))).getD 0 0)
    (((linspace ia fa 2).map (Radius.angle realNum (.one r))).getD 1 0)
  refine ⟨q, ?_⟩
  simp only [List.getD_eq_getElem?_getD, List.getElem?_map] at hq
  simp [bind, Except.bind, pieceCount, hq, List.range_succ, pure, Except.pure]

theorem truncInt_sample (x : ℝ) (k : ℤ) (hk : 0 ≤ k) (h0 : (k : ℝ) ≤ x) (h1 : x < k + 1) : truncInt x = k := by
  have : (0 : ℝ) ≤ k := by exact_mod_cast hk
  unfold truncInt
  rw [if_pos (by linarith), Int.floor_eq_iff]
  exact ⟨h0, h1⟩

/-- A disc of radius 1 with tolerance 1/2 is a square. -/
example : ∃ ps : PolySet ℝ, roundNew realNum (5, 7) (.one 1) (.one 0) 3 3 (1 / 2) none 0 1 2 = .ok ps ∧
    ps.polygons.length = 1 ∧ ∀ q ∈ ps.polygons, q.length = 4 := by
  have hpi := pi_pos
  have hpts : roundPoints realNum (.one 1) (.one 0) 3 3 (1 / 2) none = .ok 4 := by
    unfold roundPoints
    simp only [if_true, realNum_two_pi]
    show (arcSteps realNum (2 * π) (1 / 2) 1 >>= _) = _
    rw [arcSteps_sample, truncInt_sample _ 3 (by norm_num) (by field_simp; norm_num) (by field_simp; norm_num)]
    simp [Radius.max', bind, Except.bind]
  obtain ⟨q, hq⟩ := roundNew_sample (5, 7) 1 0 3 3 (1 / 2) 4 (by norm_num) hpts
  refine ⟨_, hq, rfl, ?_⟩
  obtain ⟨n, k, fa', hn, hk, -, -, -, -, hlen, hall⟩ := roundNew_inv hq
  rw [hpts] at hn
  cases hn
  obtain ⟨q', h1, h2⟩ := hall 0 (by simp at hlen; omega)
  cases h1
  obtain rfl : k = 1 := by simp at hlen; omega
  intro q' hq'
  obtain rfl := List.mem_singleton.1 hq'
  exact roundPiece_length _ _ _ _ _ _ _ _ _ _ h2

/-- A circular section of 120 degrees. -/
example : ∃ q : Pgon ℝ, roundNew realNum (5, 7) (.one 1) (.one 0) 0 (2 * π / 3) (1 / 2) none 0 1 2 = .ok ⟨[q], [1], [2]⟩ ∧
    2 * π / 3 - 0 < π := by
  have hpi := pi_pos
  have hpts : roundPoints realNum (.one 1) (.one 0) 0 (2 * π / 3) (1 / 2) none = .ok 3 := by
    unfold roundPoints
    simp only
    rw [if_neg (by positivity), sub_zero, abs_of_pos (by positivity)]
    show (arcSteps realNum (2 * π / 3) (1 / 2) 1 >>= _) = _
    rw [arcSteps_sample, truncInt_sample _ 1 (by norm_num) (by field_simp; norm_num) (by field_simp; norm_num)]
    simp [Radius.max', bind, Except.bind]
  obtain ⟨q, hq⟩ := roundNew_sample (5, 7) 1 0 0 (2 * π / 3) (1 / 2) 3 (by norm_num) hpts
  exact ⟨q, hq, by linarith⟩

/-- Half a ring. -/
example : ∃ q : Pgon ℝ, roundNew realNum (5, 7) (.one 1) (.one (1 / 2)) 0 π (1 / 2) none 0 1 2 = .ok ⟨[q], [1], [2]⟩ ∧
    π - 0 < 2 * π := by
  have hpi := pi_pos
  have hpts : roundPoints realNum (.one 1) (.one (1 / 2)) 0 π (1 / 2) none = .ok 6 := by
    unfold roundPoints
    simp only
    rw [if_neg hpi.ne', sub_zero, abs_of_pos hpi]
    show (arcSteps realNum π (1 / 2) 1 >>= _) = _
    rw [arcSteps_sample, truncInt_sample _ 2 (by norm_num) (by field_simp; norm_num) (by field_simp; norm_num)]
    simp [Radius.max', bind, Except.bind]
  obtain ⟨q, hq⟩ := roundNew_sample (5, 7) 1 (1 / 2) 0 π (1 / 2) 6 (by norm_num) hpts
  exact ⟨q, hq, by linarith⟩

/-- **C66**, ellipses: the point that stands for an angle is on the ray from the centre with this angle. -/
theorem C66_direction (c : Pt ℝ) (rx ry : ℝ) (hx : 0 < rx) (hy : 0 < ry) (a : ℝ) :
    ∃ k, 0 < k ∧ ovalAt c (rx, ry) (Radius.angle realNum (.two rx ry) a) = (c.1 + k * cos a, c.2 + k * sin a) := by
  unfold Radius.angle
  simp only
  have hpi : 2 * realNum.halfpi = π := by show 2 * (π / 2) = π; ring
  rw [hpi]
  split
  · rename_i h
    subst h
    exact ⟨rx, hx, by simp [ovalAt]⟩
  · set z : ℂ := ⟨ry * cos a, rx * sin a⟩ with hz
    have hz0 : z ≠ 0 := by
      intro h0
      have h1 : ry * cos a = 0 := by have := congrArg Complex.re h0; simpa [hz] using this
      have h2 : rx * sin a = 0 := by have := congrArg Complex.im h0; simpa [hz] using this
      have c0 := (mul_eq_zero.1 h1).resolve_left hy.ne'
      have s0 := (mul_eq_zero.1 h2).resolve_left hx.ne'
      have := cos_sq_add_sin_sq a
      rw [c0, s0] at this
      norm_num at this
    have hm : 0 < ‖z‖ := norm_pos_iff.2 hz0
    have hr : a - (pyModK (a + π) (2 * π) - π) = (⌊(a + π) / (2 * π)⌋ : ℤ) * (2 * π) := by
      unfold pyModK; ring
    have hat : realNum.atan2 (rx * realNum.sin a) (ry * realNum.cos a) = Complex.arg z := rfl
    rw [hr, hat]
    have e1 : ‖z‖ * cos (Complex.arg z) = ry * cos a := Complex.norm_mul_cos_arg z
    have e2 : ‖z‖ * sin (Complex.arg z) = rx * sin a := Complex.norm_mul_sin_arg z
    refine ⟨rx * ry / ‖z‖, by positivity, ?_⟩
    simp only [ovalAt, cos_add_int_mul_two_pi, sin_add_int_mul_two_pi]
    have f1 : rx * cos (Complex.arg z) = rx * ry / ‖z‖ * cos a := by
      field_simp
      linear_combination e1
    have f2 : ry * sin (Complex.arg z) = rx * ry / ‖z‖ * sin a := by
      field_simp
      linear_combination e2
    rw [f1, f2]

/-- The code does not keep the number of turns: the angle 3π of an ellipse becomes 5π (`t[a == numpy.pi]` repairs π only),
so a section that ends there makes an additional turn. -/
theorem C66_ellipse_jump (rx ry : ℝ) (hy : 0 < ry) : Radius.angle realNum (.two rx ry) (3 * π) = 5 * π := by
  unfold Radius.angle
  simp only
  have hpi : 2 * realNum.halfpi = π := by show 2 * (π / 2) = π; ring
  have hne : 3 * π ≠ π := by linarith [pi_pos]
  rw [hpi, if_neg hne]
  have hc : cos (3 * π) = -1 := by rw [show 3 * π = π + 2 * π by ring, cos_add_two_pi, cos_pi]
  have hs : sin (3 * π) = 0 := by rw [show 3 * π = π + 2 * π by ring, sin_add_two_pi, sin_pi]
  have hat : realNum.atan2 (rx * realNum.sin (3 * π)) (ry * realNum.cos (3 * π)) = π := by
    show Complex.arg ⟨ry * cos (3 * π), rx * sin (3 * π)⟩ = π
    rw [hc, hs, Complex.arg_eq_pi_iff]
    constructor
    · show ry * -1 < 0; linarith
    · show rx * 0 = 0; ring
  rw [hat]
  unfold pyModK
  have e : (3 * π + π) / (2 * π) = ((2 : ℤ) : ℝ) := by
    have := pi_pos.ne'
    push_cast
    field_simp
    ring
  rw [e, Int.floor_intCast]
  push_cast
  ring

/-- The tolerance is not kept by circular sections: half a disc of radius 3/100 with the default tolerance 1/100 is a
polygon without area. -/
theorem C66_half_disc_vanishes (c : Pt ℝ) (layer datatype : Int) :
    roundNew realNum c (.one (3 / 100)) (.one 0) 0 π (1 / 100) none 199 layer datatype =
      .ok ⟨[[c, (c.1 + 3 / 100, c.2), (c.1 - 3 / 100, c.2)]], [layer], [datatype]⟩ := by
  have hpi := pi_pos
  have hacos : realNum.acos (1 - 1 / 100 / (3 / 100)) = some (arccos (2 / 3)) := by
    simp only [realNum]
    rw [if_pos (by norm_num)]
    norm_num
  have hlo : π / 5 < arccos (2 / 3) := by
    have h5 : arccos (cos (π / 5)) = π / 5 := arccos_cos (by linarith) (by linarith)
    rw [← h5, cos_pi_div_five]
    apply arccos_lt_arccos <;> nlinarith [Real.sq_sqrt (show (0 : ℝ) ≤ 5 by norm_num), Real.sqrt_nonneg 5]
  have hhi : arccos (2 / 3) < π / 3 := by
    have h3 : arccos (cos (π / 3)) = π / 3 := arccos_cos (by linarith) (by linarith)
    rw [← h3, cos_pi_div_three]
    apply arccos_lt_arccos <;> norm_num
  have hpos : 0 < arccos (2 / 3) := by linarith
  have hs : arcSteps realNum π (1 / 100) (3 / 100) = .ok 2 := by
    unfold arcSteps
    rw [if_neg (by norm_num), hacos]
    simp only
    rw [if_neg hpos.ne']
    have : truncInt (π / 2 / arccos (2 / 3) + 1 / 2) = 2 := by
      unfold truncInt
      rw [if_pos (by positivity), Int.floor_eq_iff]
      push_cast
      constructor
      · have : 3 / 2 ≤ π / 2 / arccos (2 / 3) := by rw [le_div_iff₀ hpos]; linarith
        linarith
      · have : π / 2 / arccos (2 / 3) < 5 / 2 := by rw [div_lt_iff₀ hpos]; linarith
        linarith
    rw [this]
  have hpts : roundPoints realNum (.one (3 / 100)) (.one 0) 0 π (1 / 100) none = .ok 3 := by
    unfold roundPoints
    simp only
    rw [if_neg hpi.ne', sub_zero, abs_of_pos hpi]
    show (arcSteps realNum π (1 / 100) (3 / 100) >>= _) = _
    rw [hs]
    simp [Radius.max', bind, Except.bind]
  unfold roundNew
  rw [hpts]
  simp [bind, Except.bind, pieceCount, roundPiece, linspace, Radius.angle, Radius.max', Radius.xy, hpi.ne', List.range_succ,
    ellPt_oval, ovalAt, pure, Except.pure]
  have e : (2 : ℝ) - 1 = 1 := by norm_num
  simp [e, sub_eq_add_neg]

theorem C66_half_disc_area (c : Pt ℝ) : shoelace [c, (c.1 + 3 / 100, c.2), (c.1 - 3 / 100, c.2)] = 0 := by
  simp [shoelace]

end Gdspy
