import Verif.Spec.Joins
import Verif.Props.C76
import Verif.Props.C59

/-!
C77: `offset` draws the joins that are documented.

The contours that are drawn around the polygons, for all polygons and all joins. What remains is their union by class `Clipper`.
-/

namespace Gdspy

open Spec

theorem normal_right (s : IPt × IPt) : edgeNormal realNum s.1 s.2 = rightward s := by
  unfold edgeNormal rightward
  split
  · rename_i h
    rw [h.1, h.2]
    simp
  · simp only [realNum]
    push_cast
    rw [show ∀ x y : ℝ, x * x + y * y = x ^ 2 + y ^ 2 from fun x y => by ring]
    ext <;> simp only [] <;> ring

theorem rightward_unit {s : IPt × IPt} (h : s.1 ≠ s.2) : dotP (rightward s) (rightward s) = 1 := by
  have hpos : 0 < ((s.2.1 : ℝ) - s.1.1) ^ 2 + ((s.2.2 : ℝ) - s.1.2) ^ 2 := by
    by_contra hn
    have h1 : ((s.2.1 : ℝ) - s.1.1) = 0 := by nlinarith [sq_nonneg ((s.2.1 : ℝ) - s.1.1), sq_nonneg ((s.2.2 : ℝ) - s.1.2)]
    have h2 : ((s.2.2 : ℝ) - s.1.2) = 0 := by nlinarith [sq_nonneg ((s.2.1 : ℝ) - s.1.1), sq_nonneg ((s.2.2 : ℝ) - s.1.2)]
    apply h
    have h1' : (s.1.1 : ℝ) = s.2.1 := by linarith
    have h2' : (s.1.2 : ℝ) = s.2.2 := by linarith
    exact Prod.ext (by exact_mod_cast h1') (by exact_mod_cast h2')
  have hs := Real.sq_sqrt hpos.le
  have h0 : √(((s.2.1 : ℝ) - s.1.1) ^ 2 + ((s.2.2 : ℝ) - s.1.2) ^ 2) ≠ 0 := (Real.sqrt_pos.2 hpos).ne'
  unfold dotP rightward
  simp only []
  generalize √(((s.2.1 : ℝ) - s.1.1) ^ 2 + ((s.2.2 : ℝ) - s.1.2) ^ 2) = r at *
  field_simp
  rw [hs]
  ring

theorem gridNear_near (v : IPt) (d : Pt ℝ) : Near v d (gridNear v d) := ⟨clipRound_near _, clipRound_near _⟩

section Join
variable {δ : ℝ} {k j : IPt × IPt} (hk : dotP (rightward k) (rightward k) = 1) (hj : dotP (rightward j) (rightward j) = 1)
include hk hj

theorem turn_sq : sinTurn k j ^ 2 + cosTurn k j ^ 2 = 1 := by
  unfold sinTurn cosTurn crossP
  unfold dotP at *
  linear_combination ((rightward k).1 ^ 2 + (rightward k).2 ^ 2) * hj + hk

theorem angle_exists : ∃ A, A = realNum.atan2 (sinTurn k j) (cosTurn k j) ∧ -Real.pi < A ∧ A ≤ Real.pi ∧ Real.cos A = cosTurn k j ∧
    Real.sin A = sinTurn k j := by
  refine ⟨_, rfl, Complex.neg_pi_lt_arg _, Complex.arg_le_pi _, ?_, ?_⟩
  · have := realNum_polar.cos (cosTurn k j) (sinTurn k j)
    rw [show cosTurn k j ^ 2 + sinTurn k j ^ 2 = 1 by linarith [turn_sq hk hj]] at this
    simpa [realNum] using this
  · have := realNum_polar.sin (cosTurn k j) (sinTurn k j)
    rw [show cosTurn k j ^ 2 + sinTurn k j ^ 2 = 1 by linarith [turn_sq hk hj]] at this
    simpa [realNum] using this

theorem meet_far {d : Pt ℝ} (h1 : AtDistance δ k d) (h2 : AtDistance δ j d) (hs : sinTurn k j ≠ 0) :
    dotP d d * (1 + cosTurn k j) = 2 * δ ^ 2 := by
  have hsq := turn_sq hk hj
  have hc : 1 - cosTurn k j ≠ 0 := by
    intro h
    apply hs
    have : cosTurn k j = 1 := by linarith
    rw [this] at hsq
    nlinarith
  have key : dotP d d * sinTurn k j ^ 2 = 2 * δ ^ 2 * (1 - cosTurn k j) := by
    unfold AtDistance at h1 h2
    have e : dotP d d * sinTurn k j ^ 2 = dotP d (rightward k) ^ 2 * dotP (rightward j) (rightward j) +
        dotP d (rightward j) ^ 2 * dotP (rightward k) (rightward k) - 2 * dotP d (rightward k) * dotP d (rightward j) * cosTurn k j := by
      unfold sinTurn cosTurn crossP dotP
      ring
    rw [e, h1, h2, hk, hj]
    ring
  have : (1 - cosTurn k j) * (dotP d d * (1 + cosTurn k j) - 2 * δ ^ 2) = 0 := by
    linear_combination key - dotP d d * hsq
  have := (mul_eq_zero.1 this).resolve_left hc
  linarith

theorem meet_on (hr : 1 + cosTurn k j ≠ 0) :
    AtDistance δ k (((rightward k).1 + (rightward j).1) * (δ / (1 + cosTurn k j)), ((rightward k).2 + (rightward j).2) * (δ / (1 + cosTurn k j))) ∧
    AtDistance δ j (((rightward k).1 + (rightward j).1) * (δ / (1 + cosTurn k j)),
      ((rightward k).2 + (rightward j).2) * (δ / (1 + cosTurn k j))) := by
  have e : δ / (1 + cosTurn k j) * (1 + cosTurn k j) = δ := by field_simp
  generalize δ / (1 + cosTurn k j) = q at *
  unfold AtDistance cosTurn dotP at *
  simp only []
  constructor
  · linear_combination e + q * hk
  · linear_combination e + q * hj

/-- The test of `OffsetPoint` for miter joins. -/
theorem miter_test {tolerance : ℝ} {d : Pt ℝ} (h1 : AtDistance δ k d) (h2 : AtDistance δ j d) (hs : sinTurn k j ≠ 0) :
    √(dotP d d) ≤ max 2 tolerance * |δ| ↔ miterLimOf tolerance ≤ 1 + cosTurn k j ∨ δ = 0 := by
  have hf := meet_far hk hj h1 h2 hs
  have hsq := turn_sq hk hj
  have hr : 0 < 1 + cosTurn k j := by
    have h0 : 0 < sinTurn k j ^ 2 := by positivity
    nlinarith
  have hT : (2 : ℝ) ≤ max 2 tolerance := le_max_left _ _
  have hlim : miterLimOf tolerance = 2 / (max 2 tolerance) ^ 2 := by
    unfold miterLimOf
    split
    · rename_i h
      rw [max_eq_right h.le, pow_two]
    · rename_i h
      rw [max_eq_left (not_lt.1 h)]
      norm_num
  rw [Real.sqrt_le_left (by positivity), hlim, mul_pow, sq_abs, div_le_iff₀ (by positivity)]
  generalize max 2 tolerance = T at *
  by_cases h0 : δ = 0
  · rw [h0] at hf ⊢
    simp only [or_true, iff_true]
    have : dotP d d = 0 := by
      have := (mul_eq_zero.1 (by linarith : dotP d d * (1 + cosTurn k j) = 0)).resolve_right hr.ne'
      exact this
    rw [this]; simp
  · have hd : 0 < δ ^ 2 := by positivity
    simp only [h0, or_false]
    constructor
    · intro h
      have := mul_le_mul_of_nonneg_right h hr.le
      rw [hf] at this
      nlinarith
    · intro h
      by_contra hc
      have := mul_lt_mul_of_pos_right (not_le.1 hc) hr
      rw [hf] at this
      nlinarith

/-- The points of `DoSquare`. -/
theorem square_cut {A : ℝ} (hA : -Real.pi < A) (hA' : A ≤ Real.pi) (hc : Real.cos A = cosTurn k j) (hs : Real.sin A = sinTurn k j) (v : IPt) :
    Cut δ k j v
      (gridNear v (δ * ((rightward k).1 - (rightward k).2 * (Real.sin (A / 4) / Real.cos (A / 4))),
        δ * ((rightward k).2 + (rightward k).1 * (Real.sin (A / 4) / Real.cos (A / 4)))))
      (gridNear v (δ * ((rightward j).1 + (rightward j).2 * (Real.sin (A / 4) / Real.cos (A / 4))),
        δ * ((rightward j).2 - (rightward j).1 * (Real.sin (A / 4) / Real.cos (A / 4))))) := by
  have hpi := Real.pi_pos
  have c4 : 0 < Real.cos (A / 4) := Real.cos_pos_of_mem_Ioo ⟨by linarith, by linarith⟩
  have c2 : 0 ≤ Real.cos (A / 2) := Real.cos_nonneg_of_mem_Icc ⟨by linarith, by linarith⟩
  have e1 : Real.cos A = 2 * Real.cos (A / 2) ^ 2 - 1 := by rw [← Real.cos_two_mul]; congr 1; ring
  have e2 : Real.sin A = 2 * Real.sin (A / 2) * Real.cos (A / 2) := by rw [← Real.sin_two_mul]; congr 1; ring
  have e3 : Real.cos (A / 2) = 2 * Real.cos (A / 4) ^ 2 - 1 := by rw [← Real.cos_two_mul]; congr 1; ring
  have e4 : Real.sin (A / 2) = 2 * Real.sin (A / 4) * Real.cos (A / 4) := by rw [← Real.sin_two_mul]; congr 1; ring
  have p2 := Real.sin_sq_add_cos_sq (A / 2)
  have p4 := Real.sin_sq_add_cos_sq (A / 4)
  -- `tan (A / 4)`
  have t1 : Real.sin (A / 4) / Real.cos (A / 4) * Real.sin (A / 2) = 1 - Real.cos (A / 2) := by
    rw [e4, e3]; field_simp; linear_combination 2 * p4
  generalize Real.sin (A / 4) / Real.cos (A / 4) = x at *
  generalize hcc : Real.cos (A / 2) = c at *
  generalize hss : Real.sin (A / 2) = s at *
  unfold dotP at hk hj
  unfold cosTurn dotP at hc
  unfold sinTurn crossP at hs
  rw [e1] at hc
  rw [e2] at hs
  have un : (c * (rightward k).1 - s * (rightward k).2) * (rightward j).1 + (c * (rightward k).2 + s * (rightward k).1) * (rightward j).2 = c := by
    linear_combination (-c) * hc - s * hs + 2 * c * p2
  refine ⟨(c * (rightward k).1 - s * (rightward k).2, c * (rightward k).2 + s * (rightward k).1),
    (δ * ((rightward k).1 - (rightward k).2 * x), δ * ((rightward k).2 + (rightward k).1 * x)),
    (δ * ((rightward j).1 + (rightward j).2 * x), δ * ((rightward j).2 - (rightward j).1 * x)), ?_, ?_, ?_, ?_, ?_, gridNear_near _ _,
    ?_, ?_, gridNear_near _ _⟩
  · unfold dotP; linear_combination p2 + (c ^ 2 + s ^ 2) * hk
  · unfold dotP; rw [un]; linear_combination c * hk
  · unfold dotP
    have : (c * (rightward k).1 - s * (rightward k).2) * (rightward k).1 + (c * (rightward k).2 + s * (rightward k).1) * (rightward k).2 = c := by
      linear_combination c * hk
    rw [this]; exact c2
  · unfold AtDistance dotP; linear_combination δ * hk
  · unfold dotP; linear_combination δ * t1 + δ * (c + x * s) * hk
  · unfold AtDistance dotP; linear_combination δ * hj
  · unfold dotP
    have : (rightward j).2 * (c * (rightward k).1 - s * (rightward k).2) - (rightward j).1 * (c * (rightward k).2 + s * (rightward k).1) = s := by
      linear_combination s * hc - c * hs
    linear_combination δ * t1 + δ * un + δ * x * this

end Join

theorem arcLoop_length (arc : ArcSteps ℝ) (δ : ℝ) (v : IPt) (n : Nat) (x : Pt ℝ) : (arcLoop arc δ v n x).length = n := by
  induction n generalizing x with
  | zero => rfl
  | succ n ih => rw [arcLoop, List.length_cons, ih]

theorem arcLoop_get {arc : ArcSteps ℝ} {b : ℝ} (hc : arc.cos = Real.cos b) (hs : arc.sin = Real.sin b) (δ : ℝ) (v : IPt) (n : Nat) (x : Pt ℝ)
    (i : Nat) (p : IPt) (h : (arcLoop arc δ v n x)[i]? = some p) :
    Near v (δ * (Real.cos (i * b) * x.1 - Real.sin (i * b) * x.2), δ * (Real.sin (i * b) * x.1 + Real.cos (i * b) * x.2)) p := by
  induction n generalizing x i with
  | zero => simp [arcLoop] at h
  | succ n ih =>
    rw [arcLoop] at h
    cases i with
    | zero =>
      simp only [List.getElem?_cons_zero, Option.some.injEq] at h
      rw [← h]
      have := gridNear_near v (x.1 * δ, x.2 * δ)
      simpa [mul_comm] using this
    | succ i =>
      rw [List.getElem?_cons_succ] at h
      have := ih _ _ h
      simp only [hc, hs] at this
      have e : (((i + 1 : Nat) : ℝ)) * b = i * b + b := by push_cast; ring
      rw [e, Real.cos_add, Real.sin_add]
      convert this using 3 <;> ring

/-- The settings stand for a tolerance and for `N` points per turn. -/
structure CfgFor (c : OffsetCfg ℝ) (tolerance N : ℝ) : Prop where
  limit : c.join = .miter → c.miterLim = miterLimOf tolerance
  arc : c.join = .round → c.arc = ⟨N / (2 * Real.pi), Real.cos (2 * Real.pi / N),
    if c.delta < 0 then -Real.sin (2 * Real.pi / N) else Real.sin (2 * Real.pi / N)⟩
  nonzero : c.delta ≠ 0

theorem near_side (c : OffsetCfg ℝ) (v : IPt) (s : IPt × IPt) : Near v (c.delta * (rightward s).1, c.delta * (rightward s).2)
    (gridNear v ((rightward s).1 * c.delta, (rightward s).2 * c.delta)) := by
  have := gridNear_near v ((rightward s).1 * c.delta, (rightward s).2 * c.delta)
  simpa [mul_comm] using this

section Corner
variable {c : OffsetCfg ℝ} {tolerance N : ℝ} (hcfg : CfgFor c tolerance N) {k j : IPt × IPt}
  (hk : dotP (rightward k) (rightward k) = 1) (hj : dotP (rightward j) (rightward j) = 1) (v : IPt)
include hcfg hk hj

theorem round_arc (hjoin : c.join = .round) :
    OnArc c.delta N k j v (doRound realNum c.arc c.delta (sinTurn k j) (rightward k) (rightward j) v) := by
  obtain ⟨A, hA, h1, h2, h3, h4⟩ := angle_exists hk hj
  have hcos : (rightward k).1 * (rightward j).1 + (rightward k).2 * (rightward j).2 = cosTurn k j := rfl
  unfold doRound
  rw [hcos, ← hA]
  simp only []
  have harc := hcfg.arc hjoin
  refine ⟨A, h1, h2, h3, h4, (max (clipRound (c.arc.perRad * |A|)) 1).toNat, by omega, ?_, _, _, rfl, arcLoop_length _ _ _ _ _, ?_, ?_⟩
  · have hp : c.arc.perRad = N / (2 * Real.pi) := by rw [harc]
    rw [hp]
    rcases le_total (clipRound (N / (2 * Real.pi) * |A|)) 1 with h | h
    · right; rw [max_eq_right h]; rfl
    · left
      rw [max_eq_left h]
      have := clipRound_near (N / (2 * Real.pi) * |A|)
      have e : (((clipRound (N / (2 * Real.pi) * |A|)).toNat : ℝ)) = ((clipRound (N / (2 * Real.pi) * |A|) : Int) : ℝ) := by
        have : (((clipRound (N / (2 * Real.pi) * |A|)).toNat : Int)) = clipRound (N / (2 * Real.pi) * |A|) := Int.toNat_of_nonneg (by omega)
        exact_mod_cast this
      rw [e]
      exact this
  · intro i p hp
    refine ⟨_, rfl, ?_⟩
    by_cases hd : c.delta < 0
    · rw [if_pos hd]
      have := arcLoop_get (arc := c.arc) (b := -(2 * Real.pi / N)) (by rw [harc, Real.cos_neg]) (by rw [harc, Real.sin_neg]; exact if_pos hd)
        c.delta v _ _ i p hp
      rw [mul_neg] at this
      exact this
    · rw [if_neg hd]
      exact arcLoop_get (arc := c.arc) (b := 2 * Real.pi / N) (by rw [harc]) (by rw [harc]; exact if_neg hd) c.delta v _ _ i p hp
  · have := gridNear_near v ((rightward j).1 * c.delta, (rightward j).2 * c.delta)
    simpa [mul_comm] using this

/-- `OffsetPoint` draws the join. -/
theorem offsetPoint_join :
    (|sinTurn k j * c.delta| < 1 ∧ 0 < cosTurn k j ∧
      offsetPoint realNum c (rightward k) (rightward j) v = ([gridNear v ((rightward k).1 * c.delta, (rightward k).2 * c.delta)], rightward k)) ∨
    ((1 ≤ |sinTurn k j * c.delta| ∨ cosTurn k j ≤ 0) ∧ ∃ pts, JoinAt c.delta (max 2 tolerance) N k j v c.join pts ∧
      offsetPoint realNum c (rightward k) (rightward j) v = (pts, rightward j)) := by
  have hsq := turn_sq hk hj
  have e1 : (rightward k).1 * (rightward j).2 - (rightward j).1 * (rightward k).2 = sinTurn k j := by unfold sinTurn crossP; ring
  have e2 : (rightward k).1 * (rightward j).1 + (rightward j).2 * (rightward k).2 = cosTurn k j := by unfold cosTurn dotP; ring
  have e3 : (rightward j).1 * (rightward k).1 + (rightward j).2 * (rightward k).2 = cosTurn k j := by unfold cosTurn dotP; ring
  have e4 : (rightward k).1 * (rightward j).1 + (rightward k).2 * (rightward j).2 = cosTurn k j := rfl
  have hclamp : (if |sinTurn k j * c.delta| < 1 then sinTurn k j else if sinTurn k j > 1 then 1 else if sinTurn k j < -1 then -1 else
      sinTurn k j) = sinTurn k j := by
    have h1 : ¬ sinTurn k j > 1 := by nlinarith
    have h2 : ¬ sinTurn k j < -1 := by nlinarith
    rw [if_neg h1, if_neg h2, ite_self]
  unfold offsetPoint
  rw [e1, e2, e3]
  simp only [hclamp]
  by_cases hst : |sinTurn k j * c.delta| < 1 ∧ cosTurn k j > 0
  · left
    refine ⟨hst.1, hst.2, ?_⟩
    rw [if_pos hst]
  · right
    refine ⟨?_, ?_⟩
    · by_cases h : |sinTurn k j * c.delta| < 1
      · exact Or.inr (not_lt.1 fun h' => hst ⟨h, h'⟩)
      · exact Or.inl (not_lt.1 h)
    rw [if_neg hst]
    by_cases hin : sinTurn k j * c.delta < 0
    · rw [if_pos hin]
      exact ⟨_, .inner hin (near_side c v k) (near_side c v j), rfl⟩
    · rw [if_neg hin]
      have hout := not_lt.1 hin
      obtain ⟨A, hA, h1, h2, h3, h4⟩ := angle_exists hk hj
      have hsquare : ∃ p q, doSquare realNum c.delta (sinTurn k j) (rightward k) (rightward j) v = [p, q] ∧ Cut c.delta k j v p q := by
        refine ⟨_, _, rfl, ?_⟩
        rw [e4, ← hA]
        exact square_cut hk hj h1 h2 h3 h4 v
      obtain ⟨p, q, hpq, hcut⟩ := hsquare
      have hjc : ∀ x, c.join = x → ∃ pts, JoinAt c.delta (max 2 tolerance) N k j v x pts ∧
          (match x with
          | .miter => if 1 + cosTurn k j ≥ c.miterLim then doMiter c.delta (1 + cosTurn k j) (rightward k) (rightward j) v
              else doSquare realNum c.delta (sinTurn k j) (rightward k) (rightward j) v
          | .square => doSquare realNum c.delta (sinTurn k j) (rightward k) (rightward j) v
          | .round => doRound realNum c.arc c.delta (sinTurn k j) (rightward k) (rightward j) v) = pts := by
        intro x hx
        cases x with
        | square => exact ⟨_, .square hout (by rw [← hpq] at *; exact hcut), hpq⟩
        | round => exact ⟨_, .round hout (round_arc hcfg hk hj v hx), rfl⟩
        | miter =>
          have hlim := hcfg.limit hx
          have hlpos : 0 < c.miterLim := by
            rw [hlim]; unfold miterLimOf
            split
            · rename_i h; positivity
            · norm_num
          by_cases hr : 1 + cosTurn k j = 0
          · simp only [hr]
            rw [if_neg (not_le.2 hlpos)]
            refine ⟨_, .cut hout ?_ hcut, hpq⟩
            intro d hd1 hd2
            exfalso
            have hc1 : cosTurn k j = -1 := by linarith
            have hR : (rightward j).1 = -(rightward k).1 ∧ (rightward j).2 = -(rightward k).2 := by
              unfold cosTurn dotP at *
              constructor <;> nlinarith [sq_nonneg ((rightward j).1 + (rightward k).1), sq_nonneg ((rightward j).2 + (rightward k).2)]
            unfold AtDistance dotP at hd1 hd2
            rw [hR.1, hR.2] at hd2
            exact hcfg.nonzero (by linarith)
          · have hs0 : sinTurn k j ≠ 0 := by
              intro h0
              rw [h0] at hsq hst
              apply hst
              refine ⟨by simp, ?_⟩
              have : (cosTurn k j - 1) * (1 + cosTurn k j) = 0 := by linarith
              have := (mul_eq_zero.1 this).resolve_right hr
              linarith
            by_cases hm : 1 + cosTurn k j ≥ c.miterLim
            · simp only []
              rw [if_pos hm]
              have hon := meet_on (δ := c.delta) hk hj hr
              refine ⟨_, .miter _ hout hon.1 hon.2 ?_ (gridNear_near v _), rfl⟩
              exact (miter_test hk hj hon.1 hon.2 hs0).2 (Or.inl (hlim ▸ hm))
            · simp only []
              rw [if_neg hm]
              refine ⟨_, .cut hout ?_ hcut, hpq⟩
              intro d hd1 hd2
              rw [← not_le, miter_test hk hj hd1 hd2 hs0, ← hlim]
              rintro (h | h)
              · exact hm h
              · exact hcfg.nonzero h
      obtain ⟨pts, hp1, hp2⟩ := hjc c.join rfl
      exact ⟨pts, hp1, by rw [← hp2]; cases c.join <;> rfl⟩

end Corner

theorem offsetLoop_along {c : OffsetCfg ℝ} {tolerance N : ℝ} (hcfg : CfgFor c tolerance N) (l : List (IPt × IPt)) (k : IPt × IPt)
    (hk : k.1 ≠ k.2) (hl : ∀ e ∈ l, e.1 ≠ e.2) :
    Along c.delta (max 2 tolerance) N c.join k l (offsetLoop realNum c (rightward k) (l.map fun e => (e.1, rightward e))) := by
  induction l generalizing k with
  | nil => exact .nil
  | cons j l ih =>
    have hj := hl j (by simp)
    simp only [List.map_cons, offsetLoop]
    rcases offsetPoint_join hcfg (rightward_unit hk) (rightward_unit hj) j.1 with ⟨h1, h2, h3⟩ | ⟨h1, pts, h2, h3⟩
    · rw [h3]
      exact .straight h1 h2 (near_side c j.1 k)
        (ih k hk fun e he => hl e (List.mem_cons_of_mem _ he))
    · rw [h3]
      exact .corner h1 h2 (ih j hj fun e he => hl e (List.mem_cons_of_mem _ he))

theorem offsetContour_drawn {c : OffsetCfg ℝ} {tolerance N : ℝ} (hcfg : CfgFor c tolerance N) {P : List IPt} (h3 : P ≠ [])
    (hd : ∀ e ∈ edges P, e.1 ≠ e.2) : Contour c.delta (max 2 tolerance) N c.join P (offsetContour realNum c P) := by
  have hn : sideNormals realNum P = (edges P).map rightward := by
    unfold sideNormals edges
    rw [List.map_zip_eq_zipWith]
    congr 1
    funext a b
    exact normal_right (a, b)
  have hz : P.zip ((edges P).map rightward) = (edges P).map fun e => (e.1, rightward e) := by
    have : P = (edges P).map Prod.fst := by unfold edges; rw [List.map_fst_zip (by simp)]
    generalize edges P = E at *
    rw [this, List.zip_map']
  have hne : edges P ≠ [] := by
    intro h
    apply h3
    have : (edges P).length = P.length := by unfold edges; simp
    rw [h] at this
    exact List.length_eq_zero_iff.1 this.symm
  refine ⟨_, List.getLast?_eq_some_getLast hne, ?_⟩
  unfold offsetContour
  simp only [hn, hz]
  have hlast : ((edges P).map rightward).getLastD (0, 0) = rightward ((edges P).getLast hne) := by
    rw [List.getLastD_eq_getLast?, List.getLast?_map, List.getLast?_eq_some_getLast hne]
    rfl
  rw [hlast]
  exact offsetLoop_along hcfg _ _ (hd _ (List.getLast_mem hne)) hd

end Gdspy
