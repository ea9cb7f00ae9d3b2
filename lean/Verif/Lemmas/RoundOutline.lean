import Verif.Lemmas.Outline
import Verif.Lemmas.RealNum
import Verif.Props.C59
import Mathlib.Tactic.Module

/-!
# Round corners, bends and ends over the real numbers
-/

set_option linter.unusedSectionVars false

namespace Gdspy

open Spec

theorem sin_ratio {u δ : ℝ} (h0 : 0 ≤ u) (h1 : u ≤ 1) (hd : |δ| < Real.pi) : 0 ≤ Real.sin (u * δ) / Real.sin δ := by
  have hp := abs_lt.1 hd
  rcases le_total 0 δ with h | h
  · exact div_nonneg (Real.sin_nonneg_of_nonneg_of_le_pi (by positivity) (by nlinarith))
      (Real.sin_nonneg_of_nonneg_of_le_pi h hp.2.le)
  · refine div_nonneg_of_nonpos ?_ ?_
    · exact Real.sin_nonpos_of_nonpos_of_neg_pi_le (by nlinarith) (by nlinarith)
    · exact Real.sin_nonpos_of_nonpos_of_neg_pi_le h hp.1.le

/-- A point of a circle. -/
noncomputable def onCircle (o : Pt ℝ) (r a : ℝ) : Pt ℝ := (o.1 + r * Real.cos a, o.2 + r * Real.sin a)

theorem onCircle_between (o : Pt ℝ) (r : ℝ) {φ δ u : ℝ} (h0 : 0 ≤ u) (h1 : u ≤ 1) (hd : |δ| < Real.pi) (hn : δ ≠ 0) :
    Between o (onCircle o r φ) (onCircle o r (φ + δ)) (onCircle o r (φ + u * δ)) := by
  have hs : Real.sin δ ≠ 0 := by
    have hp := abs_lt.1 hd
    rcases hn.lt_or_gt with h | h
    · exact (Real.sin_neg_of_neg_of_neg_pi_lt h hp.1).ne
    · exact (Real.sin_pos_of_pos_of_lt_pi h hp.2).ne'
  refine ⟨Real.sin ((1 - u) * δ) / Real.sin δ, Real.sin (u * δ) / Real.sin δ,
    sin_ratio (by linarith) (by linarith) hd, sin_ratio h0 h1 hd, ?_, ?_⟩
  all_goals
    simp only [onCircle]
    rw [show (1 - u) * δ = δ - u * δ by ring, Real.sin_sub]
    simp only [Real.cos_add, Real.sin_add]
    generalize Real.sin (u * δ) = su
    generalize Real.cos (u * δ) = cu
    have hq := Real.sin_sq_add_cos_sq δ
    field_simp
    ring_nf

theorem arcPoints_linspace (o : Pt ℝ) (r a0 a1 : ℝ) (hd : |a1 - a0| < Real.pi) (hne : a1 ≠ a0) {n : Nat} (hn : 2 ≤ n) :
    ArcPoints o (onCircle o r a0) (onCircle o r a1) ((linspace a0 a1 n).map (onCircle o r)) where
  first := by rw [List.head?_map, linspace_head _ _ (by omega)]; rfl
  last := by rw [List.getLast?_map, linspace_getLast _ _ hn]; rfl
  circle := by
    intro x hx
    obtain ⟨a, -, rfl⟩ := List.mem_map.1 hx
    simp only [dist2, onCircle]
    have h1 := Real.sin_sq_add_cos_sq a
    have h2 := Real.sin_sq_add_cos_sq a0
    linear_combination r ^ 2 * h1 - r ^ 2 * h2
  order := by
    unfold linspace
    rw [List.map_map, List.pairwise_map]
    refine List.Pairwise.imp_of_mem ?_ List.pairwise_lt_range
    intro i j hi hj hij
    have hj := List.mem_range.1 hj
    have hc : (1 : ℝ) < n := by exact_mod_cast hn
    have hpos : 0 < (n : ℝ) - 1 := by linarith
    have hij' : (i : ℝ) < j := by exact_mod_cast hij
    have hjn : (j : ℝ) ≤ n - 1 := by
      have : (j : ℝ) + 1 ≤ n := by exact_mod_cast hj
      linarith
    have hi0 : (0 : ℝ) ≤ i := by positivity
    simp only [Function.comp]
    set φ := a0 + (i : ℝ) * ((a1 - a0) / ((n : ℝ) - 1)) with hφ
    have hδ : a1 - φ = (a1 - a0) * (((n : ℝ) - 1 - i) / ((n : ℝ) - 1)) := by
      rw [hφ]; field_simp; ring
    have hk0 : 0 < ((n : ℝ) - 1 - i) / ((n : ℝ) - 1) := div_pos (by linarith) hpos
    have hk1 : ((n : ℝ) - 1 - i) / ((n : ℝ) - 1) ≤ 1 := by rw [div_le_one hpos]; linarith
    have h := onCircle_between o r (φ := φ) (δ := a1 - φ) (u := ((j : ℝ) - i) / ((n : ℝ) - 1 - i))
      (div_nonneg (by linarith) (by linarith)) (by rw [div_le_one (by linarith)]; linarith)
      (by
        rw [hδ, abs_mul, abs_of_pos hk0]
        have := abs_nonneg (a1 - a0)
        nlinarith)
      (by rw [hδ]; exact mul_ne_zero (sub_ne_zero.2 hne) hk0.ne')
    rw [show φ + (a1 - φ) = a1 by ring] at h
    have hψ : φ + ((j : ℝ) - i) / ((n : ℝ) - 1 - i) * (a1 - φ) = a0 + (j : ℝ) * ((a1 - a0) / ((n : ℝ) - 1)) := by
      have : (n : ℝ) - 1 - i ≠ 0 := by linarith
      rw [hδ, hφ]; field_simp; ring
    rwa [hψ] at h

theorem sqrt_cos_atan2 (x y : ℝ) : Real.sqrt (x ^ 2 + y ^ 2) * Real.cos (realNum.atan2 y x) = x := realNum_polar.cos x y
theorem sqrt_sin_atan2 (x y : ℝ) : Real.sqrt (x ^ 2 + y ^ 2) * Real.sin (realNum.atan2 y x) = y := realNum_polar.sin x y

theorem atan2_range (x y : ℝ) : -Real.pi < realNum.atan2 y x ∧ realNum.atan2 y x ≤ Real.pi :=
  ⟨Complex.neg_pi_lt_arg _, Complex.arg_le_pi _⟩

/-- The angles of a corner: of the normals of the sides, to the right if `left`. The turn is less than half a circle. -/
theorem cornerAngles_spec (left : Bool) (v0 v1 : Pt ℝ) (e : ℝ) (he : e = if left then 1 else -1) :
    let a := cornerAngles realNum left v0 v1
    (Real.sqrt (normSq v0) * Real.cos a.1 = e * v0.2 ∧ Real.sqrt (normSq v0) * Real.sin a.1 = -(e * v0.1)) ∧
    (Real.sqrt (normSq v1) * Real.cos a.2 = e * v1.2 ∧ Real.sqrt (normSq v1) * Real.sin a.2 = -(e * v1.1)) ∧
    |a.2 - a.1| ≤ Real.pi := by
  have base (v : Pt ℝ) :
      let b := if left then realNum.atan2 (-v.1) v.2 else realNum.atan2 v.1 (-v.2)
      Real.sqrt (normSq v) * Real.cos b = e * v.2 ∧ Real.sqrt (normSq v) * Real.sin b = -(e * v.1) ∧
        -Real.pi < b ∧ b ≤ Real.pi := by
    cases left with
    | true =>
      simp only [if_true] at he ⊢
      have h1 := sqrt_cos_atan2 v.2 (-v.1)
      have h2 := sqrt_sin_atan2 v.2 (-v.1)
      rw [show v.2 ^ 2 + (-v.1) ^ 2 = normSq v by simp only [normSq]; ring] at h1 h2
      have h3 := atan2_range v.2 (-v.1)
      subst he
      exact ⟨by linarith, by linarith, h3⟩
    | false =>
      simp only [Bool.false_eq_true, if_false] at he ⊢
      have h1 := sqrt_cos_atan2 (-v.2) v.1
      have h2 := sqrt_sin_atan2 (-v.2) v.1
      rw [show (-v.2) ^ 2 + v.1 ^ 2 = normSq v by simp only [normSq]; ring] at h1 h2
      have h3 := atan2_range (-v.2) v.1
      subst he
      exact ⟨by linarith, by linarith, h3⟩
  obtain ⟨h1, h2, h3, h4⟩ := base v0
  obtain ⟨k1, k2, k3, k4⟩ := base v1
  unfold cornerAngles
  simp only
  generalize (if left = true then realNum.atan2 (-v0.1) v0.2 else realNum.atan2 v0.1 (-v0.2)) = a0 at *
  generalize (if left = true then realNum.atan2 (-v1.1) v1.2 else realNum.atan2 v1.1 (-v1.2)) = a1 at *
  have hpi : 2 * realNum.halfpi = Real.pi := by show 2 * (Real.pi / 2) = Real.pi; ring
  rw [hpi]
  split
  · rename_i hgt
    split
    · rename_i hlt
      rw [abs_of_pos (by linarith)] at hgt
      simp only [Real.cos_add_two_pi, Real.sin_add_two_pi]
      exact ⟨⟨h1, h2⟩, ⟨k1, k2⟩, by rw [abs_le]; constructor <;> linarith⟩
    · rename_i hlt
      rw [abs_of_nonpos (by linarith)] at hgt
      simp only [Real.cos_add_two_pi, Real.sin_add_two_pi]
      exact ⟨⟨h1, h2⟩, ⟨k1, k2⟩, by rw [abs_le]; constructor <;> linarith⟩
  · rename_i hgt
    exact ⟨⟨h1, h2⟩, ⟨k1, k2⟩, not_lt.1 hgt⟩

section

variable {K : Type} [Field K] [LinearOrder K] [IsStrictOrderedRing K] [FloorRing K]

theorem beside_vec (t : Num K) (p q : Pt K) (d : K) : (beside t p q d d).vec = (q.1 - p.1, q.2 - p.2) := by
  simp only [beside, Side.vec]
  refine Prod.ext ?_ ?_ <;> simp only <;> ring

theorem beside_dist2 (t : Num K) (p q : Pt K) (d : K) :
    dist2 (beside t p q d d).1 (beside t p q d d).2 = dist2 p q := by
  simp only [beside, dist2]; ring

/-- The side on the inside of a turn of a path of constant width. -/
theorem inner_of_turn {t : Num K} (ht : Num.Polar t) {p c q : Pt K} (hp : p ≠ c) (hq : c ≠ q) {d : K}
    (h : 0 < d * (beside t p c d d).turn (beside t c q d d)) : (beside t p c d d).Inner (beside t c q d d) := by
  right
  have hT : (beside t p c d d).turn (beside t c q d d) = (c.1 - p.1) * (q.2 - c.2) - (c.2 - p.2) * (q.1 - c.1) := by
    simp only [Side.turn, beside_vec]
  rw [hT] at h
  simp only [beside_vec]
  have ha := dist2_pos_of (a := (p, c)) hp
  have hb := dist2_pos_of (a := (c, q)) hq
  simp only at ha hb
  have hα := sqrt_pos_of ht ha
  have hβ := sqrt_pos_of ht hb
  have qα := ht.sqrtSq _ ha.le
  have qβ := ht.sqrtSq _ hb.le
  simp only [beside, toLeft]
  have e1 : (c.1 - p.1) ^ 2 + (c.2 - p.2) ^ 2 = dist2 p c := by simp only [dist2]; ring
  have e2 : (q.1 - c.1) ^ 2 + (q.2 - c.2) ^ 2 = dist2 c q := by simp only [dist2]; ring
  rw [e1, e2]
  generalize t.sqrt (dist2 p c) = α at *
  generalize t.sqrt (dist2 c q) = β at *
  rw [← e1] at qα
  rw [← e2] at qβ
  generalize c.1 - p.1 = x0 at *
  generalize c.2 - p.2 = y0 at *
  generalize q.1 - c.1 = x1 at *
  generalize q.2 - c.2 = y1 at *
  generalize hTT : x0 * y1 - y0 * x1 = T at *
  have hTne : T ≠ 0 := by rintro rfl; simp at h
  have hD : x0 * x1 + y0 * y1 ≤ α * β := by
    have h1 : (x0 * x1 + y0 * y1) ^ 2 ≤ (α * β) ^ 2 := by
      rw [mul_pow, qα, qβ]
      nlinarith [sq_nonneg (x0 * y1 - y0 * x1)]
    exact le_of_sq_le_sq h1 (by positivity)
  have hdT : 0 < d / T := by
    rw [show d / T = d * T / T ^ 2 by field_simp]
    positivity
  refine ⟨-(d / T * ((α * β - (x0 * x1 + y0 * y1)) / α)), d / T * ((α * β - (x0 * x1 + y0 * y1)) / β), ?_, ?_, ?_⟩
  · have : 0 ≤ (α * β - (x0 * x1 + y0 * y1)) / α := div_nonneg (by linarith) hα.le
    have := mul_nonneg hdT.le this
    linarith
  · exact mul_nonneg hdT.le (div_nonneg (by linarith) hβ.le)
  · refine Prod.ext ?_ ?_
    · simp only
      field_simp
      rw [← hTT]
      linear_combination (-d * β * x1) * qα - (d * α * x0) * qβ
    · simp only
      field_simp
      rw [← hTT]
      linear_combination (-d * β * y1) * qα - (d * α * y0) * qβ

end

section Real

/-- What a corner between two sides at the distance `d` of the lines from `p` to `c` and from `c` to `q` has to do with the
angles of its normals. -/
theorem corner_setup {p c q : Pt ℝ} (hp : p ≠ c) (hq : c ≠ q) (d : ℝ)
    (hT : (beside realNum p c d d).turn (beside realNum c q d d) ≠ 0) (left : Bool)
    (hl : left = true ↔ 0 < (beside realNum p c d d).turn (beside realNum c q d d)) :
    ∃ σ : ℝ, σ = turnSign (beside realNum p c d d) (beside realNum c q d d) ∧ σ ^ 2 = 1 ∧
      let a := cornerAngles realNum left (psub (beside realNum p c d d).2 (beside realNum p c d d).1)
        (psub (beside realNum c q d d).2 (beside realNum c q d d).1)
      Real.cos a.1 = -(σ * (toLeft realNum (c.1 - p.1, c.2 - p.2)).1) ∧
      Real.sin a.1 = -(σ * (toLeft realNum (c.1 - p.1, c.2 - p.2)).2) ∧
      Real.cos a.2 = -(σ * (toLeft realNum (q.1 - c.1, q.2 - c.2)).1) ∧
      Real.sin a.2 = -(σ * (toLeft realNum (q.1 - c.1, q.2 - c.2)).2) ∧
      |a.2 - a.1| < Real.pi ∧ 0 < σ * (a.2 - a.1) := by
  have hv0 : psub (beside realNum p c d d).2 (beside realNum p c d d).1 = (c.1 - p.1, c.2 - p.2) := beside_vec realNum p c d
  have hv1 : psub (beside realNum c q d d).2 (beside realNum c q d d).1 = (q.1 - c.1, q.2 - c.2) := beside_vec realNum c q d
  have hTT : (beside realNum p c d d).turn (beside realNum c q d d) =
      (c.1 - p.1) * (q.2 - c.2) - (c.2 - p.2) * (q.1 - c.1) := by
    simp only [Side.turn, beside_vec]
  refine ⟨_, rfl, by unfold turnSign; split <;> norm_num, ?_⟩
  have he : turnSign (beside realNum p c d d) (beside realNum c q d d) = if left then 1 else -1 := by
    unfold turnSign
    by_cases h : 0 < (beside realNum p c d d).turn (beside realNum c q d d)
    · rw [if_pos h, if_pos (hl.2 h)]
    · rw [if_neg h, if_neg fun h' => h (hl.1 h')]
  have hsT : 0 < turnSign (beside realNum p c d d) (beside realNum c q d d) *
      ((c.1 - p.1) * (q.2 - c.2) - (c.2 - p.2) * (q.1 - c.1)) := by
    rw [← hTT]
    unfold turnSign
    split
    · linarith
    · have : (beside realNum p c d d).turn (beside realNum c q d d) < 0 := lt_of_le_of_ne (not_lt.1 ‹_›) hT
      linarith
  have h3 := cornerAngles_spec left (psub (beside realNum p c d d).2 (beside realNum p c d d).1)
    (psub (beside realNum c q d d).2 (beside realNum c q d d).1) _ he
  rw [hv0, hv1] at h3 ⊢
  generalize turnSign (beside realNum p c d d) (beside realNum c q d d) = σ at *
  have hs2 : σ ^ 2 = 1 := by rw [he]; split <;> norm_num
  simp only at h3 ⊢
  generalize cornerAngles realNum left (c.1 - p.1, c.2 - p.2) (q.1 - c.1, q.2 - c.2) = a at *
  obtain ⟨⟨h1, h2⟩, ⟨k1, k2⟩, hle⟩ := h3
  have e1 : normSq (c.1 - p.1, c.2 - p.2) = dist2 p c := by simp only [normSq, dist2]; ring
  have e2 : normSq (q.1 - c.1, q.2 - c.2) = dist2 c q := by simp only [normSq, dist2]; ring
  have ha := dist2_pos_of (a := (p, c)) hp
  have hb := dist2_pos_of (a := (c, q)) hq
  have hα := Real.sqrt_pos.2 ha
  have hβ := Real.sqrt_pos.2 hb
  simp only at ha hb hα hβ
  have f1 : (c.1 - p.1) ^ 2 + (c.2 - p.2) ^ 2 = dist2 p c := by simp only [dist2]; ring
  have f2 : (q.1 - c.1) ^ 2 + (q.2 - c.2) ^ 2 = dist2 c q := by simp only [dist2]; ring
  rw [e1] at h1 h2
  rw [e2] at k1 k2
  have hsq (x : ℝ) : realNum.sqrt x = Real.sqrt x := rfl
  simp only [toLeft, hsq, f1, f2]
  generalize Real.sqrt (dist2 p c) = α at *
  generalize Real.sqrt (dist2 c q) = β at *
  have hsin : Real.sin (a.2 - a.1) * (α * β) = (c.1 - p.1) * (q.2 - c.2) - (c.2 - p.2) * (q.1 - c.1) := by
    rw [Real.sin_sub]
    linear_combination (β * Real.sin a.2) * h1 + σ * (c.2 - p.2) * k2 - (α * Real.sin a.1) * k1 - σ * (q.2 - c.2) * h2
      + ((c.1 - p.1) * (q.2 - c.2) - (c.2 - p.2) * (q.1 - c.1)) * hs2
  have hpos : 0 < σ * Real.sin (a.2 - a.1) := by
    have hab : 0 < α * β := mul_pos hα hβ
    rw [← hsin] at hsT
    by_contra hc
    have : σ * Real.sin (a.2 - a.1) * (α * β) ≤ 0 := mul_nonpos_of_nonpos_of_nonneg (not_lt.1 hc) hab.le
    linarith
  have hlt : |a.2 - a.1| < Real.pi := by
    refine lt_of_le_of_ne hle fun h => ?_
    rcases abs_eq (Real.pi_pos.le) |>.1 h with h | h
    · rw [h] at hpos; simp at hpos
    · rw [h] at hpos; simp at hpos
  refine ⟨?_, ?_, ?_, ?_, hlt, ?_⟩
  · field_simp; linarith
  · field_simp; linarith
  · field_simp; linarith
  · field_simp; linarith
  · have hb := abs_lt.1 hlt
    have hσ : σ = 1 ∨ σ = -1 := by
      have : (σ - 1) * (σ + 1) = 0 := by linear_combination hs2
      rcases mul_eq_zero.1 this with h | h
      · left; linarith
      · right; linarith
    by_contra hc
    have hc := not_lt.1 hc
    rcases hσ with rfl | rfl
    · have := Real.sin_nonpos_of_nonpos_of_neg_pi_le (x := a.2 - a.1) (by linarith) hb.1.le
      linarith
    · have := Real.sin_nonneg_of_nonneg_of_le_pi (x := a.2 - a.1) (by linarith) hb.2.le
      linarith

/-- A round corner of a path of constant width. -/
theorem round_ok (ctx : FlexCtx ℝ) (hc : ctx.num = realNum) (tol : ℝ) (rad : Option ℝ) {p c q : Pt ℝ} (hp : p ≠ c)
    (hq : c ≠ q) {w s : ℝ} (hw : 0 < w) (hs : s = 1 ∨ s = -1) {g : List (Pt ℝ)}
    (hg : flexCorner ctx tol rad .round (jointOf (beside realNum p c (s * (w / 2)) (s * (w / 2)))
      (beside realNum c q (s * (w / 2)) (s * (w / 2))) c (w / 2)) = .ok g) :
    CornerOk realNum rad .round (beside realNum p c (s * (w / 2)) (s * (w / 2)))
      (beside realNum c q (s * (w / 2)) (s * (w / 2))) c w g := by
  have ha := beside_ne realNum hp (s * (w / 2)) (s * (w / 2))
  have hb := beside_ne realNum hq (s * (w / 2)) (s * (w / 2))
  have hin := inner_of_turn realNum_polar hp hq (d := s * (w / 2))
  have hset := corner_setup hp hq (s * (w / 2))
  have hz : (beside realNum p c (s * (w / 2)) (s * (w / 2))).2 =
      (c.1 + s * (w / 2) * (toLeft realNum (c.1 - p.1, c.2 - p.2)).1,
       c.2 + s * (w / 2) * (toLeft realNum (c.1 - p.1, c.2 - p.2)).2) := rfl
  have hz1 : (beside realNum c q (s * (w / 2)) (s * (w / 2))).1 =
      (c.1 + s * (w / 2) * (toLeft realNum (q.1 - c.1, q.2 - c.2)).1,
       c.2 + s * (w / 2) * (toLeft realNum (q.1 - c.1, q.2 - c.2)).2) := rfl
  generalize beside realNum p c (s * (w / 2)) (s * (w / 2)) = a at *
  generalize beside realNum c q (s * (w / 2)) (s * (w / 2)) = b at *
  have hf : flexCorner ctx tol rad .round (jointOf a b c (w / 2)) =
      if (crossOf (jointOf a b c (w / 2))).1 ≤ 0 ∧ 0 ≤ (crossOf (jointOf a b c (w / 2))).2.1 then
        .ok [(crossOf (jointOf a b c (w / 2))).2.2]
      else (do
        let x := cornerAngles ctx.num (decide ((psub a.2 a.1).2 * (psub b.2 b.1).1 - (psub a.2 a.1).1 * (psub b.2 b.1).2 < 0))
          (psub a.2 a.1) (psub b.2 b.1)
        let k ← (flexSteps ctx.num (|x.2 - x.1|) tol (w / 2))
        .ok ((arcAround ctx.num (w / 2) x.1 x.2 (max 4 (1 + k)).toNat).map (padd c))) := rfl
  rw [hf] at hg
  refine ⟨fun hi => ?_, fun hi => ?_⟩
  · rw [if_pos ((crossOf_inner ha hb c (w / 2)).2 hi)] at hg
    cases hg
    exact ⟨_, rfl, crossOf_meet ha hb c (w / 2)⟩
  · rw [if_neg fun h => hi ((crossOf_inner ha hb c (w / 2)).1 h), hc] at hg
    have hst : ¬ a.Straight b := fun h => hi (.inl h)
    have hT := turn_ne ha hb hst
    have hsT : ¬ 0 < s * (w / 2) * a.turn b := fun h => hi (hin h)
    have hdec : (decide ((psub a.2 a.1).2 * (psub b.2 b.1).1 - (psub a.2 a.1).1 * (psub b.2 b.1).2 < 0) = true) ↔
        0 < a.turn b := by
      rw [decide_eq_true_iff]
      have : (psub a.2 a.1).2 * (psub b.2 b.1).1 - (psub a.2 a.1).1 * (psub b.2 b.1).2 = -a.turn b := by
        simp only [psub, Side.turn, Side.vec]; ring
      rw [this]
      constructor <;> intro h <;> linarith
    obtain ⟨σ, hσ, -, h3⟩ := hset hT _ hdec
    have hσs : σ = -s := by
      rw [hσ]
      unfold turnSign
      rcases hs with rfl | rfl
      · rw [if_neg]
        intro h; apply hsT; positivity
      · rw [if_pos]
        · norm_num
        · rcases lt_or_gt_of_ne hT with h | h
          · exfalso; apply hsT; nlinarith
          · exact h
    simp only at h3 hg
    generalize cornerAngles realNum (decide ((psub a.2 a.1).2 * (psub b.2 b.1).1 - (psub a.2 a.1).1 * (psub b.2 b.1).2 < 0))
          (psub a.2 a.1) (psub b.2 b.1) = x at h3 hg
    obtain ⟨h1, h2, k1, k2, hlt, hpos⟩ := h3
    simp only [bind, Except.bind] at hg
    cases hk : flexSteps realNum |x.2 - x.1| tol (w / 2) with
    | error e => rw [hk] at hg; cases hg
    | ok k =>
      rw [hk] at hg
      cases hg
      have hn : 4 ≤ (max 4 (1 + k)).toNat := by omega
      have hmap : ((arcAround realNum (w / 2) x.1 x.2 (max 4 (1 + k)).toNat).map (padd c)) =
          (linspace x.1 x.2 (max 4 (1 + k)).toNat).map (onCircle c (w / 2)) := by
        unfold arcAround
        rw [List.map_map]
        rfl
      rw [hmap]
      refine ⟨by simp [linspace_len], ?_⟩
      have := arcPoints_linspace c (w / 2) x.1 x.2 hlt (by intro h; rw [h] at hpos; simp at hpos) (n := (max 4 (1 + k)).toNat)
        (by omega)
      have e1 : onCircle c (w / 2) x.1 = a.2 := by
        rw [hz, onCircle, h1, h2, hσs]
        refine Prod.ext ?_ ?_ <;> simp only <;> ring
      have e2 : onCircle c (w / 2) x.2 = b.1 := by
        rw [hz1, onCircle, k1, k2, hσs]
        refine Prod.ext ?_ ?_ <;> simp only <;> ring
      rwa [e1, e2] at this

set_option maxHeartbeats 2000000 in
/-- A circular bend of a path of constant width. -/
theorem bend_ok (ctx : FlexCtx ℝ) (hc : ctx.num = realNum) (tol : ℝ) (rad : Option ℝ) {p c q : Pt ℝ} (hp : p ≠ c)
    (hq : c ≠ q) {w s : ℝ} (hw : 0 < w) (hs : s = 1 ∨ s = -1) {g : List (Pt ℝ)}
    (hg : flexCorner ctx tol rad .bend (jointOf (beside realNum p c (s * (w / 2)) (s * (w / 2)))
      (beside realNum c q (s * (w / 2)) (s * (w / 2))) c (w / 2)) = .ok g) :
    CornerOk realNum rad .bend (beside realNum p c (s * (w / 2)) (s * (w / 2)))
      (beside realNum c q (s * (w / 2)) (s * (w / 2))) c w g := by
  have hset := corner_setup hp hq (s * (w / 2))
  have hz : (beside realNum p c (s * (w / 2)) (s * (w / 2))).2 =
      (c.1 + s * (w / 2) * (toLeft realNum (c.1 - p.1, c.2 - p.2)).1,
       c.2 + s * (w / 2) * (toLeft realNum (c.1 - p.1, c.2 - p.2)).2) := rfl
  have hz1 : (beside realNum c q (s * (w / 2)) (s * (w / 2))).1 =
      (c.1 + s * (w / 2) * (toLeft realNum (q.1 - c.1, q.2 - c.2)).1,
       c.2 + s * (w / 2) * (toLeft realNum (q.1 - c.1, q.2 - c.2)).2) := rfl
  have hva := beside_vec realNum p c (s * (w / 2))
  have hvb := beside_vec realNum c q (s * (w / 2))
  have hda := beside_dist2 realNum p c (s * (w / 2))
  have hdb := beside_dist2 realNum c q (s * (w / 2))
  generalize beside realNum p c (s * (w / 2)) (s * (w / 2)) = a at *
  generalize beside realNum c q (s * (w / 2)) (s * (w / 2)) = b at *
  have hcr : vcross (psub a.2 a.1) (psub b.2 b.1) = a.turn b := by
    simp only [vcross, psub, Side.turn, Side.vec]
  have hf : flexCorner ctx tol rad .bend (jointOf a b c (w / 2)) = bendCorner ctx.num tol rad (jointOf a b c (w / 2)) := rfl
  rw [hf, hc] at hg
  unfold bendCorner at hg
  simp only [jointOf, hcr] at hg
  refine ⟨fun h0 => ?_, fun h0 => ?_⟩
  · rw [if_pos h0] at hg
    cases hg
    rfl
  rw [if_neg h0] at hg
  cases rad with
  | none => cases hg
  | some br =>
    simp only [bind, Except.bind] at hg
    obtain ⟨σ, hσ, hs2, h3⟩ := hset h0 (decide (a.turn b > 0)) (by rw [decide_eq_true_iff])
    simp only at h3
    generalize cornerAngles realNum (decide (a.turn b > 0)) (psub a.2 a.1) (psub b.2 b.1) = x at h3 hg
    obtain ⟨h1, h2, k1, k2, hlt, hpos⟩ := h3
    -- the unit vectors
    have ha := dist2_pos_of (a := (p, c)) hp
    have hb := dist2_pos_of (a := (c, q)) hq
    simp only at ha hb
    have hα := Real.sqrt_pos.2 ha
    have hβ := Real.sqrt_pos.2 hb
    have qα := Real.sq_sqrt ha.le
    have qβ := Real.sq_sqrt hb.le
    have f1 : (c.1 - p.1) ^ 2 + (c.2 - p.2) ^ 2 = dist2 p c := by simp only [dist2]; ring
    have f2 : (q.1 - c.1) ^ 2 + (q.2 - c.2) ^ 2 = dist2 c q := by simp only [dist2]; ring
    have hsq (y : ℝ) : realNum.sqrt y = Real.sqrt y := rfl
    have hcos (y : ℝ) : realNum.cos y = Real.cos y := rfl
    have hsin (y : ℝ) : realNum.sin y = Real.sin y := rfl
    have hr : (if a.turn b * vcross (psub a.2 a.1) (psub a.2 c) > 0 then br - w / 2 else br + w / 2) =
        br - σ * s * (w / 2) := by
      have hv : vcross (psub a.2 a.1) (psub a.2 c) = s * (w / 2) * Real.sqrt (dist2 p c) := by
        have : psub a.2 a.1 = (c.1 - p.1, c.2 - p.2) := hva
        rw [this, hz]
        simp only [vcross, psub, toLeft, hsq, f1]
        field_simp
        rw [qα, ← f1]
        ring
      rw [hv, hσ]
      unfold turnSign
      have hk : 0 < w / 2 * Real.sqrt (dist2 p c) := by positivity
      rcases lt_or_gt_of_ne h0 with hT | hT
      · rw [if_neg (not_lt.2 hT.le)]
        rcases hs with rfl | rfl
        · rw [if_neg (by nlinarith)]; ring
        · rw [if_pos (by nlinarith)]; ring
      · rw [if_pos hT]
        rcases hs with rfl | rfl
        · rw [if_pos (by nlinarith)]; ring
        · rw [if_neg (by nlinarith)]; ring
    rw [hr] at hg
    cases hk : flexSteps realNum |x.2 - x.1| tol (br - σ * s * (w / 2)) with
    | error e => rw [hk] at hg; cases hg
    | ok k =>
      rw [hk] at hg
      simp only [Except.ok.injEq] at hg
      have hna : normSq (psub a.2 a.1) = dist2 p c := by rw [dist2_normSq, hda]
      rw [hna] at hg
      have hσ1 : σ = 1 ∨ σ = -1 := by
        have : (σ - 1) * (σ + 1) = 0 := by linear_combination hs2
        rcases mul_eq_zero.1 this with h | h
        · left; linarith
        · right; linarith
      -- half the turn
      have hhalf : Real.sin (|x.2 - x.1| / 2) / Real.cos (|x.2 - x.1| / 2) =
          σ * (Real.sin ((x.2 - x.1) / 2) / Real.cos ((x.2 - x.1) / 2)) := by
        rcases hσ1 with rfl | rfl
        · rw [abs_of_pos (by linarith)]; ring
        · rw [abs_of_neg (by linarith), neg_div, Real.sin_neg, Real.cos_neg]; ring
      have hbd := abs_lt.1 hlt
      have hC : Real.cos ((x.2 - x.1) / 2) ≠ 0 :=
        (Real.cos_pos_of_mem_Ioo ⟨by linarith [hbd.1], by linarith [hbd.2]⟩).ne'
      have hcosd : Real.cos (x.2 - x.1) = 2 * Real.cos ((x.2 - x.1) / 2) ^ 2 - 1 := by
        rw [← Real.cos_two_mul]; congr 1; ring
      have hsind : Real.sin (x.2 - x.1) = 2 * Real.sin ((x.2 - x.1) / 2) * Real.cos ((x.2 - x.1) / 2) := by
        rw [← Real.sin_two_mul]; congr 1; ring
      have hpy := Real.sin_sq_add_cos_sq ((x.2 - x.1) / 2)
      generalize hτ : Real.sin ((x.2 - x.1) / 2) / Real.cos ((x.2 - x.1) / 2) = τ at *
      have t1 : 1 = Real.cos (x.2 - x.1) + τ * Real.sin (x.2 - x.1) := by
        rw [hcosd, hsind, ← hτ]; field_simp; linear_combination -2 * hpy
      have t2 : τ = Real.sin (x.2 - x.1) - τ * Real.cos (x.2 - x.1) := by
        rw [hcosd, hsind, ← hτ]; field_simp; ring
      -- the unit vectors of the second side by those of the first
      have hx2 : x.2 = x.1 + (x.2 - x.1) := by ring
      have r1 := Real.cos_add x.1 (x.2 - x.1)
      have r2 := Real.sin_add x.1 (x.2 - x.1)
      rw [← hx2] at r1 r2
      generalize Real.cos (x.2 - x.1) = cd at *
      generalize Real.sin (x.2 - x.1) = sd at *
      -- u0 = v0/α : n0 = (-u0.2, u0.1)
      have n01 : (toLeft realNum (c.1 - p.1, c.2 - p.2)).1 = -((c.2 - p.2) / Real.sqrt (dist2 p c)) := by
        simp only [toLeft, hsq, f1]; ring
      have n02 : (toLeft realNum (c.1 - p.1, c.2 - p.2)).2 = (c.1 - p.1) / Real.sqrt (dist2 p c) := by
        simp only [toLeft, hsq, f1]
      have n11 : (toLeft realNum (q.1 - c.1, q.2 - c.2)).1 = -((q.2 - c.2) / Real.sqrt (dist2 c q)) := by
        simp only [toLeft, hsq, f2]; ring
      have n12 : (toLeft realNum (q.1 - c.1, q.2 - c.2)).2 = (q.1 - c.1) / Real.sqrt (dist2 c q) := by
        simp only [toLeft, hsq, f2]
      have aha (z : Pt ℝ) (l : ℝ) : Side.ahead realNum a z l =
          (z.1 + l * ((c.1 - p.1) / Real.sqrt (dist2 p c)), z.2 + l * ((c.2 - p.2) / Real.sqrt (dist2 p c))) := by
        simp only [Side.ahead, hva, hda, hsq]
      have ahb (z : Pt ℝ) (l : ℝ) : Side.ahead realNum b z l =
          (z.1 + l * ((q.1 - c.1) / Real.sqrt (dist2 c q)), z.2 + l * ((q.2 - c.2) / Real.sqrt (dist2 c q))) := by
        simp only [Side.ahead, hvb, hdb, hsq]
      have hu0 : ((c.1 - p.1) / Real.sqrt (dist2 p c)) ^ 2 + ((c.2 - p.2) / Real.sqrt (dist2 p c)) ^ 2 = 1 := by
        rw [div_pow, div_pow, ← add_div, qα, f1, div_self ha.ne']
      have hpa1 : c.1 - p.1 = Real.sqrt (dist2 p c) * ((c.1 - p.1) / Real.sqrt (dist2 p c)) := by field_simp
      have hpa2 : c.2 - p.2 = Real.sqrt (dist2 p c) * ((c.2 - p.2) / Real.sqrt (dist2 p c)) := by field_simp
      have hpb1 : q.1 - c.1 = Real.sqrt (dist2 c q) * ((q.1 - c.1) / Real.sqrt (dist2 c q)) := by field_simp
      have hpb2 : q.2 - c.2 = Real.sqrt (dist2 c q) * ((q.2 - c.2) / Real.sqrt (dist2 c q)) := by field_simp
      rw [n01] at h1 hz
      rw [n02] at h2 hz
      rw [n11] at k1 hz1
      rw [n12] at k2 hz1
      have ea1 : a.1 = (a.2.1 - (c.1 - p.1), a.2.2 - (c.2 - p.2)) := by
        have e := congrArg Prod.fst hva
        have e' := congrArg Prod.snd hva
        simp only [Side.vec] at e e'
        exact Prod.ext (by simp only; linarith) (by simp only; linarith)
      have eb2 : b.2 = (b.1.1 + (q.1 - c.1), b.1.2 + (q.2 - c.2)) := by
        have e := congrArg Prod.fst hvb
        have e' := congrArg Prod.snd hvb
        simp only [Side.vec] at e e'
        exact Prod.ext (by simp only; linarith) (by simp only; linarith)
      have hdd : br * (realNum.sin (|x.2 - x.1| / 2) / realNum.cos (|x.2 - x.1| / 2)) / realNum.sqrt (dist2 p c) =
          br * (σ * τ) / Real.sqrt (dist2 p c) := by rw [hcos, hsin, hhalf, hsq]
      rw [hdd] at hg
      generalize hX0 : (c.1 - p.1) / Real.sqrt (dist2 p c) = X0 at *
      generalize hY0 : (c.2 - p.2) / Real.sqrt (dist2 p c) = Y0 at *
      generalize hX1 : (q.1 - c.1) / Real.sqrt (dist2 c q) = X1 at *
      generalize hY1 : (q.2 - c.2) / Real.sqrt (dist2 c q) = Y1 at *
      have hσ0 : σ ≠ 0 := by rintro rfl; norm_num at hs2
      have hX : X1 = X0 * cd - Y0 * sd := by
        rw [k2, h1, h2] at r2
        apply mul_left_cancel₀ hσ0
        linear_combination -r2
      have hY : Y1 = Y0 * cd + X0 * sd := by
        rw [k1, h1, h2] at r1
        apply mul_left_cancel₀ hσ0
        linear_combination r1
      set o : Pt ℝ := (c.1 + σ * br * -Y0 - br * (σ * τ) * X0, c.2 + σ * br * X0 - br * (σ * τ) * Y0) with ho
      have hob : o = (c.1 + σ * br * -Y1 + br * (σ * τ) * X1, c.2 + σ * br * X1 + br * (σ * τ) * Y1) := by
        rw [ho, hX, hY]
        refine Prod.ext ?_ ?_
        · simp only
          linear_combination (-σ * br * Y0) * t1 - (σ * br * X0) * t2
        · simp only
          linear_combination (σ * br * X0) * t1 - (σ * br * Y0) * t2
      refine ⟨br, o, onCircle o (br - σ * s * (w / 2)) x.1, onCircle o (br - σ * s * (w / 2)) x.2, rfl, ?_, ?_, ?_, ?_, ?_,
        ?_, ?_⟩
      · rintro v (rfl | rfl)
        · refine ⟨-(br * (σ * τ)), ?_⟩
          rw [aha, hva, n01, n02, ← hσ, ho]
          refine Prod.ext ?_ ?_ <;> simp only <;> ring
        · refine ⟨br * (σ * τ), ?_⟩
          rw [ahb, hvb, n11, n12, ← hσ, hob]
      · refine ⟨1 - br * (σ * τ) / Real.sqrt (dist2 p c), ?_⟩
        rw [ea1, hz, onCircle, h1, h2, ho]
        refine Prod.ext ?_ ?_
        · simp only
          rw [hpa1]
          field_simp
          linear_combination (-(s * w * Y0 * Real.sqrt (dist2 p c))) * hs2
        · simp only
          rw [hpa2]
          field_simp
          linear_combination (s * w * X0 * Real.sqrt (dist2 p c)) * hs2
      · refine ⟨br * (σ * τ) / Real.sqrt (dist2 c q), ?_⟩
        rw [eb2, hz1, onCircle, k1, k2, hob]
        refine Prod.ext ?_ ?_
        · simp only
          rw [hpb1]
          field_simp
          linear_combination (-(s * w * Y1 * Real.sqrt (dist2 c q))) * hs2
        · simp only
          rw [hpb2]
          field_simp
          linear_combination (s * w * X1 * Real.sqrt (dist2 c q)) * hs2
      · rw [hva, onCircle, h1, h2]
        simp only
        rw [hpa1, hpa2]
        ring
      · rw [hvb, onCircle, k1, k2]
        simp only
        rw [hpb1, hpb2]
        ring
      · rw [← hg]
        simp [arcAround, linspace_len]
      · have := arcPoints_linspace o (br - σ * s * (w / 2)) x.1 x.2 hlt (by intro h; rw [h] at hpos; simp at hpos)
          (n := (max 2 (1 + k)).toNat) (by omega)
        convert this using 1
        rw [← hg]
        have hhd : (arcAround realNum (br - σ * s * (w / 2)) x.1 x.2 (max 2 (1 + k)).toNat).headD (0, 0) =
            ((br - σ * s * (w / 2)) * Real.cos x.1, (br - σ * s * (w / 2)) * Real.sin x.1) := by
          rw [List.headD_eq_head?_getD, arcAround, List.head?_map, linspace_head _ _ (by omega)]
          rfl
        rw [hhd, arcAround, List.map_map]
        refine List.map_congr_left fun y _ => ?_
        have hv0 : psub a.2 a.1 = (c.1 - p.1, c.2 - p.2) := hva
        simp only [Function.comp, hv0]
        simp only [psub, padd, psmul, onCircle, hz, ho, h1, h2, hcos, hsin]
        refine Prod.ext ?_ ?_
        · simp only
          rw [hpa1]
          field_simp
          linear_combination (s * w * Y0) * hs2
        · simp only
          rw [hpa2]
          field_simp
          linear_combination (-s * w * X0) * hs2

/-- The points of a round cap, from right to left. -/
theorem roundCap_ok {tol : ℝ} {p v : Pt ℝ} (hv : v ≠ (0, 0)) {r sign : ℝ} (hr : 0 < r) (hs : sign = 1 ∨ sign = -1)
    {g : List (Pt ℝ)} (hg : roundCap realNum tol p v r sign = .ok g) (u : Pt ℝ)
    (hu : u = (v.1 / Real.sqrt (normSq v), v.2 / Real.sqrt (normSq v))) :
    5 ≤ g.length ∧ g.head? = some (p.1 + sign * r * u.2, p.2 - sign * r * u.1) ∧
      g.getLast? = some (p.1 - sign * r * u.2, p.2 + sign * r * u.1) ∧
      (∀ x ∈ g, dist2 p x = r ^ 2 ∧ 0 ≤ (x.1 - p.1) * u.1 + (x.2 - p.2) * u.2) ∧
      g.Pairwise fun x y => 0 ≤ (x.1 - y.1) * (sign * r * u.2) + (x.2 - y.2) * (-(sign * r * u.1)) := by
  have hn : 0 < normSq v := by
    unfold normSq
    rcases eq_or_ne v.1 0 with h1 | h1
    · have h2 : v.2 ≠ 0 := fun h2 => hv (Prod.ext h1 h2)
      positivity
    · positivity
  have hα := Real.sqrt_pos.2 hn
  have hc := sqrt_cos_atan2 v.1 v.2
  have hsn := sqrt_sin_atan2 v.1 v.2
  have hu1 : u.1 = Real.cos (realNum.atan2 v.2 v.1) := by
    rw [hu]
    simp only
    rw [div_eq_iff hα.ne']
    exact (mul_comm _ _).trans hc |>.symm
  have hu2 : u.2 = Real.sin (realNum.atan2 v.2 v.1) := by
    rw [hu]
    simp only
    rw [div_eq_iff hα.ne']
    exact (mul_comm _ _).trans hsn |>.symm
  rw [hu1, hu2]
  unfold roundCap at hg
  simp only [bind, Except.bind] at hg
  generalize realNum.atan2 v.2 v.1 = θ at *
  cases hk : flexSteps realNum (2 * realNum.halfpi) tol r with
  | error e => rw [hk] at hg; cases hg
  | ok k =>
    rw [hk] at hg
    simp only [Except.ok.injEq] at hg
    have hp2 : realNum.halfpi = Real.pi / 2 := rfl
    rw [hp2] at hg
    have hg' : g = (linspace (-(Real.pi / 2)) (Real.pi / 2) (max 5 (1 + k)).toNat).map
        fun a => onCircle p r (sign * a + θ) := hg.symm
    have hm : 5 ≤ (max 5 (1 + k)).toNat := by omega
    generalize (max 5 (1 + k)).toNat = m at hg' hm
    have hs2 : sign ^ 2 = 1 := by rcases hs with rfl | rfl <;> norm_num
    have hpi := Real.pi_pos
    have hsg (a : ℝ) : Real.cos (sign * a) = Real.cos a ∧ Real.sin (sign * a) = sign * Real.sin a := by
      rcases hs with rfl | rfl <;> simp
    have hpy := Real.sin_sq_add_cos_sq θ
    subst hg'
    refine ⟨by simpa [linspace_len] using hm, ?_, ?_, ?_, ?_⟩
    · rw [List.head?_map, linspace_head _ _ (by omega)]
      simp only [Option.map_some, onCircle, Real.cos_add, Real.sin_add, hsg, Real.cos_neg, Real.sin_neg,
        Real.cos_pi_div_two, Real.sin_pi_div_two]
      congr 1
      refine Prod.ext ?_ ?_ <;> simp only <;> ring
    · rw [List.getLast?_map, linspace_getLast _ _ (by omega)]
      simp only [Option.map_some, onCircle, Real.cos_add, Real.sin_add, hsg, Real.cos_pi_div_two, Real.sin_pi_div_two]
      congr 1
      refine Prod.ext ?_ ?_ <;> simp only <;> ring
    · intro x hx
      obtain ⟨a, ha, rfl⟩ := List.mem_map.1 hx
      have hab := linspace_range (a := -(Real.pi / 2)) (b := Real.pi / 2) (by linarith) (by omega) a ha
      have hca := Real.cos_nonneg_of_mem_Icc ⟨hab.1, hab.2⟩
      constructor
      · simp only [dist2, onCircle]
        have := Real.sin_sq_add_cos_sq (sign * a + θ)
        linear_combination r ^ 2 * this
      · simp only [onCircle, Real.cos_add, Real.sin_add, hsg]
        have : (p.1 + r * (Real.cos a * Real.cos θ - sign * Real.sin a * Real.sin θ) - p.1) * Real.cos θ +
            (p.2 + r * (sign * Real.sin a * Real.cos θ + Real.cos a * Real.sin θ) - p.2) * Real.sin θ = r * Real.cos a := by
          linear_combination r * Real.cos a * hpy
        rw [this]
        positivity
    · rw [List.pairwise_map]
      refine List.Pairwise.imp_of_mem ?_ (linspace_inc (by linarith : -(Real.pi / 2) < Real.pi / 2) (by omega))
      intro a b ha hb hab
      have h1 := linspace_range (a := -(Real.pi / 2)) (b := Real.pi / 2) (by linarith) (by omega) a ha
      have h2 := linspace_range (a := -(Real.pi / 2)) (b := Real.pi / 2) (by linarith) (by omega) b hb
      have hmono := Real.sin_le_sin_of_le_of_le_pi_div_two h1.1 h2.2 hab.le
      simp only [onCircle, Real.cos_add, Real.sin_add, hsg]
      have : (p.1 + r * (Real.cos a * Real.cos θ - sign * Real.sin a * Real.sin θ) -
            (p.1 + r * (Real.cos b * Real.cos θ - sign * Real.sin b * Real.sin θ))) * (sign * r * Real.sin θ) +
          (p.2 + r * (sign * Real.sin a * Real.cos θ + Real.cos a * Real.sin θ) -
            (p.2 + r * (sign * Real.sin b * Real.cos θ + Real.cos b * Real.sin θ))) * -(sign * r * Real.cos θ) =
          r ^ 2 * (Real.sin b - Real.sin a) := by
        linear_combination (r ^ 2 * (Real.sin b - Real.sin a) * sign ^ 2) * hpy + (r ^ 2 * (Real.sin b - Real.sin a)) * hs2
      rw [this]
      have : 0 ≤ Real.sin b - Real.sin a := by linarith
      positivity

theorem roundCap_begin {ctx : FlexCtx ℝ} (hc : ctx.num = realNum) (tol : ℝ) {p q : Pt ℝ} (hpq : p ≠ q) {w : ℝ} (hw : 0 < w)
    (b0 b1 : Option (Pt ℝ)) (w1 : ℝ) {g : List (Pt ℝ)}
    (hg : flexCap ctx tol .round (beside ctx.num p q (-1 * (w / 2)) (-1 * (w1 / 2))).1
        (beside ctx.num p q (1 * (w / 2)) (1 * (w1 / 2))).1 b0 b1 p (psub p q) w (-1) Prod.fst = .ok g) (d : ℝ) :
    EndOk .round p (beside ctx.num p q (-1 * (w / 2)) (-1 * (w1 / 2))).1 (beside ctx.num p q (1 * (w / 2)) (1 * (w1 / 2))).1
        (Side.ahead ctx.num (q, p) (0, 0) 1) w d g := by
  simp only [flexCap] at hg
  rw [hc] at hg ⊢
  have hn : normSq (psub p q) = dist2 q p := by simp only [normSq, psub, dist2]; ring
  have hsq (y : ℝ) : realNum.sqrt y = Real.sqrt y := rfl
  have hu : Side.ahead realNum (q, p) (0, 0) 1 =
      ((psub p q).1 / Real.sqrt (normSq (psub p q)), (psub p q).2 / Real.sqrt (normSq (psub p q))) := by
    rw [hn]
    simp only [Side.ahead, Side.vec, psub, hsq]
    refine Prod.ext ?_ ?_ <;> simp only <;> ring
  obtain ⟨h1, h2, h3, h4, h5⟩ := roundCap_ok (fun h => hpq (by
    simp only [psub, Prod.mk.injEq] at h
    exact Prod.ext (by linarith [h.1]) (by linarith [h.2]))) (half_pos hw) (.inr rfl) hg _ hu
  have hn2 : (q.1 - p.1) ^ 2 + (q.2 - p.2) ^ 2 = dist2 q p := rfl
  have hr : (beside realNum p q (-1 * (w / 2)) (-1 * (w1 / 2))).1 =
      (p.1 + -1 * (w / 2) * (Side.ahead realNum (q, p) (0, 0) 1).2, p.2 - -1 * (w / 2) * (Side.ahead realNum (q, p) (0, 0) 1).1) := by
    simp only [beside, toLeft, Side.ahead, Side.vec, hn2]
    refine Prod.ext ?_ ?_ <;> simp only <;> ring
  have hl : (beside realNum p q (1 * (w / 2)) (1 * (w1 / 2))).1 =
      (p.1 - -1 * (w / 2) * (Side.ahead realNum (q, p) (0, 0) 1).2, p.2 + -1 * (w / 2) * (Side.ahead realNum (q, p) (0, 0) 1).1) := by
    simp only [beside, toLeft, Side.ahead, Side.vec, hn2]
    refine Prod.ext ?_ ?_ <;> simp only <;> ring
  rw [hr, hl]
  refine ⟨h1, h2, h3, h4, h5.imp fun {x y} h => ?_⟩
  simp only
  linarith

theorem roundCap_end {ctx : FlexCtx ℝ} (hc : ctx.num = realNum) (tol : ℝ) {p q : Pt ℝ} (hpq : p ≠ q) {w : ℝ} (hw : 0 < w)
    (b0 b1 : Option (Pt ℝ)) (w1 : ℝ) {g : List (Pt ℝ)}
    (hg : flexCap ctx tol .round (beside ctx.num q p (-1 * (w1 / 2)) (-1 * (w / 2))).2
        (beside ctx.num q p (1 * (w1 / 2)) (1 * (w / 2))).2 b0 b1 p (psub p q) w 1 Prod.snd = .ok g) (d : ℝ) :
    EndOk .round p (beside ctx.num q p (-1 * (w1 / 2)) (-1 * (w / 2))).2 (beside ctx.num q p (1 * (w1 / 2)) (1 * (w / 2))).2
        (Side.ahead ctx.num (q, p) (0, 0) 1) w d g := by
  simp only [flexCap] at hg
  rw [hc] at hg ⊢
  have hn : normSq (psub p q) = dist2 q p := by simp only [normSq, psub, dist2]; ring
  have hsq (y : ℝ) : realNum.sqrt y = Real.sqrt y := rfl
  have hu : Side.ahead realNum (q, p) (0, 0) 1 =
      ((psub p q).1 / Real.sqrt (normSq (psub p q)), (psub p q).2 / Real.sqrt (normSq (psub p q))) := by
    rw [hn]
    simp only [Side.ahead, Side.vec, psub, hsq]
    refine Prod.ext ?_ ?_ <;> simp only <;> ring
  obtain ⟨h1, h2, h3, h4, h5⟩ := roundCap_ok (fun h => hpq (by
    simp only [psub, Prod.mk.injEq] at h
    exact Prod.ext (by linarith [h.1]) (by linarith [h.2]))) (half_pos hw) (.inl rfl) hg _ hu
  have hn2 : (p.1 - q.1) ^ 2 + (p.2 - q.2) ^ 2 = dist2 q p := by simp only [dist2]; ring
  have hr : (beside realNum q p (-1 * (w1 / 2)) (-1 * (w / 2))).2 =
      (p.1 + 1 * (w / 2) * (Side.ahead realNum (q, p) (0, 0) 1).2, p.2 - 1 * (w / 2) * (Side.ahead realNum (q, p) (0, 0) 1).1) := by
    simp only [beside, toLeft, Side.ahead, Side.vec, hn2]
    refine Prod.ext ?_ ?_ <;> simp only <;> ring
  have hl : (beside realNum q p (1 * (w1 / 2)) (1 * (w / 2))).2 =
      (p.1 - 1 * (w / 2) * (Side.ahead realNum (q, p) (0, 0) 1).2, p.2 + 1 * (w / 2) * (Side.ahead realNum (q, p) (0, 0) 1).1) := by
    simp only [beside, toLeft, Side.ahead, Side.vec, hn2]
    refine Prod.ext ?_ ?_ <;> simp only <;> ring
  rw [hr, hl]
  refine ⟨h1, h2, h3, h4, h5.imp fun {x y} h => ?_⟩
  simp only
  linarith

end Real

end Gdspy
