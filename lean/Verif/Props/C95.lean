import Verif.Props.C93

/-!
# C95: round ends, round corners and circular bends of a FlexPath follow their circles within the tolerance

The number of segments is rounded to the nearest integer, as in C93, so that "within the tolerance" is false; the bounds are
81/64 tolerances for ends, 49/36 for round corners and 9/4 for circular bends, because there are at least 4, 3 and 1 segments.
-/

namespace Gdspy

open Spec Real

/-! ### Specification -/

/-- Some edge of the outline is within `d` of `x`. -/
def Spec.NearEdge (P : Pgon ℝ) (x : Pt ℝ) (d : ℝ) : Prop :=
  ∃ (k : ℕ) (a b : Pt ℝ), P[k]? = some a ∧ P[k + 1]? = some b ∧ NearSegment a b x d

/-- The half of the circle of diameter `w` about `c` that is ahead when going from `p` to `c`. -/
def Spec.HalfCircle (p c : Pt ℝ) (w : ℝ) (x : Pt ℝ) : Prop :=
  dist2 c x = (w / 2) ^ 2 ∧ 0 ≤ (x.1 - c.1) * (c.1 - p.1) + (x.2 - c.2) * (c.2 - p.2)

/-! ### Chains of points -/

theorem Spec.NearEdge.inside {l : Pgon ℝ} {x : Pt ℝ} {d : ℝ} (h : NearEdge l x d) (m n : Pgon ℝ) : NearEdge (m ++ l ++ n) x d := by
  obtain ⟨k, a, b, ha, hb, hn⟩ := h
  have get : ∀ (j : ℕ) (y : Pt ℝ), l[j]? = some y → (m ++ l ++ n)[m.length + j]? = some y := by
    intro j y hj
    have hlt : j < l.length := (List.getElem?_eq_some_iff.1 hj).1
    rw [List.getElem?_append_left (by rw [List.length_append]; omega), List.getElem?_append_right (by omega),
      Nat.add_sub_cancel_left]
    exact hj
  exact ⟨m.length + k, a, b, get k a ha, get (k + 1) b hb, hn⟩

theorem Spec.NearEdge.reverse {l : Pgon ℝ} {x : Pt ℝ} {d : ℝ} (h : NearEdge l x d) : NearEdge l.reverse x d := by
  obtain ⟨k, a, b, ha, hb, hn⟩ := h
  have hlt : k + 1 < l.length := (List.getElem?_eq_some_iff.1 hb).1
  refine ⟨l.length - 2 - k, b, a, ?_, ?_, nearSegment_symm hn⟩
  · rw [List.getElem?_reverse (by omega), show l.length - 1 - (l.length - 2 - k) = k + 1 by omega]
    exact hb
  · rw [List.getElem?_reverse (by omega), show l.length - 1 - (l.length - 2 - k + 1) = k by omega]
    exact ha

theorem Spec.NearEdge.flatten {ls : List (Pgon ℝ)} {i : ℕ} {l : Pgon ℝ} {x : Pt ℝ} {d : ℝ} (hi : ls[i]? = some l) (h : NearEdge l x d) :
    NearEdge ls.flatten x d := by
  have hlt : i < ls.length := (List.getElem?_eq_some_iff.1 hi).1
  have hsplit : ls = ls.take i ++ l :: ls.drop (i + 1) := by
    have e := List.getElem?_eq_some_iff.1 hi
    obtain ⟨_, rfl⟩ := e
    simp
  rw [hsplit, List.flatten_append, List.flatten_cons, ← List.append_assoc]
  exact h.inside _ _

/-- The sagitta when there are at least `m` segments and the angle is less than `m` half turns. -/
theorem flexSteps_chord {θ tol R : ℝ} {s : ℤ} (hR : 0 < R) (hθ : 0 < θ) (h : flexSteps realNum θ tol R = .ok s) {m n : ℕ}
    (hm : 1 ≤ m) (hn : (n : ℤ) = max (m : ℤ) s) (hlt : θ < m * π) :
    θ / n < π ∧ R * (1 - cos (θ / n / 2)) ≤ (1 + 1 / (2 * m)) ^ 2 * tol := by
  unfold flexSteps at h
  rw [if_neg hR.ne'] at h
  obtain ⟨htol0, -, a, ha0, hapi, hcos, hsv⟩ := arcSteps_real hR h
  have hxnn : (0 : ℝ) ≤ θ / 2 / a + 1 / 2 := by positivity
  obtain ⟨t1, t2, t3⟩ := truncInt_bounds hxnn
  rw [← hsv] at t1 t2 t3
  have hmn : m ≤ n := by omega
  have hns : s ≤ n := by omega
  have hmn' : (m : ℝ) ≤ n := by exact_mod_cast hmn
  have hm' : (1 : ℝ) ≤ m := by exact_mod_cast hm
  have hns' : (s : ℝ) ≤ n := by exact_mod_cast hns
  have hn0 : (0 : ℝ) < n := by linarith
  have hx : θ / 2 < ((n : ℝ) + 1 / 2) * a := by
    have : θ / 2 / a < n + 1 / 2 := by linarith
    rwa [div_lt_iff₀ ha0] at this
  have hh : θ / n / 2 ≤ (1 + 1 / (2 * m)) * a := by
    rw [div_right_comm, div_le_iff₀ hn0]
    have h1 : (1 : ℝ) ≤ 1 / m * n := by
      rw [one_div, ← div_eq_inv_mul, le_div_iff₀ (by linarith)]
      linarith
    have h2 : (1 + 1 / (2 * (m : ℝ))) * a * n = (n + 1 / 2 * (1 / m * n)) * a := by field_simp
    rw [h2]
    refine hx.le.trans (mul_le_mul_of_nonneg_right (by linarith) ha0.le)
  have hst : θ / n < π := by
    rw [div_lt_iff₀ hn0]
    nlinarith [pi_pos]
  have hc1 : (1 : ℝ) ≤ 1 + 1 / (2 * m) := by
    have : (0 : ℝ) ≤ 1 / (2 * m) := by positivity
    linarith
  refine ⟨hst, ?_⟩
  have := chord_tolerance (θ / n / 2) a (1 + 1 / (2 * m)) ha0 hapi (by positivity) (by linarith [pi_pos]) hc1 hh
  calc R * (1 - cos (θ / n / 2)) ≤ R * ((1 + 1 / (2 * m)) ^ 2 * (1 - cos a)) := mul_le_mul_of_nonneg_left this hR.le
    _ = (1 + 1 / (2 * m)) ^ 2 * tol := by rw [← hcos]; ring

theorem linspace_near {θ tol R a0 a1 : ℝ} {s : ℤ} (o : Pt ℝ) (hR : 0 < R) (hne : a0 ≠ a1) (hθ : |a1 - a0| = θ)
    (h : flexSteps realNum θ tol R = .ok s) {m : ℕ} (hm : 1 ≤ m) (hlt : θ < m * π) {N : ℕ} (hN : (N : ℤ) = max ((m : ℤ) + 1) (1 + s))
    {φ : ℝ} (hφ : φ ∈ Set.uIcc a0 a1) :
    NearEdge ((linspace a0 a1 N).map (onCircle o R)) (onCircle o R φ) ((1 + 1 / (2 * m)) ^ 2 * tol) := by
  obtain ⟨n, hn⟩ : ∃ n : ℕ, (n : ℤ) = max (m : ℤ) s := ⟨(max (m : ℤ) s).toNat, by omega⟩
  have hNn : N = n + 1 := by omega
  subst hNn
  have hpos : 0 < θ := hθ ▸ abs_pos.2 (sub_ne_zero.2 hne.symm)
  obtain ⟨b1, b2⟩ := flexSteps_chord hR hpos h hm hn hlt
  obtain ⟨k, hk, hs⟩ := oval_chain o (R, R) hR.le hR.le R le_rfl le_rfl a0 a1 hne n (by omega) (by rw [hθ]; exact b1) φ hφ
  rw [hθ] at hs
  have e : ((n + 1 : ℕ) : ℝ) - 1 = n := by push_cast; ring
  refine ⟨k, _, _, ?_, ?_, NearSegment.mono hs b2⟩
  · rw [List.getElem?_map, linspace_getElem? _ _ _ _ (by omega), e]
    rfl
  · rw [List.getElem?_map, linspace_getElem? _ _ _ _ (by omega), e]
    rfl

/-- A unit vector between two others that are less than half a turn apart. -/
theorem cone_angle {a0 a1 α β : ℝ} (hne : a0 ≠ a1) (hlt : |a1 - a0| < π) (h0 : 0 ≤ α) (h1 : 0 ≤ β)
    (hu : (α * cos a0 + β * cos a1) ^ 2 + (α * sin a0 + β * sin a1) ^ 2 = 1) :
    ∃ φ ∈ Set.uIcc a0 a1, α * cos a0 + β * cos a1 = cos φ ∧ α * sin a0 + β * sin a1 = sin φ := by
  have main : ∀ a0 D α β : ℝ, 0 < D → D < π → 0 ≤ α → 0 ≤ β →
      (α * cos a0 + β * cos (a0 + D)) ^ 2 + (α * sin a0 + β * sin (a0 + D)) ^ 2 = 1 →
      ∃ φ, a0 ≤ φ ∧ φ ≤ a0 + D ∧ α * cos a0 + β * cos (a0 + D) = cos φ ∧ α * sin a0 + β * sin (a0 + D) = sin φ := by
    intro a0 D α β hD hDpi h0 h1 hu
    have hp := cos_sq_add_sin_sq a0
    have hu' : (α + β * cos D) ^ 2 + (β * sin D) ^ 2 = 1 := by
      rw [cos_add, sin_add] at hu
      linear_combination hu - ((α + β * cos D) ^ 2 + (β * sin D) ^ 2) * hp
    have hs0 : 0 ≤ sin D := sin_nonneg_of_nonneg_of_le_pi hD.le hDpi.le
    have hy : 0 ≤ β * sin D := mul_nonneg h1 hs0
    have hx1 : -1 ≤ α + β * cos D := by nlinarith [sq_nonneg (β * sin D)]
    have hx2 : α + β * cos D ≤ 1 := by nlinarith [sq_nonneg (β * sin D)]
    set ψ := arccos (α + β * cos D) with hψ
    have hc : cos ψ = α + β * cos D := cos_arccos hx1 hx2
    have hs : sin ψ = β * sin D := by
      rw [hψ, sin_arccos, show 1 - (α + β * cos D) ^ 2 = (β * sin D) ^ 2 by linarith]
      exact Real.sqrt_sq hy
    have hψ0 : 0 ≤ ψ := arccos_nonneg _
    have hψpi : ψ ≤ π := arccos_le_pi _
    have hle : ψ ≤ D := by
      by_contra hgt
      push Not at hgt
      have e : sin (ψ - D) = -(α * sin D) := by
        rw [sin_sub, hc, hs]; ring
      have : 0 < sin (ψ - D) := sin_pos_of_pos_of_lt_pi (by linarith) (by linarith)
      have := mul_nonneg h0 hs0
      linarith
    refine ⟨a0 + ψ, by linarith, by linarith, ?_, ?_⟩
    · rw [cos_add, cos_add, hc, hs]; ring
    · rw [sin_add, sin_add, hc, hs]; ring
  rcases lt_or_gt_of_ne hne with h | h
  · rw [abs_of_pos (by linarith)] at hlt
    have e : a1 = a0 + (a1 - a0) := by ring
    rw [e] at hu
    obtain ⟨φ, p1, p2, p3, p4⟩ := main a0 (a1 - a0) α β (by linarith) hlt h0 h1 hu
    rw [← e] at p2 p3 p4
    exact ⟨φ, Set.mem_uIcc.2 (.inl ⟨p1, p2⟩), p3, p4⟩
  · rw [abs_of_neg (by linarith), neg_sub] at hlt
    have e : a0 = a1 + (a0 - a1) := by ring
    have hu' : (β * cos a1 + α * cos (a1 + (a0 - a1))) ^ 2 + (β * sin a1 + α * sin (a1 + (a0 - a1))) ^ 2 = 1 := by
      rw [← e, ← hu]; ring
    obtain ⟨φ, p1, p2, p3, p4⟩ := main a1 (a0 - a1) β α (by linarith) hlt h1 h0 hu'
    rw [← e] at p2 p3 p4
    exact ⟨φ, Set.mem_uIcc.2 (.inr ⟨p1, p2⟩), by linarith, by linarith⟩

/-- The points of an arc of less than half a turn. -/
theorem onCircle_of_between {o x : Pt ℝ} {R a0 a1 : ℝ} (hR : 0 < R) (hne : a0 ≠ a1) (hlt : |a1 - a0| < π)
    (hb : Between o (onCircle o R a0) (onCircle o R a1) x) (hd : dist2 o x = R ^ 2) :
    ∃ φ ∈ Set.uIcc a0 a1, x = onCircle o R φ := by
  obtain ⟨α, β, h0, h1, e1, e2⟩ := hb
  simp only [onCircle, add_sub_cancel_left] at e1 e2
  have hu : (α * cos a0 + β * cos a1) ^ 2 + (α * sin a0 + β * sin a1) ^ 2 = 1 := by
    have hd' : (x.1 - o.1) ^ 2 + (x.2 - o.2) ^ 2 = R ^ 2 := by rw [← hd]; simp only [dist2]; ring
    rw [e1, e2] at hd'
    have hR2 : R ^ 2 ≠ 0 := by positivity
    apply mul_left_cancel₀ hR2
    linear_combination hd'
  obtain ⟨φ, hφ, c1, c2⟩ := cone_angle hne hlt h0 h1 hu
  refine ⟨φ, hφ, ?_⟩
  simp only [onCircle]
  rw [← c1, ← c2]
  refine Prod.ext ?_ ?_
  · simp only
    linear_combination e1
  · simp only
    linear_combination e2

/-! ### Ends -/

theorem roundCap_near {tol : ℝ} {p v : Pt ℝ} (hv : v ≠ (0, 0)) {r sign : ℝ} (hr : 0 < r) (hs : sign = 1 ∨ sign = -1)
    {g : List (Pt ℝ)} (hg : roundCap realNum tol p v r sign = .ok g) {x : Pt ℝ} (hd : dist2 p x = r ^ 2)
    (hx : 0 ≤ (x.1 - p.1) * v.1 + (x.2 - p.2) * v.2) : NearEdge g x (81 / 64 * tol) := by
  have hpi := pi_pos
  have hn : 0 < v.1 ^ 2 + v.2 ^ 2 := by
    rcases eq_or_ne v.1 0 with h1 | h1
    · have h2 : v.2 ≠ 0 := fun h2 => hv (Prod.ext h1 h2)
      positivity
    · positivity
  have hα := Real.sqrt_pos.2 hn
  have hc := sqrt_cos_atan2 v.1 v.2
  have hsn := sqrt_sin_atan2 v.1 v.2
  unfold roundCap at hg
  simp only [bind, Except.bind] at hg
  generalize realNum.atan2 v.2 v.1 = θ at *
  generalize Real.sqrt (v.1 ^ 2 + v.2 ^ 2) = ν at *
  cases hk : flexSteps realNum (2 * realNum.halfpi) tol r with
  | error e => rw [hk] at hg; cases hg
  | ok k =>
    rw [hk] at hg
    simp only [Except.ok.injEq] at hg
    have hp2 : realNum.halfpi = π / 2 := rfl
    rw [hp2] at hg hk
    have hg' : g = (linspace (sign * -(π / 2) + θ) (sign * (π / 2) + θ) (max 5 (1 + k)).toNat).map (onCircle p r) := by
      rw [← hg]
      unfold linspace
      rw [List.map_map, List.map_map]
      refine List.map_congr_left fun j _ => ?_
      simp only [Function.comp]
      show onCircle p r _ = onCircle p r _
      congr 1
      ring
    -- the angle of the point
    have hpy := cos_sq_add_sin_sq θ
    set X := ((x.1 - p.1) * cos θ + (x.2 - p.2) * sin θ) / r with hX
    set Y := ((x.2 - p.2) * cos θ - (x.1 - p.1) * sin θ) / r with hY
    have hXY : X ^ 2 + Y ^ 2 = 1 := by
      have hd' : (x.1 - p.1) ^ 2 + (x.2 - p.2) ^ 2 = r ^ 2 := by rw [← hd]; simp only [dist2]; ring
      rw [hX, hY, div_pow, div_pow, ← add_div, div_eq_one_iff_eq (by positivity)]
      linear_combination ((x.1 - p.1) ^ 2 + (x.2 - p.2) ^ 2) * hpy + hd'
    have hX0 : 0 ≤ X := by
      refine div_nonneg ?_ hr.le
      have : ν * ((x.1 - p.1) * cos θ + (x.2 - p.2) * sin θ) = (x.1 - p.1) * v.1 + (x.2 - p.2) * v.2 := by
        rw [← hc, ← hsn]; ring
      rw [← this] at hx
      exact nonneg_of_mul_nonneg_right hx hα
    have hcX : cos (arcsin Y) = X := by
      rw [cos_arcsin, show 1 - Y ^ 2 = X ^ 2 by linarith]
      exact Real.sqrt_sq hX0
    have hsY : sin (arcsin Y) = Y := sin_arcsin (by nlinarith [sq_nonneg X]) (by nlinarith [sq_nonneg X])
    have hxe : x = onCircle p r (arcsin Y + θ) := by
      have e1 : r * X = (x.1 - p.1) * cos θ + (x.2 - p.2) * sin θ := by rw [hX]; field_simp
      have e2 : r * Y = (x.2 - p.2) * cos θ - (x.1 - p.1) * sin θ := by rw [hY]; field_simp
      simp only [onCircle, cos_add, sin_add, hcX, hsY]
      refine Prod.ext ?_ ?_
      · simp only
        linear_combination (-cos θ) * e1 + sin θ * e2 - (x.1 - p.1) * hpy
      · simp only
        linear_combination (-sin θ) * e1 - cos θ * e2 - (x.2 - p.2) * hpy
    have hmem : arcsin Y + θ ∈ Set.uIcc (sign * -(π / 2) + θ) (sign * (π / 2) + θ) := by
      have h1 := neg_pi_div_two_le_arcsin Y
      have h2 := arcsin_le_pi_div_two Y
      rw [Set.mem_uIcc]
      rcases hs with rfl | rfl
      · left; constructor <;> linarith
      · right; constructor <;> linarith
    have hne : sign * -(π / 2) + θ ≠ sign * (π / 2) + θ := by
      rcases hs with rfl | rfl <;> intro h <;> linarith
    have hab : |sign * (π / 2) + θ - (sign * -(π / 2) + θ)| = 2 * (π / 2) := by
      rcases hs with rfl | rfl
      · rw [abs_of_pos (by linarith)]; ring
      · rw [abs_of_neg (by linarith)]; ring
    have := linspace_near p hr hne hab hk (m := 4) (by norm_num) (by push_cast; linarith) (N := (max 5 (1 + k)).toNat)
      (by omega) hmem
    rw [← hg', ← hxe] at this
    convert this using 1
    norm_num

/-- **C95.** Round ends of a FlexPath with more than two points, or of any path in the general form: every point of the half
circle is within 81/64 tolerances of an edge of the outline. -/
theorem C95_ends {ctx : FlexCtx ℝ} (hc : ctx.num = realNum) {tol : ℝ} {rad : Option ℝ} {corner : FlexCorner ℝ}
    {cs : List (Pt ℝ)} {ws : List ℝ} (h : ws.length = cs.length) (h2 : 2 ≤ cs.length) (hcs : cs.IsChain (· ≠ ·))
    (hws : ∀ w ∈ ws, 0 < w) {P : Pgon ℝ} (hP : flexOutline ctx tol rad corner .round cs ws = .ok P) :
    (∀ x, HalfCircle (cs.getD 1 (0, 0)) (cs.getD 0 (0, 0)) (ws.getD 0 0) x → NearEdge P x (81 / 64 * tol)) ∧
    ∀ x, HalfCircle (cs.getD (cs.length - 2) (0, 0)) (cs.getD (cs.length - 1) (0, 0)) (ws.getD (cs.length - 1) 0) x →
      NearEdge P x (81 / 64 * tol) := by
  rw [flexOutline_eq ctx tol rad corner .round cs ws h h2] at hP
  obtain ⟨rs, hrs, hP⟩ := bind_ok_inv hP
  obtain ⟨ls, hls, hP⟩ := bind_ok_inv hP
  obtain ⟨c0, hc0, hP⟩ := bind_ok_inv hP
  obtain ⟨c1, hc1, hP⟩ := bind_ok_inv hP
  cases hP
  have hc0' : roundCap realNum tol (cs.getD 0 (0, 0)) (psub (cs.getD 0 (0, 0)) (cs.getD 1 (0, 0))) (ws.getD 0 0 / 2) (-1) =
      .ok c0 := hc ▸ hc0
  have hc1' : roundCap realNum tol (cs.getD (cs.length - 1) (0, 0))
      (psub (cs.getD (cs.length - 1) (0, 0)) (cs.getD (cs.length - 2) (0, 0))) (ws.getD (cs.length - 1) 0 / 2) 1 = .ok c1 := hc ▸ hc1
  have vec : ∀ p q : Pt ℝ, p ≠ q → psub q p ≠ (0, 0) := by
    intro p q hpq hz
    have e1 := congrArg Prod.fst hz
    have e2 := congrArg Prod.snd hz
    simp only [psub] at e1 e2
    exact hpq (Prod.ext (by linarith) (by linarith))
  have n0 : cs.getD 0 (0, 0) ≠ cs.getD 1 (0, 0) := chain_getD hcs (by omega)
  have n1 : cs.getD (cs.length - 2) (0, 0) ≠ cs.getD (cs.length - 2 + 1) (0, 0) := chain_getD hcs (by omega)
  rw [show cs.length - 2 + 1 = cs.length - 1 by omega] at n1
  have w0 : 0 < ws.getD 0 0 := getD_pos hws (by omega)
  have w1 : 0 < ws.getD (cs.length - 1) 0 := getD_pos hws (by omega)
  constructor
  · rintro x ⟨hd, hx⟩
    have := (roundCap_near (vec _ _ n0.symm) (by linarith) (.inr rfl) hc0' hd hx).reverse.inside [] (rs.flatten ++ c1 ++ ls.flatten.reverse)
    simpa only [List.nil_append, List.append_assoc] using this
  · rintro x ⟨hd, hx⟩
    exact (roundCap_near (vec _ _ n1) (by linarith) (.inl rfl) hc1' hd hx).inside (c0.reverse ++ rs.flatten) ls.flatten.reverse

/-- **C95.** Round ends of a FlexPath with two points. -/
theorem C95_two_ends {ctx : FlexCtx ℝ} (hc : ctx.num = realNum) {tol : ℝ} {p q : Pt ℝ} (hpq : p ≠ q) {o0 o1 w0 w1 : ℝ}
    (hw0 : 0 < w0) (hw1 : 0 < w1) {P : Pgon ℝ} (hP : twoOutline ctx tol .round p q o0 o1 w0 w1 = .ok P) :
    ∃ a b, CentreLine realNum [p, q] [o0, o1] [a, b] ∧ (∀ x, HalfCircle b a w0 x → NearEdge P x (81 / 64 * tol)) ∧
      ∀ x, HalfCircle a b w1 x → NearEdge P x (81 / 64 * tol) := by
  have h := twoOutline_eq ctx tol .round p q o0 o1 w0 w1
  rw [hP, hc] at h
  have hab := beside_ne realNum hpq o0 o1
  refine ⟨(beside realNum p q o0 o1).1, (beside realNum p q o0 o1).2, ⟨rfl, rfl, rfl, fun i hi => ?_⟩, ?_⟩
  · simp only [List.length_cons, List.length_nil] at hi
    omega
  simp only at h
  generalize (beside realNum p q o0 o1).1 = a at *
  generalize (beside realNum p q o0 o1).2 = b at *
  obtain ⟨s, hs, h⟩ := bind_ok_inv h.symm
  obtain ⟨e, he, h⟩ := bind_ok_inv h
  cases h
  have v0 : pneg (psub b a) ≠ (0, 0) := by
    intro hz
    have e1 := congrArg Prod.fst hz
    have e2 := congrArg Prod.snd hz
    simp only [psub, pneg] at e1 e2
    exact hab (Prod.ext (by linarith) (by linarith))
  have v1 : psub b a ≠ (0, 0) := by
    intro hz
    have e1 := congrArg Prod.fst hz
    have e2 := congrArg Prod.snd hz
    simp only [psub] at e1 e2
    exact hab (Prod.ext (by linarith) (by linarith))
  constructor
  · rintro x ⟨hd, hx⟩
    have := (roundCap_near v0 (by linarith) (.inr rfl) hs hd (by simp only [pneg, psub]; linarith)).inside [] e
    simpa only [List.nil_append] using this
  · rintro x ⟨hd, hx⟩
    have := (roundCap_near v1 (by linarith) (.inr rfl) he hd hx).inside s []
    simpa only [List.append_nil] using this

/-! ### Corners and bends -/

/-- The arc of a round corner. -/
theorem round_near (ctx : FlexCtx ℝ) (hc : ctx.num = realNum) (tol : ℝ) (rad : Option ℝ) {p c q : Pt ℝ} (hp : p ≠ c)
    (hq : c ≠ q) {w s : ℝ} (hw : 0 < w) (hs : s = 1 ∨ s = -1) {g : List (Pt ℝ)}
    (hg : flexCorner ctx tol rad .round (jointOf (beside realNum p c (s * (w / 2)) (s * (w / 2)))
      (beside realNum c q (s * (w / 2)) (s * (w / 2))) c (w / 2)) = .ok g)
    (hi : ¬ (beside realNum p c (s * (w / 2)) (s * (w / 2))).Inner (beside realNum c q (s * (w / 2)) (s * (w / 2))))
    {y : Pt ℝ} (hy : Between c (beside realNum p c (s * (w / 2)) (s * (w / 2))).2 (beside realNum c q (s * (w / 2)) (s * (w / 2))).1 y)
    (hd : dist2 c y = (w / 2) ^ 2) : NearEdge g y (49 / 36 * tol) := by
  have ha := beside_ne realNum hp (s * (w / 2)) (s * (w / 2))
  have hb := beside_ne realNum hq (s * (w / 2)) (s * (w / 2))
  have hin := inner_of_turn realNum_polar hp hq (d := s * (w / 2))
  have hset := corner_setup hp hq (s * (w / 2))
  have hz : (beside realNum p c (s * (w / 2)) (s * (w / 2))).2 =
      (c.1 + s * (w / 2) * (toLeft realNum (c.1 - p.1, c.2 - p.2)).1,
       c.2 + s * (w / 2) * (toLeft realNum (c.1 - p.1, c.2 - p.2)).2) := rfl
  have hz1 : (beside realNum c q (s * (w / 2)) (s * (w / 2))).1 =
      (c.1 + s * (w / 2) * (toLeft realNum (q.1 - c.1, q.2 - c.2)).1,
       c.2 + s * (w / 2) * (toLeft realNum (q.1 - c.1, q.2 - c.2)).2) := rfl
  generalize beside realNum p c (s * (w / 2)) (s * (w / 2)) = a at *
  generalize beside realNum c q (s * (w / 2)) (s * (w / 2)) = b at *
  have hf : flexCorner ctx tol rad .round (jointOf a b c (w / 2)) =
      if (crossOf (jointOf a b c (w / 2))).1 ≤ 0 ∧ 0 ≤ (crossOf (jointOf a b c (w / 2))).2.1 then
        .ok [(crossOf (jointOf a b c (w / 2))).2.2]
      else (do
        let x := cornerAngles ctx.num (decide ((psub a.2 a.1).2 * (psub b.2 b.1).1 - (psub a.2 a.1).1 * (psub b.2 b.1).2 < 0))
          (psub a.2 a.1) (psub b.2 b.1)
        let k ← (flexSteps ctx.num (|x.2 - x.1|) tol (w / 2))
        .ok ((arcAround ctx.num (w / 2) x.1 x.2 (max 4 (1 + k)).toNat).map (padd c))) := rfl
  rw [hf] at hg
  rw [if_neg fun h => hi ((crossOf_inner ha hb c (w / 2)).1 h), hc] at hg
  have hst : ¬ a.Straight b := fun h => hi (.inl h)
  have hT := turn_ne ha hb hst
  have hsT : ¬ 0 < s * (w / 2) * a.turn b := fun h => hi (hin h)
  have hdec : (decide ((psub a.2 a.1).2 * (psub b.2 b.1).1 - (psub a.2 a.1).1 * (psub b.2 b.1).2 < 0) = true) ↔
      0 < a.turn b := by
    rw [decide_eq_true_iff]
    have : (psub a.2 a.1).2 * (psub b.2 b.1).1 - (psub a.2 a.1).1 * (psub b.2 b.1).2 = -a.turn b := by
      simp only [psub, Side.turn, Side.vec]; ring
    rw [this]
    constructor <;> intro h <;> linarith
  obtain ⟨σ, hσ, -, h3⟩ := hset hT _ hdec
  have hσs : σ = -s := by
    rw [hσ]
    unfold turnSign
    rcases hs with rfl | rfl
    · rw [if_neg]
      intro h; apply hsT; positivity
    · rw [if_pos]
      · norm_num
      · rcases lt_or_gt_of_ne hT with h | h
        · exfalso; apply hsT; nlinarith
        · exact h
  simp only at h3 hg
  generalize cornerAngles realNum (decide ((psub a.2 a.1).2 * (psub b.2 b.1).1 - (psub a.2 a.1).1 * (psub b.2 b.1).2 < 0))
        (psub a.2 a.1) (psub b.2 b.1) = x at h3 hg
  obtain ⟨h1, h2, k1, k2, hlt, hpos⟩ := h3
  simp only [bind, Except.bind] at hg
  cases hk : flexSteps realNum |x.2 - x.1| tol (w / 2) with
  | error e => rw [hk] at hg; cases hg
  | ok k =>
    rw [hk] at hg
    cases hg
    have hmap : ((arcAround realNum (w / 2) x.1 x.2 (max 4 (1 + k)).toNat).map (padd c)) =
        (linspace x.1 x.2 (max 4 (1 + k)).toNat).map (onCircle c (w / 2)) := by
      unfold arcAround
      rw [List.map_map]
      rfl
    rw [hmap]
    have e1 : onCircle c (w / 2) x.1 = a.2 := by
      rw [hz, onCircle, h1, h2, hσs]
      refine Prod.ext ?_ ?_ <;> simp only <;> ring
    have e2 : onCircle c (w / 2) x.2 = b.1 := by
      rw [hz1, onCircle, k1, k2, hσs]
      refine Prod.ext ?_ ?_ <;> simp only <;> ring
    have hne : x.1 ≠ x.2 := by intro h; rw [h] at hpos; simp at hpos
    rw [← e1, ← e2] at hy
    obtain ⟨φ, hφ, rfl⟩ := onCircle_of_between (by linarith) hne hlt hy hd
    have := linspace_near c (by linarith : 0 < w / 2) hne rfl hk (m := 3) (by norm_num)
      (by push_cast; linarith [pi_pos]) (N := (max 4 (1 + k)).toNat) (by omega) hφ
    convert this using 1
    norm_num

/-- The arc of a circular bend. -/
theorem bend_near (ctx : FlexCtx ℝ) (hc : ctx.num = realNum) {tol : ℝ} (htol : 0 < tol) (br : ℝ) {p c q : Pt ℝ} (hp : p ≠ c)
    (hq : c ≠ q) {w s : ℝ} {g : List (Pt ℝ)}
    (hg : flexCorner ctx tol (some br) .bend (jointOf (beside realNum p c (s * (w / 2)) (s * (w / 2)))
      (beside realNum c q (s * (w / 2)) (s * (w / 2))) c (w / 2)) = .ok g)
    (h0 : (beside realNum p c (s * (w / 2)) (s * (w / 2))).turn (beside realNum c q (s * (w / 2)) (s * (w / 2))) ≠ 0)
    {o f l : Pt ℝ} (hfirst : g.head? = some f) (hlast : g.getLast? = some l)
    (h1 : (f.1 - o.1) * (beside realNum p c (s * (w / 2)) (s * (w / 2))).vec.1 +
      (f.2 - o.2) * (beside realNum p c (s * (w / 2)) (s * (w / 2))).vec.2 = 0)
    (h2 : (l.1 - o.1) * (beside realNum c q (s * (w / 2)) (s * (w / 2))).vec.1 +
      (l.2 - o.2) * (beside realNum c q (s * (w / 2)) (s * (w / 2))).vec.2 = 0)
    {y : Pt ℝ} (hy : Between o f l y) (hd : dist2 o y = dist2 o f) : NearEdge g y (9 / 4 * tol) := by
  have hset := corner_setup hp hq (s * (w / 2))
  have hva := beside_vec realNum p c (s * (w / 2))
  have hvb := beside_vec realNum c q (s * (w / 2))
  generalize beside realNum p c (s * (w / 2)) (s * (w / 2)) = a at *
  generalize beside realNum c q (s * (w / 2)) (s * (w / 2)) = b at *
  have hcr : vcross (psub a.2 a.1) (psub b.2 b.1) = a.turn b := by
    simp only [vcross, psub, Side.turn, Side.vec]
  have hf : flexCorner ctx tol (some br) .bend (jointOf a b c (w / 2)) =
      bendCorner ctx.num tol (some br) (jointOf a b c (w / 2)) := rfl
  rw [hf, hc] at hg
  unfold bendCorner at hg
  simp only [jointOf, hcr] at hg
  rw [if_neg h0] at hg
  simp only [bind, Except.bind] at hg
  obtain ⟨σ, hσ, hs2, h3⟩ := hset h0 (decide (a.turn b > 0)) (by rw [decide_eq_true_iff])
  simp only at h3
  generalize cornerAngles realNum (decide (a.turn b > 0)) (psub a.2 a.1) (psub b.2 b.1) = x at h3 hg
  obtain ⟨c1, c2, d1, d2, hlt, hpos⟩ := h3
  generalize (if a.turn b * vcross (psub a.2 a.1) (psub a.2 c) > 0 then br - w / 2 else br + w / 2) = r at hg
  cases hk : flexSteps realNum |x.2 - x.1| tol r with
  | error e => rw [hk] at hg; cases hg
  | ok k =>
    rw [hk] at hg
    simp only [Except.ok.injEq] at hg
    have hr : 0 < r := by
      by_contra hr
      rw [flexSteps_raises htol (by linarith)] at hk
      cases hk
    have hne : x.1 ≠ x.2 := by intro h; rw [h] at hpos; simp at hpos
    generalize hN : (max 2 (1 + k)).toNat = N at hg
    have hN2 : 2 ≤ N := by omega
    generalize br * (realNum.sin (|x.2 - x.1| / 2) / realNum.cos (|x.2 - x.1| / 2)) / realNum.sqrt (normSq (psub a.2 a.1)) = d at hg
    -- the centre
    set O : Pt ℝ := (a.2.1 - r * cos x.1 - d * (psub a.2 a.1).1, a.2.2 - r * sin x.1 - d * (psub a.2 a.1).2) with hO
    have hgm : g = (linspace x.1 x.2 N).map (onCircle O r) := by
      rw [← hg]
      have hhd : (arcAround realNum r x.1 x.2 N).headD (0, 0) = (r * cos x.1, r * sin x.1) := by
        rw [List.headD_eq_head?_getD, arcAround, List.head?_map, linspace_head _ _ (by omega)]
        rfl
      rw [hhd, arcAround, List.map_map]
      refine List.map_congr_left fun z _ => ?_
      simp only [Function.comp, psub, padd, psmul, onCircle, hO]
      have hcos (z : ℝ) : realNum.cos z = cos z := rfl
      have hsin (z : ℝ) : realNum.sin z = sin z := rfl
      rw [hcos, hsin]
      refine Prod.ext ?_ ?_ <;> simp only <;> ring
    have hf' : f = onCircle O r x.1 := by
      rw [hgm, List.head?_map, linspace_head _ _ (by omega)] at hfirst
      exact (Option.some.inj hfirst).symm
    have hl' : l = onCircle O r x.2 := by
      rw [hgm, List.getLast?_map, linspace_getLast _ _ (by omega)] at hlast
      exact (Option.some.inj hlast).symm
    -- it is the given one
    have hoO : o = O := by
      have n0 : cos x.1 * (c.1 - p.1) + sin x.1 * (c.2 - p.2) = 0 := by
        rw [c1, c2]; simp only [toLeft]; ring
      have n1 : cos x.2 * (q.1 - c.1) + sin x.2 * (q.2 - c.2) = 0 := by
        rw [d1, d2]; simp only [toLeft]; ring
      rw [hva, hf'] at h1
      rw [hvb, hl'] at h2
      simp only [onCircle] at h1 h2
      have g1 : (O.1 - o.1) * (c.1 - p.1) + (O.2 - o.2) * (c.2 - p.2) = 0 := by linear_combination h1 - r * n0
      have g2 : (O.1 - o.1) * (q.1 - c.1) + (O.2 - o.2) * (q.2 - c.2) = 0 := by linear_combination h2 - r * n1
      have hT : (c.1 - p.1) * (q.2 - c.2) - (c.2 - p.2) * (q.1 - c.1) ≠ 0 := by
        simpa only [Side.turn, hva, hvb] using h0
      have z1 : (O.1 - o.1) * ((c.1 - p.1) * (q.2 - c.2) - (c.2 - p.2) * (q.1 - c.1)) = 0 := by
        linear_combination (q.2 - c.2) * g1 - (c.2 - p.2) * g2
      have z2 : (O.2 - o.2) * ((c.1 - p.1) * (q.2 - c.2) - (c.2 - p.2) * (q.1 - c.1)) = 0 := by
        linear_combination (c.1 - p.1) * g2 - (q.1 - c.1) * g1
      have y1 := (mul_eq_zero.1 z1).resolve_right hT
      have y2 := (mul_eq_zero.1 z2).resolve_right hT
      exact Prod.ext (by linarith) (by linarith)
    rw [hoO, hf', hl'] at hy
    have hdr : dist2 O y = r ^ 2 := by
      rw [← hoO, hd, hoO, hf']
      simp only [dist2, onCircle]
      have := cos_sq_add_sin_sq x.1
      linear_combination r ^ 2 * this
    obtain ⟨φ, hφ, rfl⟩ := onCircle_of_between hr hne hlt hy hdr
    have := linspace_near O hr hne rfl hk (m := 1) le_rfl (by push_cast; linarith) (N := N) (by omega) hφ
    rw [← hgm] at this
    convert this using 1
    norm_num

/-- The points of one corner are points of the outline. -/
theorem corner_edges {ctx : FlexCtx ℝ} {tol : ℝ} {rad : Option ℝ} {corner : FlexCorner ℝ} {fin : FlexEnd ℝ}
    {cs : List (Pt ℝ)} {ws : List ℝ} (h : ws.length = cs.length) (h2 : 2 ≤ cs.length) {P : Pgon ℝ}
    (hP : flexOutline ctx tol rad corner fin cs ws = .ok P) {s : ℝ} (hs : s = 1 ∨ s = -1) {i : ℕ} (hi : i + 2 < cs.length) :
    ∃ g, cornersMap ctx tol rad corner s cs ws i = .ok g ∧ ∀ x d, NearEdge g x d → NearEdge P x d := by
  rw [flexOutline_eq ctx tol rad corner fin cs ws h h2] at hP
  obtain ⟨rs, hrs, hP⟩ := bind_ok_inv hP
  obtain ⟨ls, hls, hP⟩ := bind_ok_inv hP
  obtain ⟨c0, -, hP⟩ := bind_ok_inv hP
  obtain ⟨c1, -, hP⟩ := bind_ok_inv hP
  cases hP
  have hr := mapM_range_ok _ _ hrs
  have hl := mapM_range_ok _ _ hls
  rcases hs with rfl | rfl
  · obtain ⟨g, hg⟩ : ∃ g, ls[i]? = some g := ⟨_, List.getElem?_eq_getElem (by rw [hl.1]; omega)⟩
    refine ⟨g, (hl.2 i g hg).2, fun x d hx => ?_⟩
    have := (hx.flatten hg).reverse.inside (c0.reverse ++ rs.flatten ++ c1) []
    simpa only [List.append_nil] using this
  · obtain ⟨g, hg⟩ : ∃ g, rs[i]? = some g := ⟨_, List.getElem?_eq_getElem (by rw [hr.1]; omega)⟩
    refine ⟨g, (hr.2 i g hg).2, fun x d hx => ?_⟩
    have := (hx.flatten hg).inside c0.reverse (c1 ++ ls.flatten.reverse)
    simpa only [List.append_assoc] using this

/-- **C95.** Round corners of a path of constant width: where the side at `s` half widths to the left (`s` is 1 or -1) is on
the outside of the turn, every point of the circle about the corner between the ends of the two straight sides is within 49/36
tolerances of an edge of the outline. -/
theorem C95_corners_partial {ctx : FlexCtx ℝ} (hc : ctx.num = realNum) {tol : ℝ} {rad : Option ℝ} {fin : FlexEnd ℝ}
    {cs : List (Pt ℝ)} {ws : List ℝ} (h : ws.length = cs.length) (h2 : 2 ≤ cs.length) (hcs : cs.IsChain (· ≠ ·))
    {w : ℝ} (hw : 0 < w) (hws : ∀ v ∈ ws, v = w) {P : Pgon ℝ} (hP : flexOutline ctx tol rad .round fin cs ws = .ok P)
    {s : ℝ} (hs : s = 1 ∨ s = -1) {i : ℕ} (hi : i + 2 < cs.length)
    (hin : ¬ (sideAt realNum cs (ws.map fun w => s * (w / 2)) i).Inner (sideAt realNum cs (ws.map fun w => s * (w / 2)) (i + 1)))
    {x : Pt ℝ} (hx : Between (cs.getD (i + 1) (0, 0)) (sideAt realNum cs (ws.map fun w => s * (w / 2)) i).2
      (sideAt realNum cs (ws.map fun w => s * (w / 2)) (i + 1)).1 x) (hd : dist2 (cs.getD (i + 1) (0, 0)) x = (w / 2) ^ 2) :
    NearEdge P x (49 / 36 * tol) := by
  obtain ⟨g, hg, hn⟩ := corner_edges h h2 hP hs hi
  have hD : ∀ j, j < cs.length → ws.getD j 0 = w := by
    intro j hj
    rw [List.getD_eq_getElem?_getD, List.getElem?_eq_getElem (h.symm ▸ hj)]
    exact hws _ (List.getElem_mem _)
  have hmapD (s : ℝ) (j : Nat) (hj : j < cs.length) : (ws.map fun w => s * (w / 2)).getD j 0 = s * (w / 2) := by
    have := hD j hj
    rw [List.getD_eq_getElem?_getD, List.getElem?_eq_getElem (h.symm ▸ hj), Option.getD_some] at this
    simp only [List.getD_eq_getElem?_getD, List.getElem?_map, List.getElem?_eq_getElem (h.symm ▸ hj), Option.map_some,
      Option.getD_some, this]
  unfold cornersMap at hg
  simp only [sideAt, hmapD s i (by omega), hmapD s (i + 1) (by omega), hmapD s (i + 1 + 1) (by omega), hD (i + 1) (by omega)]
    at hg hin hx
  rw [hc] at hg
  exact hn _ _ (round_near ctx hc tol rad (chain_getD hcs (by omega)) (chain_getD hcs (by omega)) hw hs hg hin hx hd)

/-- **C95.** Circular bends of a path of constant width: with `o` the centre of the bend, at the distance of the bend radius
from both lines, each side follows a circle about `o`, from the line of the one straight side to that of the other without a
kink, and every point of this arc is within 9/4 tolerances of an edge of the outline. -/
theorem C95_bends_partial {ctx : FlexCtx ℝ} (hc : ctx.num = realNum) {tol : ℝ} (htol : 0 < tol) {rad : Option ℝ}
    {fin : FlexEnd ℝ} {cs : List (Pt ℝ)} {ws : List ℝ} (h : ws.length = cs.length) (h2 : 2 ≤ cs.length) (hcs : cs.IsChain (· ≠ ·))
    {w : ℝ} (hw : 0 < w) (hws : ∀ v ∈ ws, v = w) {P : Pgon ℝ} (hP : flexOutline ctx tol rad .bend fin cs ws = .ok P)
    {s : ℝ} (hs : s = 1 ∨ s = -1) {i : ℕ} (hi : i + 2 < cs.length) :
    let a := sideAt realNum cs (ws.map fun w => s * (w / 2)) i
    let b := sideAt realNum cs (ws.map fun w => s * (w / 2)) (i + 1)
    let c := cs.getD (i + 1) (0, 0)
    a.turn b ≠ 0 → ∃ br o p q, rad = some br ∧
      (∀ v : Side ℝ, v = a ∨ v = b → ∃ l, o = v.ahead realNum
        (c.1 + (turnSign a b * br) * (toLeft realNum v.vec).1, c.2 + (turnSign a b * br) * (toLeft realNum v.vec).2) l) ∧
      OnLine a.1 a.2 p ∧ OnLine b.1 b.2 q ∧
      (p.1 - o.1) * a.vec.1 + (p.2 - o.2) * a.vec.2 = 0 ∧ (q.1 - o.1) * b.vec.1 + (q.2 - o.2) * b.vec.2 = 0 ∧
      ∀ x, Between o p q x → dist2 o x = dist2 o p → NearEdge P x (9 / 4 * tol) := by
  intro a b c h0
  obtain ⟨g, hg, hn⟩ := corner_edges h h2 hP hs hi
  have hD : ∀ j, j < cs.length → ws.getD j 0 = w := by
    intro j hj
    rw [List.getD_eq_getElem?_getD, List.getElem?_eq_getElem (h.symm ▸ hj)]
    exact hws _ (List.getElem_mem _)
  have hmapD (s : ℝ) (j : Nat) (hj : j < cs.length) : (ws.map fun w => s * (w / 2)).getD j 0 = s * (w / 2) := by
    have := hD j hj
    rw [List.getD_eq_getElem?_getD, List.getElem?_eq_getElem (h.symm ▸ hj), Option.getD_some] at this
    simp only [List.getD_eq_getElem?_getD, List.getElem?_map, List.getElem?_eq_getElem (h.symm ▸ hj), Option.map_some,
      Option.getD_some, this]
  unfold cornersMap at hg
  have ea : a = beside realNum (cs.getD i (0, 0)) (cs.getD (i + 1) (0, 0)) (s * (w / 2)) (s * (w / 2)) := by
    simp only [a, sideAt, hmapD s i (by omega), hmapD s (i + 1) (by omega)]
  have eb : b = beside realNum (cs.getD (i + 1) (0, 0)) (cs.getD (i + 1 + 1) (0, 0)) (s * (w / 2)) (s * (w / 2)) := by
    simp only [b, sideAt, hmapD s (i + 1) (by omega), hmapD s (i + 1 + 1) (by omega)]
  simp only [sideAt, hmapD s i (by omega), hmapD s (i + 1) (by omega), hmapD s (i + 1 + 1) (by omega), hD (i + 1) (by omega)]
    at hg
  rw [hc] at hg
  have hp : cs.getD i (0, 0) ≠ cs.getD (i + 1) (0, 0) := chain_getD hcs (by omega)
  have hq : cs.getD (i + 1) (0, 0) ≠ cs.getD (i + 1 + 1) (0, 0) := chain_getD hcs (by omega)
  have hok := bend_ok ctx hc tol rad hp hq hw hs hg
  rw [← ea, ← eb] at hok
  obtain ⟨br, o, p, q, hrad, ho, hp1, hq1, hpo, hqo, hlen, harc⟩ := hok.2 h0
  refine ⟨br, o, p, q, hrad, ho, hp1, hq1, hpo, hqo, fun x hx hd => hn _ _ ?_⟩
  rw [ea] at h0 hpo
  rw [eb] at h0 hqo
  rw [hrad] at hg
  exact bend_near ctx hc htol br hp hq hg h0 harc.first harc.last hpo hqo hx hd

/-! ### "Within the tolerance" is false -/

/-- One segment for a quarter of a circle. -/
theorem quarter_one {tol r : ℝ} (hr : r ≠ 0) (h0 : 0 ≤ 1 - tol / r) (h1 : 1 - tol / r < Real.sqrt 3 / 2) :
    flexSteps realNum (π / 2) tol r = .ok 1 := by
  have hle : 1 - tol / r ≤ 1 := by
    have : Real.sqrt 3 ≤ 2 := by
      rw [Real.sqrt_le_left (by norm_num)]; norm_num
    linarith
  have hlow : π / 6 < arccos (1 - tol / r) := by
    have h := Real.arccos_lt_arccos (by linarith) h1 (by
      have : Real.sqrt 3 ≤ 2 := by
        rw [Real.sqrt_le_left (by norm_num)]; norm_num
      linarith)
    rwa [← Real.cos_pi_div_six, Real.arccos_cos (by positivity) (by linarith [pi_pos])] at h
  have hup : arccos (1 - tol / r) ≤ π / 2 := Real.arccos_le_pi_div_two.2 h0
  have hpos : 0 < arccos (1 - tol / r) := by linarith [pi_pos]
  unfold flexSteps arcSteps
  rw [if_neg hr, if_neg hr]
  have ha : realNum.acos (1 - tol / r) = some (arccos (1 - tol / r)) := by
    simp only [realNum]
    rw [if_pos ⟨by linarith, hle⟩]
  rw [ha]
  simp only
  rw [if_neg hpos.ne']
  congr 1
  have q0 : 1 / 2 ≤ π / 2 / 2 / arccos (1 - tol / r) := by rw [le_div_iff₀ hpos]; linarith
  have q1 : π / 2 / 2 / arccos (1 - tol / r) < 3 / 2 := by rw [div_lt_iff₀ hpos]; linarith
  unfold truncInt
  rw [if_pos (by linarith), Int.floor_eq_iff]
  constructor <;> push_cast <;> linarith

/-- The angles of a turn to the left from the direction of x to that of y. -/
theorem elbow_angles : cornerAngles realNum true (10, 0) (0, 10) = (-(π / 2), 0) := by
  have h0 : realNum.atan2 (-10) 0 = -(π / 2) := by
    show Complex.arg ⟨0, -10⟩ = _
    rw [show (⟨0, -10⟩ : ℂ) = ((10 : ℝ) : ℂ) * -Complex.I by apply Complex.ext <;> simp]
    rw [Complex.arg_real_mul _ (by norm_num), Complex.arg_neg_I]
  have h1 : realNum.atan2 (-0) 10 = 0 := by
    show Complex.arg ⟨10, -0⟩ = _
    rw [show (⟨10, -0⟩ : ℂ) = ((10 : ℝ) : ℂ) by apply Complex.ext <;> simp]
    exact Complex.arg_ofReal_of_nonneg (by norm_num)
  unfold cornerAngles
  simp only [if_true, h0, h1]
  rw [if_neg]
  show ¬ |0 - -(π / 2)| > 2 * (π / 2)
  rw [sub_neg_eq_add, zero_add, abs_of_pos (by positivity)]
  linarith [pi_pos]

/-- The bend of the elbow with radius 3. -/
theorem elbow_bend {tol r : ℝ} {s : ℝ} (hs : (s = 1 ∧ r = 2) ∨ (s = -1 ∧ r = 4)) (hsteps : flexSteps realNum (π / 2) tol r = .ok 1) :
    cornersMap realCtx tol (some 3) .bend s elbow [2, 2, 2] 0 = .ok [(7, 3 - r), (7 + r, 3)] := by
  have h10 (x y : ℝ) (h : x = 10 ^ 2 + y) (hy : y = 0) : Real.sqrt x = 10 := by
    rw [h, hy, add_zero]; exact Real.sqrt_sq (by norm_num)
  have e0 : sideAt realNum elbow ([2, 2, 2].map fun w => s * (w / 2)) 0 = ((0, s), (10, s)) := by
    show beside realNum (0, 0) (10, 0) (s * (2 / 2)) (s * (2 / 2)) = _
    have : realNum.sqrt ((10 - 0) ^ 2 + (0 - 0) ^ 2) = 10 := h10 _ 0 (by norm_num) rfl
    simp only [beside, toLeft, this]
    norm_num
  have e1 : sideAt realNum elbow ([2, 2, 2].map fun w => s * (w / 2)) 1 = ((10 - s, 0), (10 - s, 10)) := by
    show beside realNum (10, 0) (10, 10) (s * (2 / 2)) (s * (2 / 2)) = _
    have : realNum.sqrt ((10 - 10) ^ 2 + (10 - 0) ^ 2) = 10 := h10 _ 0 (by norm_num) rfl
    simp only [beside, toLeft, this]
    norm_num
    ring
  unfold cornersMap
  show flexCorner realCtx tol (some 3) .bend (jointOf (sideAt realNum elbow ([2, 2, 2].map fun w => s * (w / 2)) 0)
    (sideAt realNum elbow ([2, 2, 2].map fun w => s * (w / 2)) (0 + 1)) (10, 0) (2 / 2)) = _
  rw [e0, e1]
  show bendCorner realNum tol (some 3) (jointOf ((0, s), (10, s)) ((10 - s, 0), (10 - s, 10)) (10, 0) (2 / 2)) = _
  unfold bendCorner
  have v0 : psub ((10 : ℝ), s) (0, s) = (10, 0) := by simp [psub]
  have v1 : psub ((10 : ℝ) - s, (10 : ℝ)) (10 - s, 0) = (0, 10) := by simp [psub]
  have hcr : vcross ((10 : ℝ), (0 : ℝ)) (0, 10) = 100 := by norm_num [vcross]
  simp only [jointOf, v0, v1, hcr]
  rw [if_neg (by norm_num), show decide ((100 : ℝ) > 0) = true by rw [decide_eq_true_iff]; norm_num, elbow_angles]
  have hr : (if (100 : ℝ) * vcross ((10 : ℝ), (0 : ℝ)) (psub (10, s) (10, 0)) > 0 then (3 : ℝ) - 2 / 2 else 3 + 2 / 2) = r := by
    rcases hs with ⟨rfl, rfl⟩ | ⟨rfl, rfl⟩
    · rw [if_pos (by norm_num [vcross, psub])]; norm_num
    · rw [if_neg (by norm_num [vcross, psub])]; norm_num
  have habs : |0 - -(π / 2)| = π / 2 := by rw [sub_neg_eq_add, zero_add, abs_of_pos (by positivity)]
  simp only [hr, habs, hsteps, bind, Except.bind]
  have hlin : linspace (-(π / 2)) (0 : ℝ) (max 2 (1 + (1 : ℤ))).toNat = [-(π / 2), 0] := by
    show linspace (-(π / 2)) (0 : ℝ) 2 = _
    simp only [linspace, List.range_succ, List.range_zero, List.nil_append, List.cons_append, List.map_cons, List.map_nil]
    congr 1
    · push_cast; ring
    · congr 1
      push_cast; ring
  have hpts : arcAround realNum r (-(π / 2)) 0 (max 2 (1 + (1 : ℤ))).toNat = [(0, -r), (r, 0)] := by
    unfold arcAround
    rw [hlin]
    simp only [List.map_cons, List.map_nil, realNum]
    simp
  rw [hpts]
  have hd : 3 * (realNum.sin (π / 2 / 2) / realNum.cos (π / 2 / 2)) / realNum.sqrt (normSq ((10 : ℝ), (0 : ℝ))) = 3 / 10 := by
    have hn : realNum.sqrt (normSq ((10 : ℝ), (0 : ℝ))) = 10 := h10 _ 0 (by norm_num [normSq]) rfl
    rw [hn]
    show 3 * (sin (π / 2 / 2) / cos (π / 2 / 2)) / 10 = _
    rw [show π / 2 / 2 = π / 4 by ring, Real.sin_pi_div_four, Real.cos_pi_div_four, div_self (by positivity)]
    norm_num
  rw [hd]
  simp only [List.map_cons, List.map_nil, List.headD_cons, psub, padd, psmul]
  rcases hs with ⟨rfl, rfl⟩ | ⟨rfl, rfl⟩ <;> norm_num

/-- **C95**, violated: the outer side of a bend of radius 3 in a path of width 2 is a quarter of a circle of radius 4. With
tolerance 3/5 it is drawn as one segment, and the middle of the arc is at more than 1 from all edges of the outline. -/
theorem C95_bend_beyond : ∃ (P : Pgon ℝ) (f x : Pt ℝ),
    flexOutline realCtx (3 / 5) (some 3) .bend .flush elbow [2, 2, 2] = .ok P ∧ P.head? = some f ∧
    Between (7, 3) (7, -1) (11, 3) x ∧ dist2 (7, 3) x = 4 ^ 2 ∧ ¬ NearEdge (P ++ [f]) x 1 := by
  have h3 : (17 : ℝ) / 20 < Real.sqrt 3 / 2 := by
    have : (17 / 10 : ℝ) < Real.sqrt 3 := by rw [Real.lt_sqrt (by norm_num)]; norm_num
    linarith
  have hr := elbow_bend (s := -1) (r := 4) (.inr ⟨rfl, rfl⟩) (quarter_one (tol := 3 / 5) (by norm_num) (by norm_num) (by norm_num at h3 ⊢; linarith))
  have hl := elbow_bend (s := 1) (r := 2) (.inl ⟨rfl, rfl⟩) (quarter_one (tol := 3 / 5) (by norm_num) (by norm_num) (by norm_num at h3 ⊢; linarith))
  have h10 (x y : ℝ) (h : x = 10 ^ 2 + y) (hy : y = 0) : Real.sqrt x = 10 := by
    rw [h, hy, add_zero]; exact Real.sqrt_sq (by norm_num)
  have hP : flexOutline realCtx (3 / 5) (some 3) .bend .flush elbow [2, 2, 2] =
      .ok [(0, 1), (0, -1), (7, -1), (11, 3), (11, 10), (9, 10), (9, 3), (7, 1)] := by
    rw [flexOutline_eq realCtx _ _ _ _ _ _ rfl (by simp [elbow])]
    have hm (s : ℝ) (g : List (Pt ℝ)) (h : cornersMap realCtx (3 / 5) (some 3) .bend s elbow [2, 2, 2] 0 = .ok g) :
        (List.range (elbow.length - 2)).mapM (cornersMap realCtx (3 / 5) (some 3) .bend s elbow [2, 2, 2]) = .ok [g] := by
      show (List.range 1).mapM _ = _
      rw [show List.range 1 = [0] from rfl, List.mapM_cons, h, List.mapM_nil]
      rfl
    rw [hm _ _ hr, hm _ _ hl]
    have b0 (d : ℝ) : beside realNum (0, 0) (10, 0) d d = ((0, d), (10, d)) := by
      have : realNum.sqrt ((10 - 0) ^ 2 + (0 - 0) ^ 2) = 10 := h10 _ 0 (by norm_num) rfl
      simp only [beside, toLeft, this]
      norm_num
    have b1 (d : ℝ) : beside realNum (10, 0) (10, 10) d d = ((10 - d, 0), (10 - d, 10)) := by
      have : realNum.sqrt ((10 - 10) ^ 2 + (10 - 0) ^ 2) = 10 := h10 _ 0 (by norm_num) rfl
      simp only [beside, toLeft, this]
      norm_num
      ring
    show Except.ok (([(beside realNum (0, 0) (10, 0) (-1 * (2 / 2)) (-1 * (2 / 2))).1,
      (beside realNum (0, 0) (10, 0) (1 * (2 / 2)) (1 * (2 / 2))).1] : List (Pt ℝ)).reverse ++ [[(7, 3 - 4), (7 + 4, 3)]].flatten ++
      [(beside realNum (10, 0) (10, 10) (-1 * (2 / 2)) (-1 * (2 / 2))).2,
      (beside realNum (10, 0) (10, 10) (1 * (2 / 2)) (1 * (2 / 2))).2] ++ [[(7, 3 - 2), (7 + 2, 3)]].flatten.reverse) = _
    rw [b0, b0, b1, b1]
    norm_num
  have hs : Real.sqrt 2 ^ 2 = 2 := Real.sq_sqrt (by norm_num)
  have hlo : (1.41 : ℝ) < Real.sqrt 2 := by rw [Real.lt_sqrt (by norm_num)]; norm_num
  have hhi : Real.sqrt 2 < 1.42 := by rw [Real.sqrt_lt' (by norm_num)]; norm_num
  refine ⟨_, (0, 1), (7 + 2 * Real.sqrt 2, 3 - 2 * Real.sqrt 2), hP, rfl, ⟨Real.sqrt 2 / 2, Real.sqrt 2 / 2, by positivity,
    by positivity, by ring, by ring⟩, by simp only [dist2]; linear_combination 8 * hs, ?_⟩
  rintro ⟨k, a, b, ha, hb, -, t, ht0, ht1, hd⟩
  simp only [dist2, between] at hd
  rcases k with _ | _ | _ | _ | _ | _ | _ | _ | k
  all_goals simp only [List.cons_append, List.nil_append, List.getElem?_cons_succ, List.getElem?_cons_zero, List.getElem?_nil,
    Option.some.injEq, reduceCtorEq, Nat.zero_add] at ha hb
  all_goals subst ha hb
  all_goals simp only at hd
  all_goals nlinarith

/-! ### Concrete paths -/

/-- Round ends and a round corner; the circles in question have points. -/
example : ∃ P, flexOutline realCtx (1 / 2) none .round .round elbow [2, 2, 2] = .ok P ∧
    NearEdge P (-1, 0) (81 / 128) ∧ NearEdge P (10, 11) (81 / 128) := by
  have hw : ∀ w ∈ [(2 : ℝ), 2, 2], w = 2 := by simp
  obtain ⟨P, hP⟩ := C70_defined (ctx := realCtx) rfl (tol := 1 / 2) (by norm_num) (rad := none) (corner := .round)
    (fin := .round) (cs := elbow) (ws := [2, 2, 2]) rfl (by simp [elbow]) (fun w h => by rw [hw w h]; norm_num)
    ⟨fun w h => by rw [hw w h]; norm_num, fun w h => by rw [hw w h]; norm_num⟩
  have := C95_ends (ctx := realCtx) rfl (cs := elbow) (ws := [2, 2, 2]) rfl (by simp [elbow]) elbow_chain
    (fun w h => by rw [hw w h]; norm_num) hP
  refine ⟨P, hP, ?_, ?_⟩
  · have h := this.1 (-1, 0) ⟨by norm_num [dist2, elbow], by norm_num [elbow]⟩
    convert h using 1; norm_num
  · have h := this.2 (10, 11) ⟨by norm_num [dist2, elbow], by norm_num [elbow]⟩
    convert h using 1; norm_num

/-- The outside of the round corner of the elbow is near its right side. -/
example : ∃ P, flexOutline realCtx (1 / 2) none .round .flush elbow [2, 2, 2] = .ok P ∧
    ∀ x, Between (10, 0) (10, -1) (11, 0) x → dist2 (10, 0) x = 1 → NearEdge P x (49 / 72) := by
  have hw : ∀ w ∈ [(2 : ℝ), 2, 2], w = 2 := by simp
  obtain ⟨P, hP⟩ := C70_defined (ctx := realCtx) rfl (tol := 1 / 2) (by norm_num) (rad := none) (corner := .round)
    (fin := .flush) (cs := elbow) (ws := [2, 2, 2]) rfl (by simp [elbow]) (fun w h => by rw [hw w h]; norm_num)
    ⟨fun w h => by rw [hw w h]; norm_num, trivial⟩
  have e0 : sideAt realNum elbow ([2, 2, 2].map fun w => -1 * (w / 2)) 0 = ((0, -1), (10, -1)) := by
    show beside realNum (0, 0) (10, 0) (-1 * (2 / 2)) (-1 * (2 / 2)) = _
    have : realNum.sqrt ((10 - 0) ^ 2 + (0 - 0) ^ 2) = 10 := by
      show Real.sqrt _ = _
      norm_num [sqrt_hundred]
    simp only [beside, toLeft, this]
    norm_num
  have e1 : sideAt realNum elbow ([2, 2, 2].map fun w => -1 * (w / 2)) (0 + 1) = ((11, 0), (11, 10)) := by
    show beside realNum (10, 0) (10, 10) (-1 * (2 / 2)) (-1 * (2 / 2)) = _
    have : realNum.sqrt ((10 - 10) ^ 2 + (10 - 0) ^ 2) = 10 := by
      show Real.sqrt _ = _
      norm_num [sqrt_hundred]
    simp only [beside, toLeft, this]
    norm_num
  refine ⟨P, hP, fun x hx hd => ?_⟩
  have := C95_corners_partial (ctx := realCtx) rfl (cs := elbow) (ws := [2, 2, 2]) rfl (by simp [elbow]) elbow_chain (w := 2)
    (by norm_num) hw hP (s := -1) (.inr rfl) (i := 0) (by simp [elbow])
    (by
      rw [e0, e1]
      rintro (hs | ⟨x, y, hx, hy, he⟩)
      · simp only [Side.Straight, Side.turn, Side.vec, dist2] at hs
        norm_num at hs
      · simp only [Side.vec, Prod.mk.injEq] at he
        obtain ⟨e1, e2⟩ := he
        norm_num at e1 e2
        linarith)
    (x := x) (by rw [e0, e1]; exact hx) (by rw [show (2 : ℝ) / 2 = 1 by norm_num, one_pow]; exact hd)
  convert this using 1
  norm_num

/-- The bend of the elbow. -/
example : ∃ P o p q, flexOutline realCtx (1 / 2) (some 3) .bend .flush elbow [2, 2, 2] = .ok P ∧
    ∀ x, Between o p q x → dist2 o x = dist2 o p → NearEdge P x (9 / 8) := by
  have hw : ∀ w ∈ [(2 : ℝ), 2, 2], w = 2 := by simp
  obtain ⟨P, hP⟩ := C70_defined (ctx := realCtx) rfl (tol := 1 / 2) (by norm_num) (rad := some 3) (corner := .bend)
    (fin := .flush) (cs := elbow) (ws := [2, 2, 2]) rfl (by simp [elbow]) (fun w h => by rw [hw w h]; norm_num)
    ⟨⟨3, rfl, fun w h => by rw [hw w h]; norm_num⟩, trivial⟩
  obtain ⟨-, o, p, q, -, -, -, -, -, -, h⟩ := C95_bends_partial (ctx := realCtx) rfl (tol := 1 / 2) (by norm_num) (cs := elbow)
    (ws := [2, 2, 2]) rfl (by simp [elbow]) elbow_chain (w := 2) (by norm_num) hw hP (s := -1) (.inr rfl) (i := 0)
    (by simp [elbow]) (by
      show (beside realNum (0, 0) (10, 0) (-1 * (2 / 2)) (-1 * (2 / 2))).turn
        (beside realNum (10, 0) (10, 10) (-1 * (2 / 2)) (-1 * (2 / 2))) ≠ 0
      rw [Side.turn, beside_vec, beside_vec]
      norm_num)
  refine ⟨P, o, p, q, hP, fun x hx hd => ?_⟩
  have := h x hx hd
  convert this using 1
  norm_num

/-- A path with two points and offset 3. -/
example : ∃ P, twoOutline realCtx (1 / 2) .round (0, 0) (10, 0) 3 3 2 2 = .ok P ∧ NearEdge P (-1, 3) (81 / 128) := by
  obtain ⟨P, hP⟩ : ∃ P, twoOutline realCtx (1 / 2) .round (0, 0) (10, 0) 3 3 2 2 = .ok P := by
    rw [twoOutline_eq]
    obtain ⟨n, hn⟩ := flexSteps_ok (angle := 2 * realNum.halfpi) (tol := 1 / 2) (r := 2 / 2) (by norm_num) (by norm_num)
    simp only [roundCap, show realCtx.num = realNum from rfl, hn]
    exact ⟨_, rfl⟩
  obtain ⟨a, b, ⟨-, ha, hb, -⟩, h, -⟩ := C95_two_ends (ctx := realCtx) rfl (by simp) (by norm_num) (by norm_num) hP
  have h10 : realNum.sqrt ((10 - 0) ^ 2 + (0 - 0) ^ 2) = 10 := by
    show Real.sqrt _ = _
    norm_num [sqrt_hundred]
  have ea : a = (0, 3) := by
    have ha : a = (beside realNum (0, 0) (10, 0) 3 3).1 := ha
    simp only [beside, toLeft, h10] at ha
    rw [ha]; norm_num
  have eb : b = (10, 3) := by
    have hb : b = (beside realNum (0, 0) (10, 0) 3 3).2 := hb
    simp only [beside, toLeft, h10] at hb
    rw [hb]; norm_num
  refine ⟨P, hP, ?_⟩
  have := h (-1, 3) ⟨by rw [ea]; norm_num [dist2], by rw [ea, eb]; norm_num⟩
  convert this using 1
  norm_num

end Gdspy
