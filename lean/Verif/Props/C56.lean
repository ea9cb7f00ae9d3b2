import Verif.Props.C55

/-!
# C56: sampling of sub-paths
-/

set_option linter.unusedSectionVars false

namespace Gdspy

open Spec

variable {K : Type} [Field K] [LinearOrder K] [IsStrictOrderedRing K]

/-- The three tests of an interval. -/
def Close3 (c : K → Pt K) (err : K) (p q : K × Pt K) : Prop :=
  CloseAt c err (1 / 5) p q ∧ CloseAt c err (1 / 2) p q ∧ CloseAt c err (4 / 5) p q

theorem fracTest_one (c : K → Pt K) (err : K) (p q : K × Pt K) (f : K) :
    ¬ sqErr (lerpPt p.2 q.2 f) (c (p.1 * (1 - f) + q.1 * f)) > err ↔ CloseAt c err f p q := by
  unfold CloseAt
  have e1 : p.1 * (1 - f) + q.1 * f = (1 - f) * p.1 + f * q.1 := by ring
  have e2 : lerpPt p.2 q.2 f = onChord p.2 q.2 f := by
    unfold lerpPt onChord
    refine Prod.ext ?_ ?_ <;> simp only <;> ring
  rw [e1, e2, not_lt]
  rfl

theorem fracTest_none {c : K → Pt K} {err : K} {p q : K × Pt K} {fs : List K}
    (h : fracTest c err p q fs = none) : ∀ f ∈ fs, CloseAt c err f p q := by
  induction fs with
  | nil => simp
  | cons f fs ih =>
    rw [fracTest] at h
    by_cases ht : sqErr (lerpPt p.2 q.2 f) (c (p.1 * (1 - f) + q.1 * f)) > err
    · simp only [ht, if_true] at h; cases h
    · simp only [ht, if_false] at h
      intro g hg
      rcases List.mem_cons.1 hg with rfl | hg
      · exact (fracTest_one c err p q g).1 ht
      · exact ih h g hg

theorem fracTest_some {c : K → Pt K} {err : K} {p q : K × Pt K} {fs : List K} {m : K × Pt K}
    (h : fracTest c err p q fs = some m) :
    ∃ f ∈ fs, m.1 = p.1 * (1 - f) + q.1 * f ∧ m.2 = c m.1 ∧ ¬ CloseAt c err f p q := by
  induction fs with
  | nil => cases h
  | cons f fs ih =>
    rw [fracTest] at h
    by_cases ht : sqErr (lerpPt p.2 q.2 f) (c (p.1 * (1 - f) + q.1 * f)) > err
    · simp only [ht, if_true] at h
      cases h
      exact ⟨f, List.mem_cons_self, rfl, rfl, fun hc => ((fracTest_one c err p q f).2 hc) ht⟩
    · simp only [ht, if_false] at h
      obtain ⟨g, hg, r⟩ := ih h
      exact ⟨g, List.mem_cons_of_mem _ hg, r⟩

theorem fracTest_mid {c : K → Pt K} {err : K} {p q m : K × Pt K}
    (h : fracTest c err p q [1 / 5, 1 / 2, 4 / 5] = some m) (hpq : p.1 < q.1) :
    p.1 < m.1 ∧ m.1 < q.1 ∧ m.2 = c m.1 ∧ m.1 - p.1 ≤ 4 / 5 * (q.1 - p.1) ∧ q.1 - m.1 ≤ 4 / 5 * (q.1 - p.1) := by
  obtain ⟨f, hf, h1, h2, _⟩ := fracTest_some h
  simp only [List.mem_cons, List.not_mem_nil, or_false] at hf
  rw [h1] at *
  rcases hf with rfl | rfl | rfl <;> refine ⟨?_, ?_, h2, ?_, ?_⟩ <;> linarith

theorem fracTest_close {c : K → Pt K} {err : K} {p q : K × Pt K}
    (h : fracTest c err p q [1 / 5, 1 / 2, 4 / 5] = none) : Close3 c err p q := by
  have := fracTest_none h
  exact ⟨this _ (by simp), this _ (by simp), this _ (by simp)⟩

theorem subLoop_spec (c : K → Pt K) (err : K) (cap : Option Nat) (fuel : Nat) :
    ∀ (done : List (K × Pt K)) (p : K × Pt K) (rest l : List (K × Pt K)),
    subLoop c err cap fuel done p rest = some l → p.2 = c p.1 → (∀ q ∈ rest, q.2 = c q.1) →
    (p :: rest).Pairwise (fun a b => a.1 < b.1) →
    ∃ m, l = done.reverse ++ p :: m ∧ rest.Sublist m ∧ (∀ q ∈ m, q.2 = c q.1) ∧
      (p :: m).Pairwise (fun a b => a.1 < b.1) ∧ (p :: m).getLast? = (p :: rest).getLast? ∧
      ((p :: m).IsChain (Close3 c err) ∨ ∃ n, cap = some n ∧ n ≤ l.length) ∧
      (∀ n, cap = some n → l.length ≤ max n (done.length + 1 + rest.length)) := by
  induction fuel with
  | zero =>
    intro done p rest l h hp hr hinc
    cases rest with
    | nil =>
      rw [subLoop] at h
      cases h
      exact ⟨[], by simp, .refl _, by simp, by simp, rfl, Or.inl (.singleton _), fun n _ => by simp⟩
    | cons q rest =>
      rw [subLoop] at h
      by_cases hc : underCap (done.length + 1 + (rest.length + 1)) cap = true
      · rw [if_pos hc] at h; cases h
      · rw [if_neg hc] at h
        cases h
        refine ⟨q :: rest, by simp, .refl _, hr, hinc, rfl, Or.inr ?_, fun n _ => ?_⟩
        · cases cap with
          | none => exact absurd rfl hc
          | some n =>
            refine ⟨n, rfl, ?_⟩
            simp only [underCap, decide_eq_true_eq, not_lt] at hc
            simp only [List.length_append, List.length_reverse, List.length_cons]
            omega
        · refine le_max_of_le_right ?_
          simp only [List.length_append, List.length_reverse, List.length_cons]
          omega
  | succ fuel ih =>
    intro done p rest l h hp hr hinc
    cases rest with
    | nil =>
      rw [subLoop] at h
      cases h
      exact ⟨[], by simp, .refl _, by simp, by simp, rfl, Or.inl (.singleton _), fun n _ => by simp⟩
    | cons q rest =>
      rw [subLoop] at h
      have hcons := List.pairwise_cons.1 hinc
      have hcons2 := List.pairwise_cons.1 hcons.2
      have hpq : p.1 < q.1 := hcons.1 q List.mem_cons_self
      by_cases hc : underCap (done.length + 1 + (rest.length + 1)) cap = true
      · rw [if_pos hc] at h
        cases hft : fracTest c err p q [1 / 5, 1 / 2, 4 / 5] with
        | some m =>
          rw [hft] at h
          obtain ⟨g1, g2, g3, _, _⟩ := fracTest_mid hft hpq
          obtain ⟨m', h1, h2, h3, h4, h5, h6, h7⟩ := ih done p (m :: q :: rest) l h hp
            (by
              intro x hx
              rcases List.mem_cons.1 hx with rfl | hx
              · exact g3
              · exact hr x hx)
            (by
              refine List.pairwise_cons.2 ⟨?_, List.pairwise_cons.2 ⟨?_, hcons.2⟩⟩
              · intro x hx
                rcases List.mem_cons.1 hx with rfl | hx
                · exact g1
                · exact hcons.1 x hx
              · intro x hx
                rcases List.mem_cons.1 hx with rfl | hx
                · exact g2
                · exact g2.trans (hcons2.1 x hx))
          refine ⟨m', h1, (List.sublist_cons_self _ _).trans h2, h3, h4, ?_, h6, ?_⟩
          · rw [h5]; simp [List.getLast?_cons]
          · intro n hn
            have := h7 n hn
            rw [hn] at hc
            simp only [underCap, decide_eq_true_eq] at hc
            simp only [List.length_cons] at this ⊢
            omega
        | none =>
          rw [hft] at h
          obtain ⟨m', h1, h2, h3, h4, h5, h6, h7⟩ := ih (p :: done) q rest l h (hr q List.mem_cons_self)
            (fun x hx => hr x (List.mem_cons_of_mem _ hx)) hcons.2
          refine ⟨q :: m', by rw [h1]; simp, h2.cons_cons q, ?_, ?_, ?_, ?_, ?_⟩
          · intro x hx
            rcases List.mem_cons.1 hx with rfl | hx
            · exact hr x List.mem_cons_self
            · exact h3 x hx
          · refine List.pairwise_cons.2 ⟨?_, h4⟩
            intro x hx
            rcases List.mem_cons.1 hx with rfl | hx
            · exact hpq
            · exact hpq.trans ((List.pairwise_cons.1 h4).1 x hx)
          · rw [List.getLast?_cons_cons, h5, List.getLast?_cons_cons]
          · rcases h6 with h6 | h6
            · exact Or.inl (h6.cons_cons (fracTest_close hft))
            · exact Or.inr h6
          · intro n hn
            have := h7 n hn
            simp only [List.length_cons] at this ⊢
            omega
      · rw [if_neg hc] at h
        cases h
        refine ⟨q :: rest, by simp, .refl _, hr, hinc, rfl, Or.inr ?_, fun n _ => ?_⟩
        · cases cap with
          | none => exact absurd rfl hc
          | some n =>
            refine ⟨n, rfl, ?_⟩
            simp only [underCap, decide_eq_true_eq, not_lt] at hc
            simp only [List.length_append, List.length_reverse, List.length_cons]
            omega
        · refine le_max_of_le_right ?_
          simp only [List.length_append, List.length_reverse, List.length_cons]
          omega

theorem subLoop_ends (c : K → Pt K) (err : K) (n : Nat) (fuel : Nat) :
    ∀ (done : List (K × Pt K)) (p : K × Pt K) (rest : List (K × Pt K)),
      2 * (n - (done.length + 1 + rest.length)) + rest.length ≤ fuel →
      ∃ l, subLoop c err (some n) fuel done p rest = some l := by
  induction fuel with
  | zero =>
    intro done p rest h
    cases rest with
    | nil => exact ⟨_, rfl⟩
    | cons q rest => simp only [List.length_cons] at h; omega
  | succ fuel ih =>
    intro done p rest h
    cases rest with
    | nil => exact ⟨_, rfl⟩
    | cons q rest =>
      rw [subLoop]
      by_cases hc : underCap (done.length + 1 + (rest.length + 1)) (some n) = true
      · rw [if_pos hc]
        simp only [underCap, decide_eq_true_eq] at hc
        simp only [List.length_cons] at h
        cases hft : fracTest c err p q [1 / 5, 1 / 2, 4 / 5] with
        | some m => exact ih done p (m :: q :: rest) (by simp only [List.length_cons]; omega)
        | none => exact ih (p :: done) q rest (by simp only [List.length_cons]; omega)
      · rw [if_neg hc]
        exact ⟨_, rfl⟩

/-- **C56.** `_SubPath.points(u0, u1, arm)` ends for every curve, tolerance and limit, within `2 * max_evals` rounds.
It returns points of the curve in increasing order of the parameter, from `u0` to `u1`, not more than `max_evals`
(or two); if fewer, then every chord passes the three tests of the tolerance. -/
theorem C56_points (c : K → Pt K) (err : K) (maxEvals fuel : Nat) (hfuel : 2 * maxEvals + 1 ≤ fuel) (u0 u1 : K)
    (hu : u0 < u1) : ∃ l, subPoints c err maxEvals fuel u0 u1 = some l ∧ Samples c u0 u1 l ∧
      l.length ≤ max maxEvals 2 ∧ (l.IsChain (Close3 c err) ∨ l.length = max maxEvals 2) := by
  obtain ⟨l, hl⟩ := subLoop_ends c err maxEvals fuel [] (u0, c u0) [(u1, c u1)] (by simp; omega)
  refine ⟨l, hl, ?_⟩
  obtain ⟨m, h1, h2, h3, h4, h5, h6, h7⟩ := subLoop_spec c err (some maxEvals) fuel [] (u0, c u0) [(u1, c u1)] l hl rfl
    (by simp) (by simpa using hu)
  rw [List.reverse_nil, List.nil_append] at h1
  subst h1
  have hlen := h7 maxEvals rfl
  have h2l := h2.length_le
  simp only [List.length_cons, List.length_nil] at hlen h2l
  refine ⟨⟨?_, h4, rfl, h5⟩, ?_, ?_⟩
  · intro q hq
    rcases List.mem_cons.1 hq with rfl | hq
    · rfl
    · exact h3 q hq
  · simp only [List.length_cons]; omega
  · rcases h6 with h6 | ⟨n, hn, h6⟩
    · exact Or.inl h6
    · cases hn
      simp only [List.length_cons] at h6 ⊢
      right
      omega

theorem subLoop_interval (c : K → Pt K) (u0 u1 L err d0 : K) (hf : Lipschitz c u0 u1 L) (hL : 0 ≤ L)
    (hd0 : (L * d0) ^ 2 ≤ 2 * err) (k : Nat) :
    ∀ (done : List (K × Pt K)) (p q : K × Pt K) (rest : List (K × Pt K)), p.2 = c p.1 → q.2 = c q.1 →
      u0 ≤ p.1 → p.1 < q.1 → q.1 ≤ u1 → q.1 - p.1 ≤ d0 * (5 / 4) ^ k →
      ∃ n done', ∀ fuel, subLoop c err none (fuel + n) done p (q :: rest) = subLoop c err none fuel done' q rest := by
  induction k with
  | zero =>
    intro done p q rest hp hq h0 hpq h1 hd
    rw [pow_zero, mul_one] at hd
    refine ⟨1, p :: done, fun fuel => ?_⟩
    rw [subLoop]
    simp only [underCap, if_true]
    have hw : 0 ≤ L * (q.1 - p.1) := mul_nonneg hL (by linarith)
    cases hft : fracTest c err p q [1 / 5, 1 / 2, 4 / 5] with
    | none => rfl
    | some m =>
      obtain ⟨f, hf1, _, _, hf2⟩ := fracTest_some hft
      refine absurd (close_short c u0 u1 L err hf hL p q hp hq h0 hpq.le h1 ?_ f ?_ ?_) hf2
      · exact (pow_le_pow_left₀ hw (mul_le_mul_of_nonneg_left hd hL) 2).trans hd0
      · simp only [List.mem_cons, List.not_mem_nil, or_false] at hf1
        rcases hf1 with rfl | rfl | rfl <;> norm_num
      · simp only [List.mem_cons, List.not_mem_nil, or_false] at hf1
        rcases hf1 with rfl | rfl | rfl <;> norm_num
  | succ k ih =>
    intro done p q rest hp hq h0 hpq h1 hd
    cases hft : fracTest c err p q [1 / 5, 1 / 2, 4 / 5] with
    | some m =>
      obtain ⟨g1, g2, g3, g4, g5⟩ := fracTest_mid hft hpq
      have hd' : 4 / 5 * (q.1 - p.1) ≤ d0 * (5 / 4) ^ k := by rw [pow_succ] at hd; linarith
      obtain ⟨n1, done1, k1⟩ := ih done p m (q :: rest) hp g3 h0 g1 (g2.le.trans h1) (by linarith)
      obtain ⟨n2, done2, k2⟩ := ih done1 m q rest g3 hq (h0.trans g1.le) g2 h1 (by linarith)
      refine ⟨n2 + n1 + 1, done2, fun fuel => ?_⟩
      have : fuel + (n2 + n1 + 1) = (fuel + n2) + n1 + 1 := by omega
      rw [this, subLoop]
      simp only [underCap, if_true, hft]
      rw [k1, k2]
    | none =>
      refine ⟨1, p :: done, fun fuel => ?_⟩
      rw [subLoop]
      simp only [underCap, if_true, hft]

/-- **C56.** Without a limit, as in `FlexPath.parametric`, the loop ends for every curve without jumps, and then
every chord passes the three tests. -/
theorem C56_unlimited [Archimedean K] (c : K → Pt K) (err L : K) (hf : Lipschitz c 0 1 L) (herr : 0 < err) :
    ∃ n l, (∀ fuel, subLoop c err none (fuel + n) [] (0, c 0) [(1, c 1)] = some l) ∧ Samples c 0 1 l ∧
      l.IsChain (Close3 c err) := by
  have hL : Lipschitz c 0 1 |L| := by
    intro a b ha hab hb
    obtain ⟨h1, h2⟩ := hf a b ha hab hb
    have : L * (b - a) ≤ |L| * (b - a) := mul_le_mul_of_nonneg_right (le_abs_self L) (by linarith)
    exact ⟨h1.trans this, h2.trans this⟩
  obtain ⟨d0, hd, hd'⟩ := exists_step |L| err (abs_nonneg _) herr
  obtain ⟨k, hk⟩ := pow_unbounded_of_one_lt (1 / d0) (by norm_num : (1 : K) < 5 / 4)
  have hk' : (1 : K) - 0 ≤ d0 * (5 / 4) ^ k := by
    rw [div_lt_iff₀ hd] at hk
    linarith
  obtain ⟨n, done, hn⟩ := subLoop_interval c 0 1 |L| err d0 hL (abs_nonneg _) hd' k [] (0, c 0) (1, c 1) [] rfl rfl
    (le_refl _) one_pos (le_refl _) hk'
  have hres : ∀ fuel, subLoop c err none (fuel + n) [] (0, c 0) [(1, c 1)] = some (((1, c 1) :: done).reverse) := by
    intro fuel
    rw [hn]
    cases fuel <;> rfl
  refine ⟨n, _, hres, ?_⟩
  obtain ⟨m, h1, h2, h3, h4, h5, h6, h7⟩ := subLoop_spec c err none _ [] (0, c 0) [(1, c 1)] _ (hres 0) rfl
    (by simp) (by simp)
  rw [List.reverse_nil, List.nil_append] at h1
  rw [h1]
  refine ⟨⟨?_, h4, rfl, h5⟩, ?_⟩
  · intro q hq
    rcases List.mem_cons.1 hq with rfl | hq
    · rfl
    · exact h3 q hq
  · rcases h6 with h6 | ⟨n, hn, _⟩
    · exact h6
    · cases hn

/-- A parabola sampled with a limit that is reached, and with one that is not. -/
example : (subPoints (fun u : ℚ => (u, u ^ 2)) ((1 / 100) ^ 2) 4 9 0 1).map List.length = some 4 ∧
    (subPoints (fun u : ℚ => (u, u ^ 2)) ((1 / 20) ^ 2) 100 201 0 1).map (List.map Prod.fst) =
      some [0, 1 / 5, 9 / 25, 61 / 125, 93 / 125, 1] := by
  decide +kernel

end Gdspy
