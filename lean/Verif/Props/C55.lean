import Verif.Model.Sampling
import Verif.Props.C58
import Mathlib.Algebra.Order.Archimedean.Basic
import Mathlib.Tactic.Positivity

/-!
# C55: adaptive sampling of curves
-/

set_option linter.unusedSectionVars false

namespace Gdspy

open Spec

variable {K : Type} [Field K] [LinearOrder K] [IsStrictOrderedRing K]

theorem midTest (f : K → Pt K) (err : K) (p q : K × Pt K) :
    ¬ sqErr (midPt q.2 p.2) (f ((q.1 + p.1) / 2)) > err ↔ CloseAt f err (1 / 2) p q := by
  unfold CloseAt
  have e1 : (q.1 + p.1) / 2 = (1 - 1 / 2) * p.1 + 1 / 2 * q.1 := by ring
  have e2 : midPt q.2 p.2 = onChord p.2 q.2 (1 / 2) := by
    unfold midPt onChord
    refine Prod.ext ?_ ?_ <;> simp only <;> ring
  rw [e1, e2, not_lt]
  rfl

theorem midLoop_spec (f : K → Pt K) (err : K) (fuel : Nat) (done : List (K × Pt K)) (p : K × Pt K)
    (rest : List (K × Pt K)) (delta : K) (l : List (K × Pt K)) (d : K)
    (h : midLoop f err fuel done p rest delta = some (l, d)) (hp : p.2 = f p.1) (hr : ∀ q ∈ rest, q.2 = f q.1)
    (hinc : (p :: rest).Pairwise fun a b => a.1 < b.1) :
    ∃ m, l = done.reverse ++ p :: m ∧ rest.Sublist m ∧ (∀ q ∈ m, q.2 = f q.1) ∧
      (p :: m).Pairwise (fun a b => a.1 < b.1) ∧ (p :: m).IsChain (CloseAt f err (1 / 2)) ∧
      (p :: m).getLast? = (p :: rest).getLast? := by
  induction fuel generalizing done p rest delta with
  | zero =>
    cases rest with
    | nil =>
      rw [midLoop] at h
      cases h
      exact ⟨[], by simp, .refl _, by simp, by simp, .singleton _, rfl⟩
    | cons q rest => cases h
  | succ fuel ih =>
    cases rest with
    | nil =>
      rw [midLoop] at h
      cases h
      exact ⟨[], by simp, .refl _, by simp, by simp, .singleton _, rfl⟩
    | cons q rest =>
      rw [midLoop] at h
      have hpq : p.1 < q.1 := (List.pairwise_cons.1 hinc).1 q List.mem_cons_self
      by_cases ht : sqErr (midPt q.2 p.2) (f ((q.1 + p.1) / 2)) > err
      · simp only [ht, if_true] at h
        obtain ⟨m, h1, h2, h3, h4, h5, h6⟩ := ih done p _ _ h hp
          (by
            intro x hx
            rcases List.mem_cons.1 hx with rfl | hx
            · rfl
            · exact hr x hx)
          (by
            have hq := (List.pairwise_cons.1 hinc)
            have hq2 := List.pairwise_cons.1 hq.2
            refine List.pairwise_cons.2 ⟨?_, List.pairwise_cons.2 ⟨?_, hq.2⟩⟩
            · intro x hx
              rcases List.mem_cons.1 hx with rfl | hx
              · simp only; linarith
              · exact hq.1 x hx
            · intro x hx
              rcases List.mem_cons.1 hx with rfl | hx
              · simp only; linarith
              · have := hq2.1 x hx
                simp only; linarith)
        refine ⟨m, h1, ?_, h3, h4, h5, ?_⟩
        · exact (List.sublist_cons_self _ _).trans h2
        · rw [h6]
          simp [List.getLast?_cons]
      · simp only [ht, if_false] at h
        obtain ⟨m, h1, h2, h3, h4, h5, h6⟩ := ih (p :: done) q rest _ h (hr q List.mem_cons_self)
          (fun x hx => hr x (List.mem_cons_of_mem _ hx)) (List.pairwise_cons.1 hinc).2
        refine ⟨q :: m, by rw [h1]; simp, h2.cons_cons q, ?_, ?_, ?_, ?_⟩
        · intro x hx
          rcases List.mem_cons.1 hx with rfl | hx
          · exact hr x List.mem_cons_self
          · exact h3 x hx
        · refine List.pairwise_cons.2 ⟨?_, h4⟩
          intro x hx
          rcases List.mem_cons.1 hx with rfl | hx
          · exact hpq
          · exact hpq.trans ((List.pairwise_cons.1 h4).1 x hx)
        · exact h5.cons_cons ((midTest f err p q).1 ht)
        · rw [List.getLast?_cons_cons, h6, List.getLast?_cons_cons]

/-- **C55.** What the refinement loop of `Curve` and `Path.parametric` returns for increasing parameters: points of
the curve in increasing order of the parameter, with all the given ones among them, from the first to the last,
and the middle of each chord is within the tolerance of the point of the curve at the middle parameter. -/
theorem C55_refined (f : K → Pt K) (err : K) (fuel : Nat) (us : List K) (delta : K) (l : List (K × Pt K)) (d : K)
    (u0 u1 : K) (h0 : us.head? = some u0) (h1 : us.getLast? = some u1) (hinc : us.Pairwise (· < ·))
    (h : midSample f err fuel us delta = some (l, d)) :
    Samples f u0 u1 l ∧ (us.map fun u => (u, f u)).Sublist l ∧ l.IsChain (CloseAt f err (1 / 2)) := by
  cases us with
  | nil => cases h0
  | cons u us =>
    cases h0
    unfold midSample at h
    obtain ⟨m, e1, e2, e3, e4, e5, e6⟩ := midLoop_spec f err fuel [] (u0, f u0) _ delta l d h rfl
      (by
        intro q hq
        obtain ⟨v, _, rfl⟩ := List.mem_map.1 hq
        rfl)
      (by
        have : ((u0 :: us).map fun u => (u, f u)).Pairwise fun a b => a.1 < b.1 := List.pairwise_map.2 hinc
        simpa using this)
    rw [List.reverse_nil, List.nil_append] at e1
    subst e1
    refine ⟨⟨?_, e4, rfl, ?_⟩, ?_, e5⟩
    · intro q hq
      rcases List.mem_cons.1 hq with rfl | hq
      · rfl
      · exact e3 q hq
    · rw [e6]
      have : (u0, f u0) :: us.map (fun u => (u, f u)) = (u0 :: us).map fun u => (u, f u) := rfl
      rw [this, List.getLast?_map, h1]
      rfl
    · exact e2.cons_cons _

/-! ### The loop ends -/

theorem sq_sum_le {a b m err : K} (ha : |a| ≤ m) (hb : |b| ≤ m) (hm : 2 * m ^ 2 ≤ err) : a ^ 2 + b ^ 2 ≤ err := by
  have h1 := sq_le_sq' (by have := neg_abs_le a; linarith) ((le_abs_self a).trans ha)
  have h2 := sq_le_sq' (by have := neg_abs_le b; linarith) ((le_abs_self b).trans hb)
  linarith

theorem close_coord {x y z s L w : K} (hs0 : 0 ≤ s) (hs1 : s ≤ 1) (hL : 0 ≤ L * w)
    (h1 : |z - x| ≤ L * (s * w)) (h2 : |y - z| ≤ L * ((1 - s) * w)) :
    |(1 - s) * x + s * y - z| ≤ L * w / 2 := by
  have h1' := abs_le.1 h1
  have h2' := abs_le.1 h2
  have e : (1 - s) * x + s * y - z = s * (y - z) - (1 - s) * (z - x) := by ring
  have hs2 : 0 ≤ 1 - s := by linarith
  have q : s * (1 - s) ≤ 1 / 4 := by nlinarith [sq_nonneg (2 * s - 1)]
  have q' : s * (1 - s) * (L * w) ≤ 1 / 4 * (L * w) := mul_le_mul_of_nonneg_right q hL
  rw [e, abs_le]
  have m1 := mul_le_mul_of_nonneg_left h2'.1 hs0
  have m2 := mul_le_mul_of_nonneg_left h2'.2 hs0
  have m3 := mul_le_mul_of_nonneg_left h1'.1 hs2
  have m4 := mul_le_mul_of_nonneg_left h1'.2 hs2
  constructor <;> nlinarith

/-- A chord of a short interval is close to the curve everywhere. -/
theorem close_short (f : K → Pt K) (u0 u1 L err : K) (hf : Lipschitz f u0 u1 L) (hL : 0 ≤ L) (a b : K × Pt K)
    (ha : a.2 = f a.1) (hb : b.2 = f b.1) (h0 : u0 ≤ a.1) (hab : a.1 ≤ b.1) (h1 : b.1 ≤ u1)
    (hd : (L * (b.1 - a.1)) ^ 2 ≤ 2 * err) (s : K) (hs0 : 0 ≤ s) (hs1 : s ≤ 1) : CloseAt f err s a b := by
  have hs2 : 0 ≤ 1 - s := by linarith
  have hw : 0 ≤ b.1 - a.1 := by linarith
  have hsw : 0 ≤ s * (b.1 - a.1) := mul_nonneg hs0 hw
  have hsw' : 0 ≤ (1 - s) * (b.1 - a.1) := mul_nonneg hs2 hw
  have hu : a.1 ≤ (1 - s) * a.1 + s * b.1 := by linarith
  have hv : (1 - s) * a.1 + s * b.1 ≤ b.1 := by linarith
  have k1 := hf a.1 ((1 - s) * a.1 + s * b.1) h0 hu (hv.trans h1)
  have k2 := hf ((1 - s) * a.1 + s * b.1) b.1 (h0.trans hu) hv h1
  have e1 : (1 - s) * a.1 + s * b.1 - a.1 = s * (b.1 - a.1) := by ring
  have e2 : b.1 - ((1 - s) * a.1 + s * b.1) = (1 - s) * (b.1 - a.1) := by ring
  rw [e1] at k1
  rw [e2] at k2
  have hLw : 0 ≤ L * (b.1 - a.1) := mul_nonneg hL hw
  unfold CloseAt sqDist onChord
  rw [ha, hb]
  refine sq_sum_le (m := L * (b.1 - a.1) / 2) ?_ ?_ ?_
  · exact close_coord hs0 hs1 hLw k1.1 k2.1
  · exact close_coord hs0 hs1 hLw k1.2 k2.2
  · have : 2 * (L * (b.1 - a.1) / 2) ^ 2 = (L * (b.1 - a.1)) ^ 2 / 2 := by ring
    rw [this]; linarith

theorem midLoop_interval (f : K → Pt K) (u0 u1 L err d0 : K) (hf : Lipschitz f u0 u1 L) (hL : 0 ≤ L)
    (hd0 : (L * d0) ^ 2 ≤ 2 * err) (k : Nat) :
    ∀ (done : List (K × Pt K)) (p q : K × Pt K) (rest : List (K × Pt K)) (delta : K), p.2 = f p.1 → q.2 = f q.1 →
      u0 ≤ p.1 → p.1 ≤ q.1 → q.1 ≤ u1 → q.1 - p.1 ≤ d0 * 2 ^ k →
      ∃ n done' delta', ∀ fuel, midLoop f err (fuel + n) done p (q :: rest) delta =
        midLoop f err fuel done' q rest delta' := by
  induction k with
  | zero =>
    intro done p q rest delta hp hq h0 hpq h1 hd
    rw [pow_zero, mul_one] at hd
    refine ⟨1, p :: done, delta, fun fuel => ?_⟩
    rw [midLoop]
    have hw : 0 ≤ L * (q.1 - p.1) := mul_nonneg hL (by linarith)
    have : ¬ sqErr (midPt q.2 p.2) (f ((q.1 + p.1) / 2)) > err := by
      rw [midTest]
      refine close_short f u0 u1 L err hf hL p q hp hq h0 hpq h1 ?_ _ (by norm_num) (by norm_num)
      exact (pow_le_pow_left₀ hw (mul_le_mul_of_nonneg_left hd hL) 2).trans hd0
    simp only [this, if_false]
  | succ k ih =>
    intro done p q rest delta hp hq h0 hpq h1 hd
    by_cases ht : sqErr (midPt q.2 p.2) (f ((q.1 + p.1) / 2)) > err
    · have e1 : p.1 ≤ (q.1 + p.1) / 2 := by linarith
      have e2 : (q.1 + p.1) / 2 ≤ q.1 := by linarith
      have hd' : q.1 - p.1 ≤ 2 * (d0 * 2 ^ k) := by rw [pow_succ] at hd; linarith
      obtain ⟨n1, done1, delta1, k1⟩ := ih done p ((q.1 + p.1) / 2, f ((q.1 + p.1) / 2)) (q :: rest)
        (min delta (q.1 - (q.1 + p.1) / 2)) hp rfl h0 e1 (e2.trans h1) (by simp only; linarith)
      obtain ⟨n2, done2, delta2, k2⟩ := ih done1 ((q.1 + p.1) / 2, f ((q.1 + p.1) / 2)) q rest delta1 rfl hq
        (h0.trans e1) e2 h1 (by simp only; linarith)
      refine ⟨n2 + n1 + 1, done2, delta2, fun fuel => ?_⟩
      have : fuel + (n2 + n1 + 1) = (fuel + n2) + n1 + 1 := by omega
      rw [this, midLoop]
      simp only [ht, if_true]
      rw [k1, k2]
    · refine ⟨1, p :: done, delta, fun fuel => ?_⟩
      rw [midLoop]
      simp only [ht, if_false]

theorem midLoop_ends [Archimedean K] (f : K → Pt K) (u0 u1 L err d0 : K) (hf : Lipschitz f u0 u1 L) (hL : 0 ≤ L)
    (hpos : 0 < d0) (hd0 : (L * d0) ^ 2 ≤ 2 * err) (rest : List (K × Pt K)) :
    ∀ (done : List (K × Pt K)) (p : K × Pt K) (delta : K), p.2 = f p.1 → (∀ q ∈ rest, q.2 = f q.1) → u0 ≤ p.1 →
      (p :: rest).Pairwise (fun a b => a.1 < b.1) → (∀ q ∈ rest, q.1 ≤ u1) →
      ∃ n r, ∀ fuel, midLoop f err (fuel + n) done p rest delta = some r := by
  induction rest with
  | nil =>
    intro done p delta _ _ _ _ _
    refine ⟨0, ((p :: done).reverse, delta), fun fuel => ?_⟩
    cases fuel <;> rfl
  | cons q rest ih =>
    intro done p delta hp hr h0 hinc h1
    have hc := List.pairwise_cons.1 hinc
    have hpq := hc.1 q List.mem_cons_self
    obtain ⟨k, hk⟩ := pow_unbounded_of_one_lt ((q.1 - p.1) / d0) (one_lt_two : (1 : K) < 2)
    have hk' : q.1 - p.1 ≤ d0 * 2 ^ k := by
      rw [div_lt_iff₀ hpos] at hk
      linarith
    obtain ⟨n1, done1, delta1, k1⟩ := midLoop_interval f u0 u1 L err d0 hf hL hd0 k done p q rest delta hp
      (hr q List.mem_cons_self) h0 hpq.le (h1 q List.mem_cons_self) hk'
    obtain ⟨n2, r, k2⟩ := ih done1 q delta1 (hr q List.mem_cons_self) (fun x hx => hr x (List.mem_cons_of_mem _ hx))
      (h0.trans hpq.le) hc.2 (fun x hx => h1 x (List.mem_cons_of_mem _ hx))
    refine ⟨n2 + n1, r, fun fuel => ?_⟩
    rw [← add_assoc, k1, k2]

theorem exists_step (L err : K) (hL : 0 ≤ L) (herr : 0 < err) : ∃ d0 : K, 0 < d0 ∧ (L * d0) ^ 2 ≤ 2 * err := by
  have hpos : 0 < L + 1 := by linarith
  rcases le_total err 1 with h | h
  · refine ⟨err / (L + 1), div_pos herr hpos, ?_⟩
    have h1 : L * (err / (L + 1)) ≤ err := by
      rw [mul_div_assoc', div_le_iff₀ hpos]
      nlinarith
    have h2 : 0 ≤ L * (err / (L + 1)) := by positivity
    have := pow_le_pow_left₀ h2 h1 2
    nlinarith
  · refine ⟨1 / (L + 1), by positivity, ?_⟩
    have h1 : L * (1 / (L + 1)) ≤ 1 := by
      rw [mul_div_assoc', div_le_iff₀ hpos]
      nlinarith
    have h2 : 0 ≤ L * (1 / (L + 1)) := by positivity
    have := pow_le_pow_left₀ h2 h1 2
    nlinarith

/-- **C55.** The refinement loop ends for every curve without jumps and every positive tolerance. -/
theorem C55_ends [Archimedean K] (f : K → Pt K) (u0 u1 L err : K) (hf : Lipschitz f u0 u1 L) (herr : 0 < err)
    (us : List K) (hinc : us.Pairwise (· < ·)) (hus : ∀ u ∈ us, u0 ≤ u ∧ u ≤ u1) (delta : K) :
    ∃ n r, ∀ fuel, midSample f err (fuel + n) us delta = some r := by
  cases us with
  | nil => exact ⟨0, ([], delta), fun _ => rfl⟩
  | cons u us =>
    have hu0 := hus u List.mem_cons_self
    have hL : Lipschitz f u0 u1 |L| := by
      intro a b ha hab hb
      obtain ⟨h1, h2⟩ := hf a b ha hab hb
      have : L * (b - a) ≤ |L| * (b - a) := mul_le_mul_of_nonneg_right (le_abs_self L) (by linarith)
      exact ⟨h1.trans this, h2.trans this⟩
    obtain ⟨d0, hd, hd'⟩ := exists_step |L| err (abs_nonneg _) herr
    exact midLoop_ends f u0 u1 |L| err d0 hL (abs_nonneg _) hd hd' (us.map fun u => (u, f u)) [] (u, f u) delta rfl
      (by
        intro q hq
        obtain ⟨v, _, rfl⟩ := List.mem_map.1 hq
        rfl) hu0.1
      (by
        have : ((u :: us).map fun u => (u, f u)).Pairwise fun a b => a.1 < b.1 := List.pairwise_map.2 hinc
        simpa using this)
      (by
        intro q hq
        obtain ⟨v, hv, rfl⟩ := List.mem_map.1 hq
        exact (hus v (List.mem_cons_of_mem _ hv)).2)

/-- A bound for the coefficients. -/
theorem exists_ptBound (n : Nat) (g : Nat → K) : ∃ M, 0 ≤ M ∧ ∀ i, i ≤ n → |g i| ≤ M := by
  induction n with
  | zero =>
    refine ⟨|g 0|, abs_nonneg _, fun i hi => ?_⟩
    rw [Nat.le_zero.1 hi]
  | succ n ih =>
    obtain ⟨M, h0, h⟩ := ih
    refine ⟨max M |g (n + 1)|, le_max_of_le_left h0, fun i hi => ?_⟩
    rcases Nat.le_succ_iff.1 hi with hi | rfl
    · exact le_max_of_le_left (h i hi)
    · exact le_max_right _ _

theorem bern_bound (n : Nat) (g : Nat → K) (M : K) (hM : ∀ i, i ≤ n → |g i| ≤ M) (u : K) (h0 : 0 ≤ u) (h1 : u ≤ 1) :
    |bern n g u| ≤ M := by
  rw [abs_le]
  constructor
  · rw [← bern_const n (-M) u]
    exact bern_mono n _ _ (fun i hi => (abs_le.1 (hM i hi)).1) u h0 h1
  · rw [← bern_const n M u]
    exact bern_mono n _ _ (fun i hi => (abs_le.1 (hM i hi)).2) u h0 h1

theorem bern_lipschitz (n : Nat) (g : Nat → K) (M : K) (hM : ∀ i, i ≤ n → |g i| ≤ M) (u v : K)
    (h0 : 0 ≤ u) (huv : u ≤ v) (h1 : v ≤ 1) : |bern n g v - bern n g u| ≤ 2 * n * M * (v - u) := by
  induction n generalizing g with
  | zero => rw [bern_zero, bern_zero, sub_self, abs_zero]; simp
  | succ n ih =>
    have hT := ih (fun i => g (i + 1)) fun i hi => hM _ (Nat.succ_le_succ hi)
    have hI := ih g fun i hi => hM i (Nat.le_succ_of_le hi)
    have bT := bern_bound n (fun i => g (i + 1)) M (fun i hi => hM _ (Nat.succ_le_succ hi)) u h0 (huv.trans h1)
    have bI := bern_bound n g M (fun i hi => hM i (Nat.le_succ_of_le hi)) u h0 (huv.trans h1)
    rw [bern_split, bern_split]
    have e : v * bern n (fun i => g (i + 1)) v + (1 - v) * bern n g v
        - (u * bern n (fun i => g (i + 1)) u + (1 - u) * bern n g u)
        = v * (bern n (fun i => g (i + 1)) v - bern n (fun i => g (i + 1)) u)
          + (1 - v) * (bern n g v - bern n g u) + (v - u) * (bern n (fun i => g (i + 1)) u - bern n g u) := by ring
    rw [e]
    have hv0 : 0 ≤ v := h0.trans huv
    have hv1 : 0 ≤ 1 - v := by linarith
    have hw : 0 ≤ v - u := by linarith
    have t1 := abs_le.1 hT
    have t2 := abs_le.1 hI
    have t3 := abs_le.1 bT
    have t4 := abs_le.1 bI
    have a1 := mul_le_mul_of_nonneg_left t1.1 hv0
    have a2 := mul_le_mul_of_nonneg_left t1.2 hv0
    have a3 := mul_le_mul_of_nonneg_left t2.1 hv1
    have a4 := mul_le_mul_of_nonneg_left t2.2 hv1
    have a5 : (v - u) * (bern n (fun i => g (i + 1)) u - bern n g u) ≤ (v - u) * (2 * M) :=
      mul_le_mul_of_nonneg_left (by linarith) hw
    have a6 : (v - u) * (-(2 * M)) ≤ (v - u) * (bern n (fun i => g (i + 1)) u - bern n g u) :=
      mul_le_mul_of_nonneg_left (by linarith) hw
    push_cast
    rw [abs_le]
    constructor <;> nlinarith

/-- **C55.** Bezier curves have no jumps, so that sampling them ends (`C55_ends`), whatever the degree. -/
theorem C55_bezier_lipschitz (ctrl : List (Pt K)) (h : ctrl ≠ []) : ∃ L, Lipschitz (funcBezier ctrl) 0 1 L := by
  obtain ⟨M1, _, hM1⟩ := exists_ptBound (ctrl.length - 1) fun i => (ctrl.getD i (0, 0)).1
  obtain ⟨M2, _, hM2⟩ := exists_ptBound (ctrl.length - 1) fun i => (ctrl.getD i (0, 0)).2
  refine ⟨2 * (ctrl.length - 1 : Nat) * max M1 M2, ?_⟩
  intro u v hu huv hv
  rw [C58_formula _ h, C58_formula _ h]
  exact ⟨bern_lipschitz _ _ _ (fun i hi => (hM1 i hi).trans (le_max_left _ _)) u v hu huv hv,
    bern_lipschitz _ _ _ (fun i hi => (hM2 i hi).trans (le_max_right _ _)) u v hu huv hv⟩

/-! ### How far the chords are from the curve -/

/-- **C55.** For quadratic curves (`Q`, `q`, `T`, `t`) the test at the middle is enough: the whole chord is within
the tolerance. -/
theorem C55_quadratic (p q r : Pt K) (err : K) (a b : K × Pt K) (ha : a.2 = funcBezier [p, q, r] a.1)
    (hb : b.2 = funcBezier [p, q, r] b.1) (h : CloseAt (funcBezier [p, q, r]) err (1 / 2) a b) (s : K) (h0 : 0 ≤ s)
    (h1 : s ≤ 1) : CloseAt (funcBezier [p, q, r]) err s a b := by
  unfold CloseAt sqDist onChord at h ⊢
  have hf : ∀ u, funcBezier [p, q, r] u = _ := fun u => (C58_low p q r r u).2.1
  rw [ha, hb, hf, hf, hf] at h ⊢
  simp only at h ⊢
  have hk0 : 0 ≤ 4 * s * (1 - s) := mul_nonneg (by linarith) (by linarith)
  have hk1 : 4 * s * (1 - s) ≤ 1 := by nlinarith [sq_nonneg (2 * s - 1)]
  have hk2 : (4 * s * (1 - s)) ^ 2 ≤ 1 := by nlinarith
  generalize hA : (1 - 1 / 2 : K) * _ + 1 / 2 * _ - _ = A at h
  generalize hB : (1 - 1 / 2 : K) * _ + 1 / 2 * _ - _ = B at h
  have h' : (4 * s * (1 - s)) ^ 2 * (A ^ 2 + B ^ 2) ≤ err := by
    have : 0 ≤ A ^ 2 + B ^ 2 := by positivity
    nlinarith
  refine le_trans (le_of_eq ?_) h'
  rw [← hA, ← hB]
  ring

namespace C55

/-- The cubic curve x = u, y = 100 (u - 1/10)³. -/
def gapCtrl : List (Pt ℚ) := [(0, -1 / 10), (1 / 3, 9 / 10), (2 / 3, -81 / 10), (1, 729 / 10)]

/-- Its samples by `Curve.C` with tolerance 1/100. -/
def gapSamples : Option (List (ℚ × Pt ℚ) × ℚ) :=
  midSample (funcBezier gapCtrl) ((1 / 100) ^ 2) 1000 [0, 1 / 5, 1 / 2, 4 / 5, 1] 0

end C55

open C55 in
theorem gapSamples_eq : ∃ l d, gapSamples = some ((0, (0, -1 / 10)) :: (1 / 5, (1 / 5, 1 / 10)) :: l, d) ∧
    ∀ q ∈ l, 1 / 5 ≤ q.2.1 := by
  have h : (match gapSamples with
    | some (a :: b :: l, _) => decide (a = (0, (0, -1 / 10)) ∧ b = (1 / 5, (1 / 5, 1 / 10)) ∧ ∀ q ∈ l, 1 / 5 ≤ q.2.1)
    | _ => false) = true := by decide +kernel
  split at h
  · rename_i a b l d e
    obtain ⟨rfl, rfl, h3⟩ := of_decide_eq_true h
    exact ⟨l, d, e, h3⟩
  · cases h

open C55 in
/-- **C55.** For cubic curves the test at the middle is not enough: here all tests pass, but a point of the curve is
further than twice the tolerance from all of the polygonal line. (The documentation of `Curve` calls the tolerance
the one that is used to calculate a polygonal approximation.) -/
theorem C55_cubic_gap : ∃ l d u, gapSamples = some (l, d) ∧ 0 ≤ u ∧ u ≤ 1 ∧
    l.IsChain fun a b => ∀ s, 0 ≤ s → s ≤ 1 →
      (2 * (1 / 100)) ^ 2 < sqDist (onChord a.2 b.2 s) (funcBezier gapCtrl u) := by
  obtain ⟨l, d, h, hl⟩ := gapSamples_eq
  refine ⟨_, d, 3 / 20, h, by norm_num, by norm_num, ?_⟩
  have hf : funcBezier gapCtrl (3 / 20) = (3 / 20, 1 / 80) := by decide +kernel
  rw [hf]
  refine List.IsChain.cons_cons ?_ ?_
  · intro s _ _
    unfold sqDist onChord
    simp only
    nlinarith [sq_nonneg (s - 13 / 25), sq_nonneg (2 * s - 1)]
  · refine List.Pairwise.isChain ?_
    refine List.pairwise_of_forall_mem_list ?_
    have hl' : ∀ q ∈ ((1 / 5, (1 / 5, 1 / 10)) : ℚ × Pt ℚ) :: l, 1 / 5 ≤ q.2.1 := by
      intro q hq
      rcases List.mem_cons.1 hq with rfl | hq
      · exact le_refl _
      · exact hl q hq
    intro a ha b hb s h0 h1
    have h2 := hl' a ha
    have h3 := hl' b hb
    unfold sqDist onChord
    simp only
    have h4 : 1 / 5 ≤ (1 - s) * a.2.1 + s * b.2.1 := by nlinarith
    have h5 : (1 / 20 : ℚ) ^ 2 ≤ ((1 - s) * a.2.1 + s * b.2.1 - 3 / 20) ^ 2 :=
      pow_le_pow_left₀ (by norm_num) (by linarith) 2
    have h6 := sq_nonneg ((1 - s) * a.2.2 + s * b.2.2 - 1 / 80)
    linarith

/-- The loop on a quadratic curve: seven points. -/
example : (midSample (funcBezier [((0 : ℚ), 0), (1, 2), (2, 0)]) ((1 / 20) ^ 2) 100 [0, 1 / 5, 1 / 2, 4 / 5, 1] 0).map
    (fun r => r.1.map Prod.fst) = some [0, 1 / 5, 7 / 20, 1 / 2, 13 / 20, 4 / 5, 1] := by decide +kernel

end Gdspy
