import Verif.Spec.Strand
import Verif.Props.C56
import Verif.Props.C72

/-!
# C74: the outline of a RobustPath
-/

set_option linter.unusedSectionVars false

namespace Gdspy

open Spec

variable {K : Type} [Field K] [LinearOrder K]

theorem right_left (t : Num K) (v : Pt K) : rightNormal t v = (-(toLeft t v).1, -(toLeft t v).2) := by
  unfold rightNormal toLeft normSq
  simp only
  rw [show (v.2 * 1) ^ 2 + (v.1 * -1) ^ 2 = v.1 ^ 2 + v.2 ^ 2 by ring]
  refine Prod.ext ?_ ?_ <;> simp only <;> ring

theorem mid_centre (t : Num K) (s : Sub K) (u : K) : s.mid t u = centreLine t s u := by
  unfold Sub.mid centreLine
  rw [right_left]
  unfold padd psmul
  refine Prod.ext ?_ ?_ <;> simp only <;> ring

theorem across_heading (t : Num K) (s : Sub K) (u : K) :
    s.across t u = (-(toLeft t (lineHeading t s u)).1, -(toLeft t (lineHeading t s u)).2) := by
  unfold Sub.across
  rw [right_left, mid_centre, mid_centre]
  rfl

/-- The sides of the model. -/
theorem call_edge (t : Num K) (s : Sub K) (u : K) {arm : Int} (h : arm = -1 ∨ arm = 1 ∨ arm = 0) :
    s.call t u arm = edge t s (-(arm : K)) u := by
  unfold Sub.call edge Sub.raw
  rw [mid_centre, across_heading]
  rcases h with rfl | rfl | rfl
  · rw [if_neg (by decide), if_pos (by decide)]
    unfold psub psmul
    congr 1
    refine Prod.ext ?_ ?_ <;> simp only <;> push_cast <;> ring
  · rw [if_neg (by decide), if_neg (by decide)]
    unfold padd psmul
    congr 1
    refine Prod.ext ?_ ?_ <;> simp only <;> push_cast <;> ring
  · rw [if_pos rfl]
    congr 1
    refine Prod.ext ?_ ?_ <;> simp only <;> push_cast <;> ring

theorem subGrad_slope (h : K) (c : K → Pt K) (u : K) : subGrad h c u = stepSlope h c u := by
  unfold subGrad stepSlope psmul psub
  refine Prod.ext ?_ ?_ <;> simp only <;> ring

theorem grad_slope (t : Num K) (s : Sub K) (u : K) {arm : Int} (h : arm = -1 ∨ arm = 1 ∨ arm = 0) :
    s.grad t u arm = stepSlope s.h (edge t s (-(arm : K))) u := by
  unfold Sub.grad
  rw [subGrad_slope]
  congr 1
  funext u
  exact call_edge t s u h

variable [IsStrictOrderedRing K]

theorem points_sampled (t : Num K) {s : Sub K} {tol : K} {limit : Nat} (he : s.err = tol ^ 2) (hl : s.maxEvals = limit)
    {arm : Int} (h : arm = -1 ∨ arm = 1 ∨ arm = 0) {a b : K} (hab : a < b) :
    Sampled (edge t s (-(arm : K))) (tol ^ 2) limit a b (s.points t a b arm) := by
  have hc : (fun u => s.call t u arm) = edge t s (-(arm : K)) := funext fun u => call_edge t s u h
  unfold Sub.points
  rw [hc, he, hl]
  obtain ⟨l, h1, h2, h3, h4⟩ := C56_points (edge t s (-(arm : K))) (tol ^ 2) limit (2 * limit + 1) le_rfl a b hab
  exact ⟨l, h2, by rw [h1]; rfl, h3, h4⟩

/-- What the search for a common point finds. -/
theorem seek_spec (h0 h1 : K) (c0 c1 : K → Pt K) (tol : K) : ∀ (n : Nat) (u0 u1 step : K), u0 ≤ 1 → 0 ≤ u1 →
    let r := seek h0 h1 c0 c1 tol n u0 u1 step
    r.1 ≤ 1 ∧ 0 ≤ r.2 ∧ normSq (psub (c0 r.1) (c1 r.2)) ≤ normSq (psub (c0 u0) (c1 u1)) := by
  intro n
  induction n with
  | zero => intro u0 u1 step a b; exact ⟨a, b, le_rfl⟩
  | succ n ih =>
    intro u0 u1 step a b
    unfold seek
    simp only
    split
    · split
      · exact ih _ _ _ a b
      · rename_i hlt
        obtain ⟨i1, i2, i3⟩ := ih _ _ step (min_le_left _ _) (le_min zero_le_one (le_max_left _ _))
        exact ⟨i1, i2, i3.trans (le_of_lt (not_le.1 hlt))⟩
    · exact ⟨a, b, le_rfl⟩

theorem dist2_swap (p q : Pt K) : dist2 p q = normSq (psub q p) := by
  unfold dist2 normSq psub
  simp only
  ring

/-- The crossing found for two curves. -/
def joinCore (h0 h1 : K) (c0 c1 : K → Pt K) (tol : K) (limit : Nat) : K × K × Pt K :=
  let v0 := subGrad h0 c0 1
  let v1 := subGrad h1 c1 0
  let c := if (v1.2 * v0.1 - v1.1 * v0.2) ^ 2 < 1 / 10 ^ 12 * normSq v0 * normSq v1 ∨
      normSq (psub (c1 0) (c0 1)) ≤ tol ^ 2 then (0, 0, halfway (c0 1) (c1 0))
    else lineCross (c0 1) v0 (c1 0) v1
  if 1 + c.1 < 1 ∧ c.2.1 > 0 then
    let u := seek h0 h1 c0 c1 (tol ^ 2) limit (1 + c.1) c.2.1 (1 / 2)
    (u.1, u.2, halfway (c0 u.1) (c1 u.2))
  else (1 + c.1, c.2.1, c.2.2)

theorem join_core (t : Num K) (tol : K) (limit : Nat) (s s1 : Sub K) (arm : Int) : robustJoin t tol limit s s1 arm =
    joinCore s.h s1.h (fun u => s.call t u arm) (fun u => s1.call t u arm) tol limit := rfl

theorem lineCross_ok {p0 v0 p1 v1 : Pt K} (h : v1.2 * v0.1 - v1.1 * v0.2 ≠ 0) :
    let X := lineCross p0 v0 p1 v1
    X.2.2 = (p0.1 + X.1 * v0.1, p0.2 + X.1 * v0.2) ∧ X.2.2 = (p1.1 + X.2.1 * v1.1, p1.2 + X.2.1 * v1.2) := by
  unfold lineCross halfway padd psmul
  simp only
  constructor <;> refine Prod.ext ?_ ?_ <;> simp only <;> field_simp <;> ring

/-- The sides of two consecutive sections. -/
theorem join_ok (t : Num K) (tol : K) (limit : Nat) (s s1 : Sub K) {arm : Int} (h : arm = -1 ∨ arm = 1 ∨ arm = 0)
    (hA0 : (strand t (-(arm : K)) s).last ≠ (0, 0)) (hB0 : (strand t (-(arm : K)) s1).first ≠ (0, 0)) (a : K) :
    ∃ b a' cut between, StrandJoin tol (strand t (-(arm : K)) s) (strand t (-(arm : K)) s1) b a' cut between ∧
      robustPiece t s a arm (robustJoin t tol limit s s1 arm) =
        ((if cut then (s.points t a b arm).dropLast else s.points t a b arm) ++ between, a') := by
  have hc0 : (fun u => s.call t u arm) = edge t s (-(arm : K)) := funext fun u => call_edge t s u h
  have hc1 : (fun u => s1.call t u arm) = edge t s1 (-(arm : K)) := funext fun u => call_edge t s1 u h
  rw [join_core, hc0, hc1]
  unfold joinCore
  simp only [subGrad_slope]
  generalize hA : strand t (-(arm : K)) s = A at *
  generalize hB : strand t (-(arm : K)) s1 = B at *
  have eA : edge t s (-(arm : K)) = A.curve := by rw [← hA]; rfl
  have eB : edge t s1 (-(arm : K)) = B.curve := by rw [← hB]; rfl
  have lA : stepSlope s.h A.curve 1 = A.last := by rw [← eA, ← hA]; rfl
  have lB : stepSlope s1.h B.curve 0 = B.first := by rw [← eB, ← hB]; rfl
  rw [eA, eB, lA, lB]
  have hEven : ((B.first.2 * A.last.1 - B.first.1 * A.last.2) ^ 2 < 1 / 10 ^ 12 * normSq A.last * normSq B.first ∨
      normSq (psub (B.curve 0) (A.curve 1)) ≤ tol ^ 2) ↔ A.Even tol B := by
    unfold Strand.Even
    rw [← dist2_swap, or_comm]
    unfold normSq
    rw [show B.first.2 * A.last.1 - B.first.1 * A.last.2 = A.last.1 * B.first.2 - A.last.2 * B.first.1 by ring]
  by_cases hE : A.Even tol B
  · rw [if_pos (hEven.2 hE), if_neg (by simp)]
    refine ⟨1, 0, true, [], .even hE, ?_⟩
    unfold robustPiece
    simp
  · rw [if_neg (fun hh => hE (hEven.1 hh))]
    have hden : B.first.2 * A.last.1 - B.first.1 * A.last.2 ≠ 0 := by
      intro h0
      have hlim := not_lt.1 (fun h' => hE (hEven.1 (.inl h')))
      rw [h0] at hlim
      have hpos : ∀ v : Pt K, v ≠ (0, 0) → 0 < normSq v := by
        intro v hv
        unfold normSq
        by_contra hcon
        have h1 := sq_nonneg v.1
        have h2 := sq_nonneg v.2
        have e1 : v.1 = 0 := by
          have : v.1 ^ 2 = 0 := by linarith
          exact pow_eq_zero_iff (two_ne_zero) |>.1 this
        have e2 : v.2 = 0 := by
          have : v.2 ^ 2 = 0 := by linarith
          exact pow_eq_zero_iff (two_ne_zero) |>.1 this
        exact hv (Prod.ext e1 e2)
      have h1 := hpos _ hA0
      have h2 := hpos _ hB0
      have : (0 : K) < 1 / 10 ^ 12 * normSq A.last * normSq B.first := by positivity
      linarith [zero_pow (M₀ := K) (two_ne_zero)]
    have hX := lineCross_ok (p0 := A.curve 1) (v0 := A.last) (p1 := B.curve 0) (v1 := B.first) hden
    generalize lineCross (A.curve 1) A.last (B.curve 0) B.first = X at hX ⊢
    obtain ⟨x, y, p⟩ := X
    simp only at hX ⊢
    have hcross : A.Cross B x y p := hX
    by_cases hin : 1 + x < 1 ∧ y > 0
    · rw [if_pos hin]
      have hx : x < 0 := by linarith [hin.1]
      have hs := seek_spec s.h s1.h A.curve B.curve (tol ^ 2) limit (1 + x) y (1 / 2) hin.1.le hin.2.le
      generalize seek s.h s1.h A.curve B.curve (tol ^ 2) limit (1 + x) y (1 / 2) = R at hs ⊢
      obtain ⟨r0, r1⟩ := R
      simp only at hs ⊢
      refine ⟨r0, r1, true, [], ?_, ?_⟩
      · by_cases hd : dist2 (A.curve r0) (B.curve r1) ≤ tol ^ 2
        · exact .inside hE hcross hx hin.2 hs.1 hs.2.1 hd
        · exact .lost hE hcross hx hin.2 hs.1 hs.2.1 (not_le.1 hd) hs.2.2
      · unfold robustPiece
        simp [hs.1, hs.2.1]
    · rw [if_neg hin]
      unfold robustPiece
      simp only
      by_cases hy : y ≥ 0
      · rw [if_pos hy]
        by_cases hx : 1 + x ≤ 1
        · rw [if_pos hx]
          refine ⟨1 + x, y, true, [], .touch hE hcross (by linarith) hy ?_, by simp⟩
          by_contra hcon
          simp only [not_or] at hcon
          apply hin
          refine ⟨lt_of_le_of_ne hx ?_, lt_of_le_of_ne hy (Ne.symm hcon.2)⟩
          intro e
          exact hcon.1 (by linarith)
        · rw [if_neg hx]
          exact ⟨1, y, false, [], .short hE hcross (by linarith [not_le.1 hx]) hy, by simp⟩
      · rw [if_neg hy]
        by_cases hx : 1 + x ≤ 1
        · rw [if_pos hx]
          exact ⟨1 + x, 0, false, [], .long hE hcross (by linarith) (not_le.1 hy), by simp⟩
        · rw [if_neg hx]
          exact ⟨1, 0, false, [p], .outside hE hcross (by linarith [not_le.1 hx]) (not_le.1 hy), by simp⟩

/-- One side of a path. -/
theorem arm_run (t : Num K) {tol : K} {limit : Nat} {arm : Int} (h : arm = -1 ∨ arm = 1 ∨ arm = 0) (l : List (Sub K)) :
    ∀ (s : Sub K) (a : K), (∀ s' ∈ s :: l, s'.err = tol ^ 2 ∧ s'.maxEvals = limit ∧
      (strand t (-(arm : K)) s').first ≠ (0, 0) ∧ (strand t (-(arm : K)) s').last ≠ (0, 0)) →
    StrandRun tol limit a ((s :: l).map (strand t (-(arm : K)))) (robustArm t tol limit arm a s l) := by
  induction l with
  | nil =>
    intro s a hs
    obtain ⟨h1, h2, _⟩ := hs s List.mem_cons_self
    exact .last fun ha => points_sampled t h1 h2 h ha
  | cons s1 l ih =>
    intro s a hs
    obtain ⟨h1, h2, _, h4⟩ := hs s List.mem_cons_self
    obtain ⟨_, _, h5, _⟩ := hs s1 (List.mem_cons_of_mem _ List.mem_cons_self)
    obtain ⟨b, a', cut, between, hj, hp⟩ := join_ok t tol limit s s1 h h4 h5 a
    unfold robustArm
    simp only [hp]
    exact .next hj (fun hab => points_sampled t h1 h2 h hab) (ih s1 a' fun s' hs' => hs s' (List.mem_cons_of_mem _ hs'))

end Gdspy
