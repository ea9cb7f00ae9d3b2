import Verif.Props.C72Meet
import Verif.Props.C72Turn

/-!
# C72: cases that meet the hypotheses of the theorems, and two that do not
-/

namespace Gdspy

open Spec

/-- Two paths of different widths on both sides of a line. -/
noncomputable def growPair : Robust ℝ :=
  ⟨(0, 0), 2, [1, 2], [-3, 3], [[], []], [.flush, .flush], [1, 2], [0, 0], 1 / 100, 1 / 1000, 199, 1000, false, true, none⟩

example : Robust.new ((0, 0) : Pt ℝ) (.list [1, 2]) (.list [-3, 3]) (.one .flush) (1 / 100) (1 / 1000) 199 1000 false true
    (.list [1, 2]) (.one 0) = .ok growPair := rfl

theorem growPair_aligned : RobustAligned growPair :=
  (C72_new (x := ((0, 0) : Pt ℝ)) (width := .list [1, 2]) (offset := .list [-3, 3]) (ends := .one .flush)
    (tolerance := 1 / 100) (precision := 1 / 1000) (maxPoints := 199) (maxEvals := 1000) (gdsiiPath := false)
    (widthTransform := true) (layer := .list [1, 2]) (datatype := .one 0) (r := growPair)
    (by rintro a b h1 h2; cases h1; cases h2; rfl) rfl).1

theorem growPair_unbroken : Unbroken growPair :=
  ⟨by intro p hp; simp only [growPair, List.mem_cons, List.not_mem_nil, or_false, or_self] at hp; subst hp; exact .nil,
   by intro p hp s hs; simp only [growPair, List.mem_cons, List.not_mem_nil, or_false, or_self] at hp; subst hp; cases hs⟩

theorem growPair_upToDate : UpToDate growPair := by
  intro i p s w o hp hs
  have := List.mem_of_getElem? hp
  simp only [growPair, List.mem_cons, List.not_mem_nil, or_false, or_self] at this
  subst this
  cases hs

/-- A tapered segment whose paths come together, a reflection with magnification, and a curve. -/
noncomputable def growOps : List (RobustOp ℝ) :=
  [.segment (10, 0) (.num 4) (.list [.num (-5), .num 5]) false, .transform (some (1, 2)) (some 1) (some 3) true none,
   .bezier [(1, 1), (2, 5)] .none (.num 1) true]

theorem growOps_returns : ∃ g, forOut (Robust.run realCtx) growPair growOps = (g, none) := ⟨_, rfl⟩

example : ∃ g, forOut (Robust.run realCtx) growPair growOps = (g, none) ∧ RobustAligned g ∧ Unbroken g ∧ UpToDate g := by
  obtain ⟨g, h⟩ := growOps_returns
  refine ⟨g, h, (C72_history realCtx growOps growPair_aligned h).1, ?_, ?_⟩
  · exact C72_unbroken realCtx growOps growPair_aligned growPair_unbroken (by simp [growOps, AllBegin, Begins]) h
  · exact C72_up_to_date realNum_laws growOps growPair_aligned growPair_upToDate (by
      intro op hop
      simp only [growOps, List.mem_cons, List.not_mem_nil, or_false] at hop
      rcases hop with rfl | rfl | rfl
      · trivial
      · intro s hs
        cases hs
        norm_num
      · trivial) h

example : ∃ g, growPair.smooth (fun _ => .ok ([(1, 0)], [(2, 0)])) [(3, 4)] false .none .none false = (g, none) := ⟨_, rfl⟩
example : ∃ g, growPair.parametric (fun u => (u, u ^ 2)) none .none (.fn fun u => u) true = (g, none) := ⟨_, rfl⟩
example : ∃ g, growPair.arc realNum 5 0 1 (.list [.num 1, .fn fun u => u]) .none = (g, none) := ⟨_, rfl⟩

theorem normal_of_length {v : Pt ℝ} {l : ℝ} (hl : 0 < l) (h : v.1 ^ 2 + v.2 ^ 2 = l ^ 2) :
    rightNormal realNum v = (v.2 / l, -v.1 / l) := by
  unfold rightNormal normSq
  have : realNum.sqrt ((v.2 * 1) ^ 2 + (v.1 * -1) ^ 2) = l := by
    show Real.sqrt _ = l
    rw [show (v.2 * 1) ^ 2 + (v.1 * -1) ^ 2 = l ^ 2 by rw [← h]; ring]
    exact Real.sqrt_sq hl.le
  simp only at this ⊢
  rw [this]
  norm_num

/-- The sections of the pair after one segment. -/
noncomputable def growSub (a b : ℝ) : Sub ℝ :=
  ⟨funcLinearPt (0, 0) (10, 0), fun _ _ => (10 - 0, 0 - 0), fun _ => a, fun _ => b, (1 / 100) ^ 2, 1 / 2 / ((1000 : Nat) : ℝ),
    1000, Mat.eye⟩

theorem growPair_segment : ∃ g, growPair.segment (10, 0) .none .none false = (g, none) ∧
    g.paths = [[growSub (-3) 1], [growSub 3 2]] ∧ g.x = (10, 0) := ⟨_, rfl, rfl, rfl⟩

/-- A second segment goes on after the first. -/
example : ∃ m g s s', growPair.segment (10, 0) .none .none false = (m, none) ∧
    m.segment (20, 0) (.num 5) (.num 1) false = (g, none) ∧ g.paths[1]? = some [s, s'] ∧
    s'.call realNum 0 0 = s.call realNum 1 0 := by
  obtain ⟨m, hm, hp, hx⟩ := growPair_segment
  have ha := robust_segment_aligned hm growPair_aligned
  have hext := C72_segment hm
  have hg : ∃ g s', m.segment (20, 0) (.num 5) (.num 1) false = (g, none) ∧ g.paths[1]? = some [growSub 3 2, s'] := by
    cases hm
    exact ⟨_, _, rfl, rfl⟩
  obtain ⟨g, s', hg, hs'⟩ := hg
  refine ⟨m, g, growSub 3 2, s', hm, hg, hs', ?_⟩
  refine (C72_meets (q := []) realNum_polar (robust_segment_aligned hg ha)
    (extended_unbroken hext ha (by simp [ramp, growPair]) growPair_unbroken)
    (extended_upToDate hext ha) (C72_segment hg) (by simp [ramp]) hs' (A := .id) rfl one_pos ?_ ?_).1
  · intro e
    rw [hx]
    simp only [placedAt, psmul, Aff.lin, Aff.id, growSub]
    norm_num
  · intro now ol _ h
    cases h
    simp [ramp]

/-- A list of offsets that is too short. -/
noncomputable def shortList : Out (Robust ℝ) := growPair.segment (10, 0) .none (.list [.num 1]) false

/-- **C72** fails when a call raises: `segment` with a list that is too short raises `IndexError` after the first path
has got a section; the paths then have different numbers of sections, and the position has been moved. -/
theorem C72_raising_call_misaligns : shortList.2 = some .indexError ∧ ¬ RobustAligned shortList.1 ∧
    shortList.1.x = (10, 0) ∧ shortList.1.paths.map List.length = [1, 0] := by
  have h : shortList.1.paths.map List.length = [1, 0] := rfl
  refine ⟨rfl, ?_, rfl, h⟩
  intro ha
  obtain ⟨m, hm⟩ := ha.sections
  have : ∀ k ∈ shortList.1.paths.map List.length, k = m := by
    intro k hk
    obtain ⟨p, hp, rfl⟩ := List.mem_map.1 hk
    exact hm p hp
  rw [h] at this
  have h1 := this 1 (by simp)
  have h0 := this 0 (by simp)
  omega

/-- **C72** fails for negative factors: `scale(-1)` moves the current offsets to the other side, but not the sections
drawn before. A segment that goes straight on begins elsewhere. -/
theorem C72_negative_scale_breaks : ∃ (g : Robust ℝ) (s s' : Sub ℝ), forOut (Robust.run realCtx) growPair
      [.segment (10, 0) .none .none false, .scale (-1) (0, 0), .segment (-20, 0) .none .none false] = (g, none) ∧
    g.paths[0]? = some [s, s'] ∧ s.call realNum 1 0 = (-10, -3) ∧ s'.call realNum 0 0 = (-10, 3) := by
  refine ⟨_, Sub.translate (0 * (1 - -1), 0 * (1 - -1)) (Sub.scale (-1) (-1) (growSub (-3) 1)),
    ⟨funcLinearPt (10 * -1 + 0 * (1 - -1), 0 * -1 + 0 * (1 - -1)) (-20, 0),
      fun _ _ => (-20 - (10 * -1 + 0 * (1 - -1)), 0 - (0 * -1 + 0 * (1 - -1))), fun _ => -3 * -1, fun _ => 1 * -1,
      (1 / 100) ^ 2, 1 / 2 / ((1000 : Nat) : ℝ), 1000, Mat.eye⟩, rfl, rfl, ?_, ?_⟩
  · unfold Sub.call Sub.raw Sub.mid growSub
    rw [if_pos rfl]
    simp only [Sub.translate, Sub.scale]
    rw [normal_of_length (l := 10) (by norm_num) (by norm_num)]
    unfold padd psmul funcLinearPt Mat.app Mat.mul Mat.eye
    norm_num
  · unfold Sub.call Sub.raw Sub.mid
    rw [if_pos rfl]
    simp only
    rw [normal_of_length (l := 10) (by norm_num) (by norm_num)]
    unfold padd psmul funcLinearPt Mat.app Mat.eye
    norm_num

theorem growSub_slope (a b : ℝ) : (growSub a b).gradRaw realNum 1 0 = (10, 0) := by
  have hm : ∀ u, (growSub a b).raw realNum u 0 = (10 * u, -a) := by
    intro u
    unfold Sub.raw Sub.mid growSub
    rw [if_pos rfl]
    simp only
    rw [normal_of_length (l := 10) (by norm_num) (by norm_num)]
    unfold padd psmul funcLinearPt
    refine Prod.ext ?_ ?_ <;> simp only <;> ring
  unfold Sub.gradRaw subGrad
  simp only [hm]
  have e0 : max (0 : ℝ) (1 - (growSub a b).h) = 1999 / 2000 := by
    show max (0 : ℝ) (1 - 1 / 2 / ((1000 : Nat) : ℝ)) = _
    norm_num
  have e1 : min (1 : ℝ) (1 + (growSub a b).h) = 1 := by
    show min (1 : ℝ) (1 + 1 / 2 / ((1000 : Nat) : ℝ)) = _
    norm_num
  rw [e0, e1]
  unfold psmul psub
  refine Prod.ext ?_ ?_ <;> simp only <;> ring

/-- A turn to the left of paths that lead to the east. -/
example : ∃ m g, growPair.segment (10, 0) .none .none false = (m, none) ∧
    m.turn realNum 5 .l .none .none = (g, none) ∧ g.x = (15, 5) := by
  obtain ⟨m, hm, hp, hx⟩ := growPair_segment
  have ha := robust_segment_aligned hm growPair_aligned
  have hg : ∃ g, m.turn realNum 5 .l .none .none = (g, none) := by
    cases hm
    exact ⟨_, rfl⟩
  obtain ⟨g, hg⟩ := hg
  refine ⟨m, g, hm, hg, ?_⟩
  obtain ⟨c, d, h1, h2, h3⟩ := C72_turn ha (d := (1, 0)) (by norm_num) (by
    intro p hp' s hs
    rw [hp] at hp'
    refine ⟨10, by norm_num, ?_⟩
    simp only [List.mem_cons, List.not_mem_nil, or_false] at hp'
    rcases hp' with rfl | rfl
    all_goals
      simp only [List.getLast?_singleton, Option.mem_def, Option.some.injEq] at hs
      subst hs
      rw [growSub_slope]
      norm_num) hg
  rw [h2, hx]
  have := turtle_turn realNum_laws 5 ((10, 0) : Pt ℝ) 0 .l
  have e1 : (realNum.cos 0, realNum.sin 0) = ((1, 0) : Pt ℝ) := Prod.ext Real.cos_zero Real.sin_zero
  rw [e1] at this
  rw [this]
  have ev : TurnArg.value realNum .l = Real.pi / 2 := rfl
  have hpi := Real.pi_pos
  rw [ev, if_neg (by linarith)]
  show ((10 : ℝ) + 5 * (Real.cos (0 + -(Real.pi / 2) + Real.pi / 2) - Real.cos (0 + -(Real.pi / 2))),
    (0 : ℝ) + 5 * (Real.sin (0 + -(Real.pi / 2) + Real.pi / 2) - Real.sin (0 + -(Real.pi / 2)))) = _
  rw [show 0 + -(Real.pi / 2) + Real.pi / 2 = 0 by ring, zero_add, Real.cos_neg, Real.sin_neg]
  simp
  norm_num

end Gdspy
