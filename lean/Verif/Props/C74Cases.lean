import Verif.Props.C74Wire

/-!
# C74: cases
-/

namespace Gdspy

open Spec

/-- A path of width 1 at the origin. -/
noncomputable def bentWire : Robust ℝ :=
  ⟨(0, 0), 1, [1], [0], [[]], [.round], [1], [2], 1 / 100, 1 / 1000, 0, 1000, false, true, none⟩

example : Robust.new ((0, 0) : Pt ℝ) (.one 1) (.one 0) (.one .round) (1 / 100) (1 / 1000) 0 1000 false true (.one 1) (.one 2) =
    .ok bentWire := rfl

theorem bentWire_aligned : RobustAligned bentWire :=
  ⟨rfl, rfl, rfl, rfl, rfl, rfl, 0, by intro p hp; simp only [bentWire, List.mem_singleton] at hp; subst hp; rfl⟩

theorem bentWire_placed : AllPlaced bentWire := by
  intro p hp s hs
  simp only [bentWire, List.mem_singleton] at hp
  subst hp
  cases hs

theorem bentWire_runs : ∃ g, forOut (Robust.run realCtx) bentWire
    (([(4, 0), (4, 3)] : List (Pt ℝ)).map fun p => .segment p .none .none false) = (g, none) ∧ g.cache = none := ⟨_, rfl, rfl⟩

theorem real_sqrt_of {x l : ℝ} (hl : 0 ≤ l) (h : x = l ^ 2) : realNum.sqrt x = l := by
  show Real.sqrt x = l
  rw [h]
  exact Real.sqrt_sq hl

theorem bent_lengths : realNum.sqrt (dist2 ((0, 0) : Pt ℝ) (4, 0)) = 4 ∧ realNum.sqrt (dist2 ((4, 0) : Pt ℝ) (4, 3)) = 3 :=
  ⟨real_sqrt_of (by norm_num) (by unfold dist2; norm_num), real_sqrt_of (by norm_num) (by unfold dist2; norm_num)⟩

theorem bent_apart : Apart ([(0, 0), (4, 0), (4, 3)] : List (Pt ℝ)) := by
  simp only [Apart, dist2]
  norm_num

theorem bent_clear : ClearCorners realNum (1 / 100) 1 ([(0, 0), (4, 0), (4, 3)] : List (Pt ℝ)) := by
  obtain ⟨h1, h2⟩ := bent_lengths
  refine ⟨.inr ⟨?_, ?_, ?_, ?_⟩, trivial⟩
  · simp only [dist2, cornerTurn]
    norm_num
  · have e1 : realNum.sqrt (((4 : ℝ) - 0) ^ 2 + (0 - 0) ^ 2) = 4 := real_sqrt_of (by norm_num) (by norm_num)
    have e2 : realNum.sqrt (((4 : ℝ) - 4) ^ 2 + (3 - 0) ^ 2) = 3 := real_sqrt_of (by norm_num) (by norm_num)
    simp only [dist2, toLeft, e1, e2]
    norm_num
  · simp only [inset, h1, h2, cornerTurn, aheadAt]
    norm_num
  · simp only [inset, h1, h2, cornerTurn, aheadAt]
    norm_num

/-- The bent wire with extended ends: length 4 + 3 and half a width at both ends. -/
example : ∃ g path P, forOut (Robust.run realCtx) bentWire
      (([(4, 0), (4, 3)] : List (Pt ℝ)).map fun p => .segment p .none .none false) = (g, none) ∧
    g.paths[0]? = some path ∧ robustOutline realCtx g.tolerance g.maxEvals .extended path = .ok P ∧ shoelace P = 2 * 8 := by
  obtain ⟨g, h, _⟩ := bentWire_runs
  obtain ⟨path, P, h1, h2, h3⟩ := C74_wire (ctx := realCtx) realNum_polar (r := bentWire) (i := 0) one_pos (by decide) (by decide) rfl rfl rfl h
    bent_apart bent_clear (.inr (.inl rfl))
  refine ⟨g, path, P, h, h1, h2, ?_⟩
  rw [h3]
  have e : lineLength realCtx.num (bentWire.x :: (4, 0) :: [(4, 3)]) = 7 := by
    simp only [lineLength]
    show realNum.sqrt (dist2 ((0, 0) : Pt ℝ) (4, 0)) + (realNum.sqrt (dist2 ((4, 0) : Pt ℝ) (4, 3)) + 0) = 7
    rw [bent_lengths.1, bent_lengths.2]
    norm_num
  rw [e]
  simp only [reach]
  norm_num

theorem straight_directed {tol : ℝ} {limit : Nat} {w : ℝ} {path : List (Sub ℝ)} {pts : List (Pt ℝ)}
    (h : StraightPath tol limit w path pts) (hd : Apart pts) : ∀ s ∈ path, EndsDirected realNum s ∧ ∀ u, s.wid u = w := by
  have one {s : Sub ℝ} {p q : Pt ℝ} (hs : StraightSection tol limit w s p q) (h0 : 0 < dist2 p q) :
      EndsDirected realNum s ∧ ∀ u, s.wid u = w := by
    have hne : (q.1 - p.1, q.2 - p.2) ≠ ((0, 0) : Pt ℝ) := by
      intro h
      rw [Prod.mk.injEq] at h
      have : dist2 p q = 0 := by
        unfold dist2
        linear_combination (q.1 - p.1) * h.1 + (q.2 - p.2) * h.2
      exact h0.ne' this
    refine ⟨⟨fun side _ => ?_, fun side _ => ?_⟩, hs.wid⟩
    · rw [straight_slope realNum_polar hs side le_rfl zero_le_one]; exact hne
    · rw [straight_slope realNum_polar hs side zero_le_one le_rfl]; exact hne
  induction h with
  | one hs =>
    intro s hs'
    rw [List.mem_singleton] at hs'
    subst hs'
    exact one hs hd.1
  | more hs _ ih =>
    intro s' hs'
    rcases List.mem_cons.1 hs' with rfl | hs'
    · exact one hs hd.1
    · exact ih hd.2 s' hs'

/-- The outline of the bent wire with its round ends; the corner is cut inside and extended outside. -/
example : ∃ g path P, forOut (Robust.run realCtx) bentWire
      (([(4, 0), (4, 3)] : List (Pt ℝ)).map fun p => .segment p .none .none false) = (g, none) ∧
    g.paths[0]? = some path ∧ robustOutline realCtx (1 / 100) 1000 .round path = .ok P ∧
    ∃ s l, path = s :: l ∧ RobustOutlineOk realNum (1 / 100) 1000 .round path s (l.getLastD s) 1 1 P := by
  obtain ⟨g, h, _⟩ := bentWire_runs
  obtain ⟨h1, h2, path, h3, h4, h5⟩ := segments_straight (ctx := realCtx) (r := bentWire) (i := 0) (w := 1) (path := []) (pre := [(0, 0)])
    [(4, 0), (4, 3)] (by decide) (by decide) rfl rfl rfl ⟨rfl, .inl ⟨rfl, rfl⟩⟩ h
  have hpl := C74_history (ctx := realCtx) realNum_laws _ bentWire_aligned bentWire_placed (by
    intro op hop
    simp only [List.map_cons, List.map_nil, List.mem_cons, List.not_mem_nil, or_false] at hop
    rcases hop with rfl | rfl <;> trivial) h
  rcases h5 with ⟨_, h5⟩ | h5
  · simp at h5
  · have hdir := straight_directed h5 bent_apart
    cases path with
    | nil => cases h5
    | cons s l =>
      have hp' : ∀ s' ∈ s :: l, Placed (1 / 100) 1000 s' 1 1 := by
        have key : ∀ {path : List (Sub ℝ)} {pts : List (Pt ℝ)}, StraightPath (1 / 100) 1000 1 path pts → ∀ s' ∈ path,
            s'.h = 1 / (2 * ((1000 : Nat) : ℝ)) → Placed (1 / 100) 1000 s' 1 1 := by
          intro path pts h
          induction h with
          | one hs =>
            intro s' hs' hh
            rw [List.mem_singleton] at hs'
            subst hs'
            exact ⟨hs.err, hs.maxEvals, hh, .id, mat_of_identity hs.place, .id⟩
          | more hs _ ih =>
            intro s' hs' hh
            rcases List.mem_cons.1 hs' with rfl | hs'
            · exact ⟨hs.err, hs.maxEvals, hh, .id, mat_of_identity hs.place, .id⟩
            · exact ih s' hs' hh
        intro s' hs'
        obtain ⟨k, e, hk⟩ := hpl _ (List.mem_of_getElem? h3) s' hs'
        rw [h1, h2] at hk
        exact key h5 s' hs' hk.step
      have hlast := getLastD_mem s l
      obtain ⟨P, hP⟩ := C74_round_defined (ctx := realCtx) rfl (by norm_num) (by decide) (fun s' hs' => (hdir s' hs').1)
        (hp' s List.mem_cons_self) (hp' _ hlast) (by rw [(hdir s List.mem_cons_self).2]; norm_num) (by rw [(hdir _ hlast).2]; norm_num)
      refine ⟨g, s :: l, _, h, h3, hP, s, l, rfl, ?_⟩
      have := C74_outline (ctx := realCtx) rfl (by decide) (fun s' hs' => ⟨1, 1, hp' s' hs'⟩) (fun s' hs' => (hdir s' hs').1)
        (hp' s List.mem_cons_self) (hp' _ hlast) (by rw [(hdir s List.mem_cons_self).2]; norm_num) (by rw [(hdir _ hlast).2]; norm_num) hP
      rw [(hdir s List.mem_cons_self).2, (hdir _ hlast).2, one_mul, one_mul] at this
      exact this

/-- Its polygons. -/
example : ∃ g, forOut (Robust.run realCtx) bentWire
      (([(4, 0), (4, 3)] : List (Pt ℝ)).map fun p => .segment p .none .none false) = (g, none) ∧ RobustAligned g ∧ g.maxPoints ≤ 4 ∧
      g.cache = none := by
  obtain ⟨g, h, hc⟩ := bentWire_runs
  exact ⟨g, h, (C72_history realCtx _ bentWire_aligned h).1, by cases h; decide, hc⟩

end Gdspy
