import Verif.Props.C70Two

/-!
# C70: when the outline of a path can be computed

Round corners, circular bends and round ends need a number of points that depends on the tolerance.
-/

namespace Gdspy

open Spec

/-- The number of points of an arc of radius `r` can be computed if the tolerance is at most twice the radius. -/
theorem flexSteps_ok {angle tol r : ℝ} (ht : 0 < tol) (hr : tol ≤ 2 * r) : ∃ s, flexSteps realNum angle tol r = .ok s := by
  have hr0 : 0 < r := by linarith
  unfold flexSteps arcSteps
  rw [if_neg hr0.ne', if_neg hr0.ne']
  have h1 : -1 ≤ 1 - tol / r := by
    have : tol / r ≤ 2 := by rw [div_le_iff₀ hr0]; exact hr
    linarith
  have h2 : 0 < tol / r := by positivity
  have hac : realNum.acos (1 - tol / r) = some (Real.arccos (1 - tol / r)) := by
    simp only [realNum]
    rw [if_pos ⟨h1, by linarith⟩]
  rw [hac]
  simp only
  rw [if_neg (Real.arccos_pos.2 (by linarith)).ne']
  exact ⟨_, rfl⟩

theorem flexSteps_raises {angle tol r : ℝ} (ht : 0 < tol) (hr : 2 * r < tol) :
    flexSteps realNum angle tol r = .error .valueError := by
  unfold flexSteps
  split
  · rfl
  · rename_i hr0
    unfold arcSteps
    rw [if_neg hr0]
    have hac : realNum.acos (1 - tol / r) = none := by
      simp only [realNum]
      rw [if_neg]
      rintro ⟨h1, h2⟩
      rcases lt_or_gt_of_ne hr0 with h | h
      · have : tol / r < 0 := div_neg_of_pos_of_neg ht h
        linarith
      · have : 2 < tol / r := by rw [lt_div_iff₀ h]; exact hr
        linarith
    rw [hac]

theorem flexCorner_round (ctx : FlexCtx ℝ) (tol : ℝ) (rad : Option ℝ) (a b : Side ℝ) (c : Pt ℝ) (h : ℝ) :
    flexCorner ctx tol rad .round (jointOf a b c h) =
      if (crossOf (jointOf a b c h)).1 ≤ 0 ∧ 0 ≤ (crossOf (jointOf a b c h)).2.1 then .ok [(crossOf (jointOf a b c h)).2.2]
      else (do
        let x := cornerAngles ctx.num (decide ((psub a.2 a.1).2 * (psub b.2 b.1).1 - (psub a.2 a.1).1 * (psub b.2 b.1).2 < 0))
          (psub a.2 a.1) (psub b.2 b.1)
        let k ← (flexSteps ctx.num (|x.2 - x.1|) tol h)
        .ok ((arcAround ctx.num h x.1 x.2 (max 4 (1 + k)).toNat).map (padd c))) := rfl

/-- The radii are large enough for the tolerance, and nothing is left to functions given by the user or smooth curves. -/
def Spec.WideEnough (tol : ℝ) (rad : Option ℝ) (corner : FlexCorner ℝ) (fin : FlexEnd ℝ) (ws : List ℝ) : Prop :=
  (match corner with
    | .round => ∀ w ∈ ws, tol ≤ w
    | .bend => ∃ br, rad = some br ∧ ∀ w ∈ ws, tol ≤ 2 * br - w
    | .smooth | .fn _ => False
    | _ => True) ∧
  match fin with
  | .round => ∀ w ∈ ws, tol ≤ w
  | .smooth | .fn _ => False
  | _ => True

/-- The outline can be computed if the radii are large enough for the tolerance. -/
theorem C70_defined {ctx : FlexCtx ℝ} (hc : ctx.num = realNum) {tol : ℝ} (ht : 0 < tol) {rad : Option ℝ}
    {corner : FlexCorner ℝ} {fin : FlexEnd ℝ} {cs : List (Pt ℝ)} {ws : List ℝ} (h : ws.length = cs.length)
    (h2 : 2 ≤ cs.length) (hws : ∀ w ∈ ws, 0 < w) (hwide : WideEnough tol rad corner fin ws) :
    ∃ P, flexOutline ctx tol rad corner fin cs ws = .ok P := by
  obtain ⟨hcorner, hfin⟩ := hwide
  have hmem (i : Nat) (hi : i < cs.length) : ws.getD i 0 ∈ ws := by
    rw [List.getD_eq_getElem?_getD, List.getElem?_eq_getElem (h.symm ▸ hi)]
    exact List.getElem_mem _
  have hco (s : ℝ) (i : Nat) (hi : i < cs.length - 2) : ∃ g, cornersMap ctx tol rad corner s cs ws i = .ok g := by
    have hm := hmem (i + 1) (by omega)
    unfold cornersMap
    generalize sideAt ctx.num cs (ws.map fun w => s * (w / 2)) i = a
    generalize sideAt ctx.num cs (ws.map fun w => s * (w / 2)) (i + 1) = b
    generalize cs.getD (i + 1) (0, 0) = c
    generalize ws.getD (i + 1) 0 = w at hm
    cases corner with
    | natural => exact ⟨_, rfl⟩
    | miter => exact ⟨_, rfl⟩
    | bevel =>
      have hf : flexCorner ctx tol rad .bevel (jointOf a b c (w / 2)) =
          if (crossOf (jointOf a b c (w / 2))).1 ≤ 0 ∧ 0 ≤ (crossOf (jointOf a b c (w / 2))).2.1 then
            .ok [(crossOf (jointOf a b c (w / 2))).2.2] else .ok [a.2, b.1] := rfl
      rw [hf]
      split <;> exact ⟨_, rfl⟩
    | round =>
      rw [flexCorner_round, hc]
      split
      · exact ⟨_, rfl⟩
      · simp only
        generalize cornerAngles realNum _ _ _ = x
        obtain ⟨k, hk⟩ := flexSteps_ok (angle := |x.2 - x.1|) (r := w / 2) ht (by linarith [hcorner w hm])
        rw [hk]
        exact ⟨_, rfl⟩
    | bend =>
      obtain ⟨br, rfl, hbr⟩ := hcorner
      have hb := hbr w hm
      have hw := hws w hm
      simp only [flexCorner, hc, bendCorner]
      split
      · exact ⟨_, rfl⟩
      · have hh : (jointOf a b c (w / 2)).halfW = w / 2 := rfl
        rw [hh]
        have hr : ∀ p : Prop, [Decidable p] → tol ≤ 2 * (if p then br - w / 2 else br + w / 2) := by
          intro p _
          split <;> linarith
        obtain ⟨k, hk⟩ := flexSteps_ok (angle := |(cornerAngles realNum (decide (vcross (jointOf a b c (w / 2)).v0
            (jointOf a b c (w / 2)).v1 > 0)) (jointOf a b c (w / 2)).v0 (jointOf a b c (w / 2)).v1).2 - (cornerAngles realNum
            (decide (vcross (jointOf a b c (w / 2)).v0 (jointOf a b c (w / 2)).v1 > 0)) (jointOf a b c (w / 2)).v0
            (jointOf a b c (w / 2)).v1).1|) ht (hr (vcross (jointOf a b c (w / 2)).v0 (jointOf a b c (w / 2)).v1 *
            vcross (jointOf a b c (w / 2)).v0 (psub (jointOf a b c (w / 2)).p0 (jointOf a b c (w / 2)).spine) > 0))
        rw [hk]
        exact ⟨_, rfl⟩
    | smooth => exact hcorner.elim
    | fn f => exact hcorner.elim
  have hcap (q0 q1 : Pt ℝ) (b0 b1 : Option (Pt ℝ)) (p v : Pt ℝ) (w sign : ℝ) (ext : ℝ × ℝ → ℝ) (hm : w ∈ ws) :
      ∃ g, flexCap ctx tol fin q0 q1 b0 b1 p v w sign ext = .ok g := by
    cases fin with
    | flush => exact ⟨_, rfl⟩
    | extended => exact ⟨_, rfl⟩
    | pair a b => exact ⟨_, rfl⟩
    | round =>
      obtain ⟨k, hk⟩ := flexSteps_ok (angle := 2 * realNum.halfpi) (r := w / 2) ht (by linarith [hfin w hm])
      simp only [flexCap, roundCap, hc]
      rw [hk]
      exact ⟨_, rfl⟩
    | smooth => exact hfin.elim
    | fn f => exact hfin.elim
  rw [flexOutline_eq ctx tol rad corner fin cs ws h h2]
  obtain ⟨rs, hrs⟩ := mapM_range_exists _ _ (hco (-1))
  obtain ⟨ls, hls⟩ := mapM_range_exists _ _ (hco 1)
  rw [hrs, hls]
  simp only [bind, Except.bind]
  obtain ⟨c0, hc0⟩ := hcap
    (beside ctx.num (cs.getD 0 (0, 0)) (cs.getD 1 (0, 0)) (-1 * (ws.getD 0 0 / 2)) (-1 * (ws.getD 1 0 / 2))).1
    (beside ctx.num (cs.getD 0 (0, 0)) (cs.getD 1 (0, 0)) (1 * (ws.getD 0 0 / 2)) (1 * (ws.getD 1 0 / 2))).1
    rs.flatten.head? ls.flatten.head? (cs.getD 0 (0, 0)) (psub (cs.getD 0 (0, 0)) (cs.getD 1 (0, 0))) (ws.getD 0 0) (-1)
    Prod.fst (hmem 0 (by omega))
  obtain ⟨c1, hc1⟩ := hcap
    (beside ctx.num (cs.getD (cs.length - 2) (0, 0)) (cs.getD (cs.length - 1) (0, 0))
      (-1 * (ws.getD (cs.length - 2) 0 / 2)) (-1 * (ws.getD (cs.length - 1) 0 / 2))).2
    (beside ctx.num (cs.getD (cs.length - 2) (0, 0)) (cs.getD (cs.length - 1) (0, 0))
      (1 * (ws.getD (cs.length - 2) 0 / 2)) (1 * (ws.getD (cs.length - 1) 0 / 2))).2
    rs.flatten.getLast? ls.flatten.getLast? (cs.getD (cs.length - 1) (0, 0))
    (psub (cs.getD (cs.length - 1) (0, 0)) (cs.getD (cs.length - 2) (0, 0))) (ws.getD (cs.length - 1) 0) 1 Prod.snd
    (hmem _ (by omega))
  rw [hc0, hc1]
  exact ⟨_, rfl⟩

/-- **C70**, violated: a round end of a path that is thinner than the tolerance raises ValueError. -/
theorem C70_thin_round {ctx : FlexCtx ℝ} (hc : ctx.num = realNum) {tol : ℝ} (ht : 0 < tol) (p q : Pt ℝ) (o0 o1 : ℝ)
    {w0 : ℝ} (w1 : ℝ) (hw : w0 < tol) : twoOutline ctx tol .round p q o0 o1 w0 w1 = .error .valueError := by
  rw [twoOutline_eq]
  simp only [roundCap, hc]
  rw [flexSteps_raises ht (by linarith)]
  rfl

/-- **C70**, violated: a circular bend whose radius is less than half the width raises ValueError, and also one whose inner
radius is less than half the tolerance. -/
theorem C70_tight_bend {ctx : FlexCtx ℝ} (hc : ctx.num = realNum) {tol : ℝ} (ht : 0 < tol) {br w : ℝ}
    (hr : 2 * br - w < tol) {p c q : Pt ℝ} (hp : p ≠ c)
    (hturn : (c.1 - p.1) * (q.2 - c.2) - (c.2 - p.2) * (q.1 - c.1) > 0) (hw : 0 < w) :
    flexCorner ctx tol (some br) .bend (jointOf (beside realNum p c (1 * (w / 2)) (1 * (w / 2)))
      (beside realNum c q (1 * (w / 2)) (1 * (w / 2))) c (w / 2)) = .error .valueError := by
  have hz : (beside realNum p c (1 * (w / 2)) (1 * (w / 2))).2 =
      (c.1 + 1 * (w / 2) * (toLeft realNum (c.1 - p.1, c.2 - p.2)).1,
       c.2 + 1 * (w / 2) * (toLeft realNum (c.1 - p.1, c.2 - p.2)).2) := rfl
  have hva : psub (beside realNum p c (1 * (w / 2)) (1 * (w / 2))).2 (beside realNum p c (1 * (w / 2)) (1 * (w / 2))).1 =
      (c.1 - p.1, c.2 - p.2) := beside_vec realNum p c (1 * (w / 2))
  have hvb : psub (beside realNum c q (1 * (w / 2)) (1 * (w / 2))).2 (beside realNum c q (1 * (w / 2)) (1 * (w / 2))).1 =
      (q.1 - c.1, q.2 - c.2) := beside_vec realNum c q (1 * (w / 2))
  simp only [flexCorner, bendCorner, hc]
  have e0 : (jointOf (beside realNum p c (1 * (w / 2)) (1 * (w / 2))) (beside realNum c q (1 * (w / 2)) (1 * (w / 2))) c
      (w / 2)).v0 = (c.1 - p.1, c.2 - p.2) := hva
  have e1 : (jointOf (beside realNum p c (1 * (w / 2)) (1 * (w / 2))) (beside realNum c q (1 * (w / 2)) (1 * (w / 2))) c
      (w / 2)).v1 = (q.1 - c.1, q.2 - c.2) := hvb
  have e2 : (jointOf (beside realNum p c (1 * (w / 2)) (1 * (w / 2))) (beside realNum c q (1 * (w / 2)) (1 * (w / 2))) c
      (w / 2)).p0 = (c.1 + 1 * (w / 2) * (toLeft realNum (c.1 - p.1, c.2 - p.2)).1,
       c.2 + 1 * (w / 2) * (toLeft realNum (c.1 - p.1, c.2 - p.2)).2) := hz
  have e3 : (jointOf (beside realNum p c (1 * (w / 2)) (1 * (w / 2))) (beside realNum c q (1 * (w / 2)) (1 * (w / 2))) c
      (w / 2)).spine = c := rfl
  have e4 : (jointOf (beside realNum p c (1 * (w / 2)) (1 * (w / 2))) (beside realNum c q (1 * (w / 2)) (1 * (w / 2))) c
      (w / 2)).halfW = w / 2 := rfl
  simp only [e0, e1, e2, e3, e4]
  have hd : 0 < vcross (c.1 - p.1, c.2 - p.2) (q.1 - c.1, q.2 - c.2) := hturn
  have h1 := cross_toLeft realNum_polar hp (w / 2) 0
  have hs := sqrt_pos_of realNum_polar (dist2_pos_of (a := (p, c)) hp)
  have hd2 : 0 < vcross (c.1 - p.1, c.2 - p.2) (psub (c.1 + 1 * (w / 2) * (toLeft realNum (c.1 - p.1, c.2 - p.2)).1,
       c.2 + 1 * (w / 2) * (toLeft realNum (c.1 - p.1, c.2 - p.2)).2) c) := by
    have : vcross (c.1 - p.1, c.2 - p.2) (psub (c.1 + 1 * (w / 2) * (toLeft realNum (c.1 - p.1, c.2 - p.2)).1,
       c.2 + 1 * (w / 2) * (toLeft realNum (c.1 - p.1, c.2 - p.2)).2) c) = w / 2 * realNum.sqrt (dist2 p c) := by
      rw [← h1]
      simp only [vcross, psub]
      ring
    rw [this]
    simp only at hs
    positivity
  rw [if_neg hd.ne', if_pos (mul_pos hd hd2), flexSteps_raises ht (by linarith)]
  rfl

/-- **C70**, violated: if the width of a path changes, a round corner can be drawn on the wrong side. The right side of this
path ends at (0, -1) before the corner (0, 0); the outline is at (-1, 2) / √5 instead, on the left of the path. -/
theorem C70_round_hourglass : ∃ P,
    flexOutline realCtx (1 / 2) none .round .flush [(-10, 0), (0, 0), (40, 9)] [12, 2, 43] = .ok P ∧
    P[2]? = some (-(1 / Real.sqrt 5), 2 / Real.sqrt 5) ∧
    ¬ OutlineOk realNum none .round .flush [(-10, 0), (0, 0), (40, 9)] [12, 2, 43] P := by
  have h10 : realNum.sqrt ((0 - -10) ^ 2 + (0 - 0) ^ 2) = 10 := by
    show Real.sqrt _ = _
    rw [show ((0 : ℝ) - -10) ^ 2 + (0 - 0) ^ 2 = 10 ^ 2 by norm_num]
    exact Real.sqrt_sq (by norm_num)
  have h41 : realNum.sqrt ((40 - 0) ^ 2 + (9 - 0) ^ 2) = 41 := by
    show Real.sqrt _ = _
    rw [show ((40 : ℝ) - 0) ^ 2 + (9 - 0) ^ 2 = 41 ^ 2 by norm_num]
    exact Real.sqrt_sq (by norm_num)
  have ha : sideAt realNum [(-10, 0), (0, 0), (40, 9)] ([12, 2, 43].map fun w => -1 * (w / 2)) 0 = ((-10, -6), (0, -1)) := by
    show beside realNum (-10, 0) (0, 0) (-1 * (12 / 2)) (-1 * (2 / 2)) = _
    simp only [beside, toLeft, h10]
    norm_num
  have hb : sideAt realNum [(-10, 0), (0, 0), (40, 9)] ([12, 2, 43].map fun w => -1 * (w / 2)) 1 =
      ((9 / 41, -(40 / 41)), (40 + 43 / 2 * 9 / 41, 9 - 43 / 2 * 40 / 41)) := by
    show beside realNum (0, 0) (40, 9) (-1 * (2 / 2)) (-1 * (43 / 2)) = _
    simp only [beside, toLeft, h41]
    norm_num
  obtain ⟨P, hP⟩ := C70_defined (ctx := realCtx) rfl (tol := 1 / 2) (by norm_num) (rad := none) (corner := .round)
    (fin := .flush) (cs := [(-10, 0), (0, 0), (40, 9)]) (ws := [12, 2, 43]) rfl (by simp)
    (by simp only [List.mem_cons, List.not_mem_nil, or_false]; rintro w (rfl | rfl | rfl) <;> norm_num)
    ⟨by simp only [List.mem_cons, List.not_mem_nil, or_false]; rintro w (rfl | rfl | rfl) <;> norm_num, trivial⟩
  have hin : ¬ Side.Inner (K := ℝ) ((-10, -6), (0, -1))
      ((9 / 41, -(40 / 41)), (40 + 43 / 2 * 9 / 41, 9 - 43 / 2 * 40 / 41)) := by
    rintro (hs | ⟨x, y, hx, hy, he⟩)
    · simp only [Side.Straight, Side.turn, Side.vec, dist2] at hs
      norm_num at hs
    · simp only [Side.vec, Prod.mk.injEq] at he
      obtain ⟨e1, e2⟩ := he
      norm_num at e1 e2
      linarith
  have hP' := hP
  rw [flexOutline_eq realCtx _ _ _ _ _ _ rfl (by simp)] at hP'
  obtain ⟨rs, hrs, hP'⟩ := bind_ok_inv hP'
  obtain ⟨ls, hls, hP'⟩ := bind_ok_inv hP'
  obtain ⟨c0, hc0, hP'⟩ := bind_ok_inv hP'
  obtain ⟨c1, hc1, hP'⟩ := bind_ok_inv hP'
  cases hc0
  obtain ⟨hl, hr⟩ := mapM_range_ok _ _ hrs
  have hl : rs.length = 1 := hl
  obtain ⟨g, rfl⟩ := List.length_eq_one_iff.1 hl
  have hg : flexCorner realCtx (1 / 2) none .round (jointOf ((-10, -6), (0, -1))
      ((9 / 41, -(40 / 41)), (40 + 43 / 2 * 9 / 41, 9 - 43 / 2 * 40 / 41)) (0, 0) (2 / 2)) = .ok g := by
    rw [← ha, ← hb]
    exact (hr 0 g rfl).2
  rw [flexCorner_round, if_neg fun h => hin ((crossOf_inner (by simp) (by norm_num) (0, 0) (2 / 2)).1 h)] at hg
  have hleft : decide ((psub ((0 : ℝ), (-1 : ℝ)) (-10, -6)).2 * (psub ((40 : ℝ) + 43 / 2 * 9 / 41, (9 : ℝ) - 43 / 2 * 40 / 41)
      (9 / 41, -(40 / 41))).1 - (psub ((0 : ℝ), (-1 : ℝ)) (-10, -6)).1 * (psub ((40 : ℝ) + 43 / 2 * 9 / 41,
      (9 : ℝ) - 43 / 2 * 40 / 41) (9 / 41, -(40 / 41))).2 < 0) = false := by
    rw [decide_eq_false_iff_not]
    simp only [psub]
    norm_num
  simp only [hleft] at hg
  have hs := (cornerAngles_spec false (psub ((0 : ℝ), (-1 : ℝ)) (-10, -6)) (psub ((40 : ℝ) + 43 / 2 * 9 / 41,
      (9 : ℝ) - 43 / 2 * 40 / 41) (9 / 41, -(40 / 41))) (-1) rfl).1
  have hnum : realCtx.num = realNum := rfl
  rw [hnum] at hg
  generalize cornerAngles realNum false (psub ((0 : ℝ), (-1 : ℝ)) (-10, -6)) (psub ((40 : ℝ) + 43 / 2 * 9 / 41,
      (9 : ℝ) - 43 / 2 * 40 / 41) (9 / 41, -(40 / 41))) = x at hs hg
  have hsq : Real.sqrt (normSq (psub ((0 : ℝ), (-1 : ℝ)) (-10, -6))) = 5 * Real.sqrt 5 := by
    rw [show normSq (psub ((0 : ℝ), (-1 : ℝ)) (-10, -6)) = 5 ^ 2 * 5 by simp only [normSq, psub]; norm_num,
      Real.sqrt_mul (by norm_num), Real.sqrt_sq (by norm_num)]
  rw [hsq] at hs
  have h5 : 0 < Real.sqrt 5 := Real.sqrt_pos.2 (by norm_num)
  have hcos : Real.cos x.1 = -(1 / Real.sqrt 5) := by
    have := hs.1
    simp only [psub] at this
    field_simp
    linarith
  have hsin : Real.sin x.1 = 2 / Real.sqrt 5 := by
    have := hs.2
    simp only [psub] at this
    field_simp
    linarith
  obtain ⟨k, -, hg⟩ := bind_ok_inv hg
  have hhead : g.head? = some (-(1 / Real.sqrt 5), 2 / Real.sqrt 5) := by
    cases hg
    unfold arcAround
    rw [List.map_map, List.head?_map, linspace_head _ _ (by omega)]
    show some ((0 : ℝ) + 2 / 2 * Real.cos x.1, (0 : ℝ) + 2 / 2 * Real.sin x.1) = _
    rw [hcos, hsin]
    norm_num
  have h2 : P[2]? = some (-(1 / Real.sqrt 5), 2 / Real.sqrt 5) := by
    obtain ⟨r, hr⟩ := List.head?_eq_some_iff.1 hhead
    cases hP'
    rw [hr]
    rfl
  refine ⟨P, hP, h2, ?_⟩
  rintro ⟨begins, ends, rs, ls', rfl, ⟨k1, k2⟩, -, hbegin, -⟩
  have hlen : rs.length = 1 := k1
  obtain ⟨g', rfl⟩ := List.length_eq_one_iff.1 hlen
  have hcorner := k2 0 g' rfl
  rw [ha, hb] at hcorner
  have harc := (hcorner.2 hin).2.first
  obtain ⟨r, rfl⟩ := List.head?_eq_some_iff.1 harc
  have hbegin : begins = [_, _] := hbegin
  rw [hbegin] at h2
  simp only [List.reverse_cons, List.reverse_nil, List.nil_append, List.cons_append, List.flatten_cons, List.flatten_nil,
    List.append_nil, List.getElem?_cons_succ, List.getElem?_cons_zero, Option.some.injEq, Prod.mk.injEq] at h2
  have : 0 < 1 / Real.sqrt 5 := by positivity
  linarith [h2.1]

/-! Concrete paths. -/

/-- A path with one corner: 10 to the right and 10 up. -/
def elbow : List (Pt ℝ) := [(0, 0), (10, 0), (10, 10)]

theorem elbow_chain : elbow.IsChain (· ≠ ·) := by
  simp [elbow, List.isChain_cons_cons]

theorem sqrt_hundred : Real.sqrt 100 = 10 := by
  rw [show (100 : ℝ) = 10 ^ 2 by norm_num]
  exact Real.sqrt_sq (by norm_num)

/-- Width 2, length 20, ends extended by 1: the area is 2 * 22. -/
example : ∃ P, flexOutline realCtx (1 / 100) none .miter .extended elbow [2, 2, 2] = .ok P ∧ shoelace P = 2 * 44 := by
  obtain ⟨P, hP, ha⟩ := C70_area (ctx := realCtx) realNum_polar (1 / 100) none (fin := .extended) (cs := elbow) (w := 2)
    (by norm_num) (by simp [elbow]) elbow_chain
    (by
      intro i hi
      simp only [elbow, List.length_cons, List.length_nil] at hi
      obtain rfl : i = 0 := by omega
      left
      simp only [elbow, List.getD_cons_zero, List.getD_cons_succ, Nat.zero_add, dist2]
      norm_num)
    (.inr (.inl rfl))
  refine ⟨P, hP, ?_⟩
  rw [ha]
  have h : realCtx.num.sqrt = Real.sqrt := rfl
  simp only [elbow, lineLength, h, dist2, reach]
  norm_num [sqrt_hundred]

/-- A round corner and round ends. -/
example : ∃ P, flexOutline realCtx (1 / 2) none .round .round elbow [2, 2, 2] = .ok P ∧
    OutlineOk realNum none .round .round elbow [2, 2, 2] P := by
  have hw : ∀ w ∈ [(2 : ℝ), 2, 2], w = 2 := by simp
  obtain ⟨P, hP⟩ := C70_defined (ctx := realCtx) rfl (tol := 1 / 2) (by norm_num) (rad := none) (corner := .round)
    (fin := .round) (cs := elbow) (ws := [2, 2, 2]) rfl (by simp [elbow]) (fun w h => by rw [hw w h]; norm_num)
    ⟨fun w h => by rw [hw w h]; norm_num, fun w h => by rw [hw w h]; norm_num⟩
  exact ⟨P, hP, C70_outline_partial rfl rfl (by simp [elbow]) elbow_chain (fun w h => by rw [hw w h]; norm_num)
    (fun _ v hv w h => by rw [hw v hv, hw w h]) hP⟩

/-- A circular bend of radius 3. -/
example : ∃ P, flexOutline realCtx (1 / 2) (some 3) .bend .flush elbow [2, 2, 2] = .ok P ∧
    OutlineOk realNum (some 3) .bend .flush elbow [2, 2, 2] P := by
  have hw : ∀ w ∈ [(2 : ℝ), 2, 2], w = 2 := by simp
  obtain ⟨P, hP⟩ := C70_defined (ctx := realCtx) rfl (tol := 1 / 2) (by norm_num) (rad := some 3) (corner := .bend)
    (fin := .flush) (cs := elbow) (ws := [2, 2, 2]) rfl (by simp [elbow]) (fun w h => by rw [hw w h]; norm_num)
    ⟨⟨3, rfl, fun w h => by rw [hw w h]; norm_num⟩, trivial⟩
  exact ⟨P, hP, C70_outline_partial rfl rfl (by simp [elbow]) elbow_chain (fun w h => by rw [hw w h]; norm_num)
    (fun _ v hv w h => by rw [hw v hv, hw w h]) hP⟩

/-- A path whose width changes, with natural corners. -/
example : ∃ P, flexOutline realCtx (1 / 2) none .natural (.pair 1 (-1)) elbow [2, 3, 1] = .ok P ∧
    OutlineOk realNum none .natural (.pair 1 (-1)) elbow [2, 3, 1] P :=
  C70_straight (ctx := realCtx) realNum_polar (1 / 2) none rfl (by simp [elbow]) elbow_chain
    (by simp only [List.mem_cons, List.not_mem_nil, or_false]; rintro w (rfl | rfl | rfl) <;> norm_num) (.inl rfl)
    (.inr (.inr ⟨_, _, rfl⟩))

/-- One path of width 2 along `pts`, moved to the left by `o`, with round corners and ends. -/
noncomputable def roundFlex (pts : List (Pt ℝ)) (o : ℝ) : Flex ℝ :=
  { points := pts
    widths := pts.map fun _ => [2]
    offsets := pts.map fun _ => [o]
    n := 1
    ends := [.round]
    corners := [.round]
    bendRadius := [none]
    layers := [5]
    datatypes := [6]
    tolerance := 1 / 2
    precision := 1 / 1000
    maxPoints := 0
    gdsiiPath := false
    widthTransform := true
    cache := none }

theorem roundFlex_dedup {pts : List (Pt ℝ)} (h : pts.IsChain (· ≠ ·)) (o : ℝ) : (roundFlex pts o).dedup = roundFlex pts o := by
  unfold Flex.dedup
  rw [if_pos]
  rw [dedupRows_first, List.destutter_of_isChain]
  · simp
  · rw [List.isChain_map]
    exact h

/-- Beside an elbow, a path at distance 3: its polygon is found under its layer and datatype. -/
example : ∃ g P cs, (roundFlex elbow 3).getPolygons realCtx = (g, .ok [((5, 6), [P])]) ∧
    CentreLine realNum elbow [3, 3, 3] cs ∧ (cs.IsChain (· ≠ ·) → OutlineOk realNum none .round .round cs [2, 2, 2] P) := by
  have hw : ∀ w ∈ [(2 : ℝ), 2, 2], w = 2 := by simp
  obtain ⟨cs, hcs, hline⟩ := offsetSpine_ok realNum elbow_chain (offs := [3, 3, 3]) rfl (by simp [elbow])
  obtain ⟨P, hP⟩ := C70_defined (ctx := realCtx) rfl (tol := 1 / 2) (by norm_num) (rad := none) (corner := .round)
    (fin := .round) (cs := cs) (ws := [2, 2, 2]) hline.length.symm (by rw [hline.length]; simp [elbow])
    (fun w h => by rw [hw w h]; norm_num)
    ⟨fun w h => by rw [hw w h]; norm_num, fun w h => by rw [hw w h]; norm_num⟩
  have hmany : (roundFlex elbow 3).manyOf realCtx 0 = .ok P := by
    show (do
      let pts ← offsetSpine realNum elbow [3, 3, 3]
      flexOutline realCtx (1 / 2) none .round .round pts [2, 2, 2]) = _
    rw [hcs]
    exact hP
  refine ⟨{ roundFlex elbow 3 with cache := some [((5, 6), [P])] }, P, cs, ?_, hline, fun hch =>
    C70_outline_partial rfl hline.length.symm (by rw [hline.length]; simp [elbow]) hch (fun w h => by rw [hw w h]; norm_num)
      (fun _ v hv w h => by rw [hw v hv, hw w h]) hP⟩
  have hcomp : (roundFlex elbow 3).compute realCtx = (roundFlex elbow 3, [((5, 6), [P])], none) := by
    unfold Flex.compute
    rw [if_neg (by simp [roundFlex, elbow]), roundFlex_dedup elbow_chain]
    have hpp : Flex.pathPolys realCtx (roundFlex elbow 3) ((roundFlex elbow 3).manyOf realCtx) [] 0 =
        ([((5, 6), [P])], none) := by
      unfold Flex.pathPolys
      rw [hmany]
      simp only [bind, Except.bind, flexPieces_small realCtx _ (show (roundFlex elbow 3).maxPoints ≤ 4 by simp [roundFlex])]
      rfl
    show (_, forOut _ [] [0]) = _
    simp only [forOut, hpp]
  unfold Flex.getPolygons
  rw [hcomp]
  rfl

/-- A path with two points, moved to the left by 3 and extended by 1 at both ends: the area is 2 * 12. -/
example : ∃ a b P, CentreLine realNum [(0, 0), (10, 0)] [3, 3] [a, b] ∧
    twoOutline realCtx (1 / 2) .extended (0, 0) (10, 0) 3 3 2 2 = .ok P ∧ TwoOutlineOk realNum .extended a b 2 2 P ∧
    shoelace P = -(2 * (2 * (Real.sqrt (dist2 a b) + 2))) := by
  have hne : ((0, 0) : Pt ℝ) ≠ (10, 0) := by simp
  obtain ⟨a, b, P, hl, hP, hs⟩ := C70_two_area (ctx := realCtx) realNum_polar (1 / 2) (fin := .extended) hne (o0 := 3)
    (o1 := 3) (w0 := 2) (w1 := 2) (.inr (.inl rfl))
  obtain ⟨a', b', hl', hok⟩ := C70_two_partial (ctx := realCtx) rfl hne (by norm_num) (by norm_num) hP
  obtain ⟨_, ha, hb, -⟩ := hl
  obtain ⟨_, ha', hb', -⟩ := hl'
  have ea : a = a' := ha.trans ha'.symm
  have eb : b = b' := hb.trans hb'.symm
  subst ea eb
  refine ⟨a, b, P, ⟨rfl, ha, hb, fun i hi => ?_⟩, hP, hok, ?_⟩
  · simp only [List.length_cons, List.length_nil] at hi
    omega
  · rw [hs]
    have h : realCtx.num.sqrt = Real.sqrt := rfl
    simp only [reach, h]
    ring

/-- A path of width 1/3 with round ends and the tolerance 1/2. -/
example : twoOutline realCtx (1 / 2) .round (0, 0) (10, 0) 0 0 (1 / 3) (1 / 3) = .error .valueError :=
  C70_thin_round rfl (by norm_num) _ _ _ _ _ (by norm_num)

/-- A path of width 4 with a bend of radius 1. -/
example : flexCorner realCtx (1 / 100) (some 1) .bend
    (jointOf (beside realNum (0, 0) (10, 0) (1 * (4 / 2)) (1 * (4 / 2)))
      (beside realNum (10, 0) (10, 10) (1 * (4 / 2)) (1 * (4 / 2))) (10, 0) (4 / 2)) = .error .valueError :=
  C70_tight_bend rfl (by norm_num) (by norm_num) (by simp) (by norm_num) (by norm_num)

/-- A path with two points: its polygon is found under its layer and datatype. -/
example : ∃ g P, (roundFlex [(0, 0), (10, 0)] 3).getPolygons realCtx = (g, .ok [((5, 6), [P])]) := by
  obtain ⟨P, hP⟩ : ∃ P, twoOutline realCtx (1 / 2) .round (0, 0) (10, 0) 3 3 2 2 = .ok P := by
    rw [twoOutline_eq]
    obtain ⟨n, hn⟩ := flexSteps_ok (angle := 2 * realNum.halfpi) (tol := 1 / 2) (r := 2 / 2) (by norm_num) (by norm_num)
    simp only [roundCap, show realCtx.num = realNum from rfl, hn]
    exact ⟨_, rfl⟩
  refine ⟨{ roundFlex [(0, 0), (10, 0)] 3 with cache := some [((5, 6), [P])] }, P, ?_⟩
  have hpp : Flex.pathPolys realCtx (roundFlex [(0, 0), (10, 0)] 3)
      ((roundFlex [(0, 0), (10, 0)] 3).twoOf realCtx) [] 0 = ([((5, 6), [P])], none) := by
    have htwo : (roundFlex [(0, 0), (10, 0)] 3).twoOf realCtx 0 = .ok P := hP
    unfold Flex.pathPolys
    rw [htwo]
    simp only [bind, Except.bind, flexPieces_small realCtx _
      (show (roundFlex [(0, 0), (10, 0)] 3).maxPoints ≤ 4 by simp [roundFlex])]
    rfl
  have hcomp : (roundFlex [(0, 0), (10, 0)] 3).compute realCtx = (roundFlex [(0, 0), (10, 0)] 3, [((5, 6), [P])], none) := by
    show (if (2 : Nat) = 2 then (if ((0, 0) : Pt ℝ) = (10, 0) then _ else (_, forOut _ [] [0])) else _) = _
    rw [if_pos rfl, if_neg (by simp)]
    simp only [forOut, hpp]
  unfold Flex.getPolygons
  rw [hcomp]
  rfl

end Gdspy
