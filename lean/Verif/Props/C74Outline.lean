import Verif.Props.C74Ends

/-!
# C74: the outline of a RobustPath

`get_polygons` draws, for each path, the left and right sides of its sections one after the other, joined where they meet, with the
requested caps at both ends.
-/

set_option linter.unusedSectionVars false

namespace Gdspy

open Spec

/-- A section as the methods of RobustPath make it: sampled with the tolerance of the path and placed by a similarity. -/
structure Spec.Placed {K : Type} [Field K] [LinearOrder K] (tol : K) (limit : Nat) (s : Sub K) (k e : K) : Prop where
  err : s.err = tol ^ 2
  maxEvals : s.maxEvals = limit
  step : s.h = 1 / (2 * (limit : K))
  place : ∃ A : Aff K, s.tr = A.mat ∧ Similar A k e

/-- Every section of every path is placed. -/
def Spec.AllPlaced {K : Type} [Field K] [LinearOrder K] (r : Robust K) : Prop :=
  ∀ p ∈ r.paths, ∀ s ∈ p, ∃ k e, Placed r.tolerance r.maxEvals s k e

/-- A section whose sides have a direction at both ends. -/
structure Spec.EndsDirected {K : Type} [Field K] [LinearOrder K] (t : Num K) (s : Sub K) : Prop where
  first : ∀ side ∈ [(1 : K), -1, 0], stepSlope s.h (edge t s side) 0 ≠ (0, 0)
  last : ∀ side ∈ [(1 : K), -1, 0], stepSlope s.h (edge t s side) 1 ≠ (0, 0)

/-- Transformations other than those by the factor 0. -/
def Spec.NonzeroScale {K : Type} [Field K] : RobustOp K → Prop
  | .scale s _ => s ≠ 0
  | .transform _ _ sc _ _ => ∀ s, sc = some s → s ≠ 0
  | _ => True

section

variable {K : Type} [Field K] [LinearOrder K] [IsStrictOrderedRing K]

theorem Spec.Similar.resize {s : K} (h : s ≠ 0) : Similar (Aff.scale s) |s| 1 :=
  ⟨abs_pos.2 h, .inl rfl, by simp [Aff.scale], by simp [Aff.scale], by simp [Aff.scale, sq_abs]⟩

theorem moved_placed {A : Aff K} {k e : K} (hA : Similar A k e) {r g : Robust K} (h : MovedBy A r g) (hr : AllPlaced r) :
    AllPlaced g := by
  intro p hp s hs
  rw [h.paths, List.mem_map] at hp
  obtain ⟨q, hq, rfl⟩ := hp
  obtain ⟨s0, hs0, rfl⟩ := List.mem_map.1 hs
  obtain ⟨k', e', h1, h2, h3, B, h4, h5⟩ := hr q hq s0 hs0
  refine ⟨k * k', e * e', ?_, ?_, ?_, A.comp B, ?_, hA.comp h5⟩
  · rw [h.tolerance]; exact h1
  · rw [h.maxEvals]; exact h2
  · rw [h.maxEvals]; exact h3
  · show A.mat.mul s0.tr = _
    rw [h4]
    rfl

theorem extended_placed {r g : Robust K} {c : K → Pt K} {d : K → K → Pt K} {w o : RArg K} (h : Extended r g c d w o)
    (hg : RobustAligned g) (hr : AllPlaced r) : AllPlaced g := by
  intro p hp s hs
  obtain ⟨i, hi, hp⟩ := List.getElem_of_mem hp
  have hin : i < r.n := by rw [← h.n, ← hg.paths]; exact hi
  obtain ⟨q, _, _, wl, ol, s', e1, _, _, _, _, e6, _, _, _, _, _, _, e13, e14, e15, e16⟩ := h.rows i hin
  rw [List.getElem?_eq_getElem hi, hp, Option.some.injEq] at e6
  rw [e6, List.mem_append, List.mem_singleton] at hs
  rw [h.tolerance, h.maxEvals]
  rcases hs with hs | rfl
  · exact hr q (List.mem_of_getElem? e1) s hs
  · exact ⟨1, 1, e13, e15, e14, .id, mat_of_identity e16, .id⟩

variable [FloorRing K]

theorem shift_placed (d : Option (Pt K)) {r : Robust K} (hr : AllPlaced r) : AllPlaced (r.shift d) := by
  refine moved_placed (A := Aff.opt d .shift) (k := 1) (e := 1) ?_ (movedBy_shift d r) hr
  cases d with
  | none => exact .id
  | some v => exact .shift v

theorem robust_run_placed {ctx : FlexCtx K} (hl : Num.Laws ctx.num) {r g : Robust K} {op : RobustOp K}
    (h : r.run ctx op = (g, none)) (ha : RobustAligned r) (hs : NonzeroScale op) (hr : AllPlaced r) : AllPlaced g := by
  have hg := robust_run_aligned h ha
  cases op with
  | segment p w o rel => exact extended_placed (C72_segment h) hg hr
  | arc rad ia fa w o => exact extended_placed (C72_arc ctx.num h) hg hr
  | turn rad a w o =>
    obtain ⟨ia, fa, h⟩ := turn_some_arc (t := ctx.num) h
    exact extended_placed (C72_arc ctx.num h) hg hr
  | parametric c d w o rel => exact extended_placed (C72_parametric h) hg hr
  | bezier p w o rel => exact extended_placed (C72_bezier h) hg hr
  | smooth hb p c w o rel =>
    exact (smooth_keep (P := fun r => RobustAligned r ∧ AllPlaced r) (fun r g p hr h =>
      ⟨robust_bezier_aligned h hr.1, extended_placed (C72_bezier h) (robust_bezier_aligned h hr.1) hr.2⟩) h ⟨ha, hr⟩).2
  | translate dx dy =>
    simp only [Robust.run, Prod.mk.injEq, and_true] at h
    subst h
    exact moved_placed (.shift _) (movedBy_translate dx dy r) hr
  | rotate a c =>
    simp only [Robust.run, Prod.mk.injEq, and_true] at h
    subst h
    refine moved_placed (k := 1) (e := 1) ?_ (movedBy_rotate ctx.num a c r) hr
    have := ((Similar.shift c).comp (Similar.rotate (hl.trig.pyth a))).comp (Similar.shift (-c.1, -c.2))
    simpa using this
  | scale s c =>
    simp only [Robust.run, Prod.mk.injEq, and_true] at h
    subst h
    refine moved_placed (k := |s|) (e := 1) ?_ (movedBy_scale s c r) hr
    have := ((Similar.shift c).comp (Similar.resize hs)).comp (Similar.shift (-c.1, -c.2))
    simpa using this
  | transform tr ro sc x a =>
    simp only [Robust.run, Prod.mk.injEq, and_true] at h
    subst h
    have h1 : AllPlaced (({ r with cache := none } : Robust K).shift a) := shift_placed a (r := { r with cache := none }) hr
    have h2 : AllPlaced ((({ r with cache := none } : Robust K).shift a).mirror x) := by
      cases x with
      | false => exact h1
      | true => exact moved_placed .reflect (movedBy_mirror true _) h1
    have h3 : AllPlaced (((({ r with cache := none } : Robust K).shift a).mirror x).magnify sc) := by
      cases sc with
      | none => exact h2
      | some s => exact moved_placed (.resize (hs s rfl)) (movedBy_magnify (some s) _) h2
    have h4 : AllPlaced ((((({ r with cache := none } : Robust K).shift a).mirror x).magnify sc).spin ctx.num ro) := by
      cases ro with
      | none => exact h3
      | some b => exact moved_placed (.rotate (hl.trig.pyth b)) (movedBy_spin ctx.num (some b) _) h3
    exact shift_placed tr h4
  | polygons =>
    have : (r.run ctx .polygons).1.bare = r.bare := C60_robust_query ctx (op := .polygons) rfl r
    rw [h] at this
    have e : g = { r with cache := g.cache } := by
      cases g; cases r
      simp only [Robust.bare, Robust.mk.injEq, and_true] at this ⊢
      exact this
    rw [e]
    exact hr
  | polygonset =>
    have : (r.run ctx .polygonset).1.bare = r.bare := C60_robust_query ctx (op := .polygonset) rfl r
    rw [h] at this
    have e : g = { r with cache := g.cache } := by
      cases g; cases r
      simp only [Robust.bare, Robust.mk.injEq, and_true] at this ⊢
      exact this
    rw [e]
    exact hr
  | area =>
    have : (r.run ctx .area).1.bare = r.bare := C60_robust_query ctx (op := .area) rfl r
    rw [h] at this
    have e : g = { r with cache := g.cache } := by
      cases g; cases r
      simp only [Robust.bare, Robust.mk.injEq, and_true] at this ⊢
      exact this
    rw [e]
    exact hr

/-- **C74.** After any sequence of calls that return, with factors of scaling other than 0, every section is sampled with the
tolerance and the limit of the path and placed by a similarity. -/
theorem C74_history {ctx : FlexCtx K} (hl : Num.Laws ctx.num) (ops : List (RobustOp K)) {r g : Robust K}
    (ha : RobustAligned r) (hr : AllPlaced r) (hs : ∀ op ∈ ops, NonzeroScale op)
    (h : forOut (Robust.run ctx) r ops = (g, none)) : AllPlaced g := by
  induction ops generalizing r with
  | nil =>
    simp only [forOut, Prod.mk.injEq, and_true] at h
    subst h
    exact hr
  | cons op ops ih =>
    rw [forOut] at h
    cases hop : r.run ctx op with
    | mk m e =>
      rw [hop] at h
      cases e with
      | some e => cases h
      | none =>
        exact ih (robust_run_aligned hop ha) (robust_run_placed hl hop ha (hs op List.mem_cons_self) hr)
          (fun op' h' => hs op' (List.mem_cons_of_mem _ h')) h

end

/-- **C74.** The outline of a path is drawn across its end, back along the left sides of its sections, across its beginning and
along their right sides. Consecutive sides are cut where they meet or extended to the point where their lines meet. -/
theorem C74_outline {ctx : FlexCtx ℝ} (hc : ctx.num = realNum) {tol : ℝ} {limit : Nat} (hl : 0 < limit) {fin : FlexEnd ℝ}
    {s : Sub ℝ} {l : List (Sub ℝ)} (hp : ∀ s' ∈ s :: l, ∃ k e, Placed tol limit s' k e) (hd : ∀ s' ∈ s :: l, EndsDirected realNum s')
    {k e k' e' : ℝ} (hs : Placed tol limit s k e) (he : Placed tol limit (l.getLastD s) k' e')
    (hw : 0 < e * k * s.wid 0) (hw' : 0 < e' * k' * (l.getLastD s).wid 1) {P : Pgon ℝ}
    (h : robustOutline ctx tol limit fin (s :: l) = .ok P) :
    RobustOutlineOk realNum tol limit fin (s :: l) s (l.getLastD s) (e * k * s.wid 0) (e' * k' * (l.getLastD s).wid 1) P := by
  unfold robustOutline at h
  simp only at h
  rw [hc] at h
  obtain ⟨cap1, h1, h⟩ := bind_ok h
  obtain ⟨cap0, h0, h⟩ := bind_ok h
  simp only [Except.ok.injEq] at h
  subst h
  have hmem : l.getLastD s ∈ s :: l := by
    cases hl' : l with
    | nil => simp
    | cons a m =>
      rw [List.getLastD_cons]
      exact List.mem_cons_of_mem _ (by
        rw [← List.getLast_eq_getLastD (a := a) (l := m)]
        exact List.getLast_mem (by simp))
  have hpos : (0 : ℝ) < 1 / (2 * (limit : ℝ)) := by positivity
  refine ⟨robustArm realNum tol limit (-1) 0 s l, robustArm realNum tol limit 1 0 s l,
    edge realNum s 1 0 :: cap0 ++ [edge realNum s (-1) 0],
    edge realNum (l.getLastD s) (-1) 1 :: cap1 ++ [edge realNum (l.getLastD s) 1 1], ?_, ?_, ?_, ?_, ?_⟩
  · simp only [List.cons_append, List.drop_succ_cons, List.drop_zero, List.dropLast_concat]
  · have := arm_run realNum (tol := tol) (limit := limit) (arm := -1) (.inl rfl) l s 0 (fun s' hs' => by
      obtain ⟨k, e, hk⟩ := hp s' hs'
      have := hd s' hs'
      exact ⟨hk.err, hk.maxEvals, by simpa [strand] using this.first 1 (by simp), by simpa [strand] using this.last 1 (by simp)⟩)
    simpa using this
  · have := arm_run realNum (tol := tol) (limit := limit) (arm := 1) (.inr (.inl rfl)) l s 0 (fun s' hs' => by
      obtain ⟨k, e, hk⟩ := hp s' hs'
      have := hd s' hs'
      exact ⟨hk.err, hk.maxEvals, by simpa [strand] using this.first (-1) (by simp), by simpa [strand] using this.last (-1) (by simp)⟩)
    simpa using this
  · obtain ⟨A, hA, hA'⟩ := hs.place
    have hh : 0 < s.h := by rw [hs.step]; exact hpos
    have hv := (hd s List.mem_cons_self).first 0 (by simp)
    have key : EndOk fin (edge realNum s 0 0) (edge realNum s (1 - 2 * 0) 0) (edge realNum s (2 * 0 - 1) 0) (outward realNum s 0)
        (e * k * s.wid 0) (extension fin 0) (edge realNum s (1 - 2 * 0) 0 :: cap0 ++ [edge realNum s (2 * 0 - 1) 0]) := by
      by_cases hr : fin = .round
      · subst hr
        exact cap_round hc hA hA' hh (.inr rfl) (by simp) hv hw h0 _
      · rw [← hc] at hv ⊢
        exact cap_ok (hc ▸ realNum_polar) hA hA' hh (.inr rfl) (by simp) hv hw hr h0
    simpa using key
  · obtain ⟨A, hA, hA'⟩ := he.place
    have hh : 0 < (l.getLastD s).h := by rw [he.step]; exact hpos
    have hv := (hd _ hmem).last 0 (by simp)
    have key : EndOk fin (edge realNum (l.getLastD s) 0 1) (edge realNum (l.getLastD s) (1 - 2 * 1) 1)
        (edge realNum (l.getLastD s) (2 * 1 - 1) 1) (outward realNum (l.getLastD s) 1) (e' * k' * (l.getLastD s).wid 1)
        (extension fin 1) (edge realNum (l.getLastD s) (1 - 2 * 1) 1 :: cap1 ++ [edge realNum (l.getLastD s) (2 * 1 - 1) 1]) := by
      by_cases hr : fin = .round
      · subst hr
        exact cap_round hc hA hA' hh (.inl rfl) (by simp) hv hw' h1 _
      · rw [← hc] at hv ⊢
        exact cap_ok (hc ▸ realNum_polar) hA hA' hh (.inl rfl) (by simp) hv hw' hr h1
    rw [show (1 : ℝ) - 2 * 1 = -1 by norm_num, show (2 : ℝ) * 1 - 1 = 1 by norm_num] at key
    exact key

end Gdspy
