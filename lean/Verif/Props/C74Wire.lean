import Verif.Props.C74Straight
import Verif.Props.C70Defined

/-!
# C74: from the calls to the polygons
-/

set_option linter.unusedSectionVars false

namespace Gdspy

open Spec

section

variable {K : Type} [Field K] [LinearOrder K] [IsStrictOrderedRing K]

theorem Spec.StraightPath.snoc {tol : K} {limit : Nat} {w : K} {path : List (Sub K)} {pts : List (Pt K)}
    (h : StraightPath tol limit w path pts) {s : Sub K} {x q : Pt K} (hx : pts.getLast? = some x)
    (hs : StraightSection tol limit w s x q) : StraightPath tol limit w (path ++ [s]) (pts ++ [q]) := by
  induction h with
  | one h1 =>
    cases hx
    exact .more h1 (.one hs)
  | more h1 h2 ih => exact .more h1 (ih hx)

/-- Sections along a line that ends at `x` (none if it is a point). -/
def StraightTo (tol : K) (limit : Nat) (w : K) (path : List (Sub K)) (pts : List (Pt K)) (x : Pt K) : Prop :=
  pts.getLast? = some x ∧ ((path = [] ∧ pts = [x]) ∨ StraightPath tol limit w path pts)

variable [FloorRing K]

/-- Calls of `segment` make straight sections. -/
theorem segments_straight {ctx : FlexCtx K} (pts : List (Pt K)) : ∀ {r g : Robust K} {i : Nat} {w : K} {path : List (Sub K)} {pre : List (Pt K)},
    0 < r.maxEvals → i < r.n → r.widths[i]? = some w → r.offsets[i]? = some 0 → r.paths[i]? = some path →
    StraightTo r.tolerance r.maxEvals w path pre r.x →
    forOut (Robust.run ctx) r (pts.map fun p => .segment p .none .none false) = (g, none) →
    g.tolerance = r.tolerance ∧ g.maxEvals = r.maxEvals ∧
      ∃ path', g.paths[i]? = some path' ∧ StraightTo r.tolerance r.maxEvals w path' (pre ++ pts) g.x := by
  induction pts with
  | nil =>
    intro r g i w path pre hm hi hw ho hp hs h
    cases h
    exact ⟨rfl, rfl, path, hp, by simpa using hs⟩
  | cons p pts ih =>
    intro r g i w path pre hm hi hw ho hp hs h
    rw [List.map_cons, forOut] at h
    cases hop : r.run ctx (.segment p .none .none false) with
    | mk m e =>
      rw [hop] at h
      cases e with
      | some e => cases h
      | none =>
        have hE := C72_segment hop
        obtain ⟨path0, w0, o0, wl, ol, s, e1, e2, e3, e4, e5, e6, e7, e8, e9, e10, e11, e12, e13, e14, e15, e16⟩ := hE.rows i hi
        rw [hp, Option.some.injEq] at e1
        rw [hw, Option.some.injEq] at e2
        rw [ho, Option.some.injEq] at e3
        subst e1 e2 e3
        have hwl : wl = fun _ => w := by
          unfold widthLaw at e4
          split at e4 <;> exact (Option.some.inj e4).symm
        have hol : ol = fun _ => (0 : K) := by
          unfold offsetLaw at e5
          exact (Option.some.inj e5).symm
        subst hwl hol
        have hxm : m.x = p := by
          rw [hE.x]
          simp [ramp, placedAt]
        have hsec : StraightSection r.tolerance r.maxEvals w s r.x p := by
          refine ⟨fun u => ?_, fun u h => ?_, e12, e11, e13, e15, ?_, e16⟩
          · rw [e9]; simp [ramp, placedAt]
          · rw [e10]; simp [placedAt]
          · rw [e14]
            have : (0 : K) < (r.maxEvals : K) := by exact_mod_cast hm
            positivity
        have hto : StraightTo m.tolerance m.maxEvals w (path ++ [s]) (pre ++ [p]) m.x := by
          rw [hE.tolerance, hE.maxEvals, hxm]
          refine ⟨by simp, .inr ?_⟩
          rcases hs.2 with ⟨h1, h2⟩ | h1
          · rw [h1, h2]
            exact .one hsec
          · exact h1.snoc hs.1 hsec
        have := ih (by rw [hE.maxEvals]; exact hm) (by rw [hE.n]; exact hi) e7 e8 e6 hto h
        rw [hE.tolerance, hE.maxEvals] at this
        simpa using this

/-- **C74.** A RobustPath that is built by `segment` calls, with the width `w` and without offset, has the area width times length:
the outline drawn for it exists for ends that are flush, extended or given by numbers. -/
theorem C74_wire {ctx : FlexCtx K} (ht : Num.Polar ctx.num) {r g : Robust K} {i : Nat} {w : K} (hw : 0 < w) (hm : 0 < r.maxEvals)
    (hi : i < r.n) (hrw : r.widths[i]? = some w) (hro : r.offsets[i]? = some 0) (hrp : r.paths[i]? = some [])
    {p : Pt K} {pts : List (Pt K)}
    (h : forOut (Robust.run ctx) r ((p :: pts).map fun p => .segment p .none .none false) = (g, none))
    (hd : Apart (r.x :: p :: pts)) (hc : ClearCorners ctx.num r.tolerance w (r.x :: p :: pts)) {fin : FlexEnd K}
    (hf : fin = .flush ∨ fin = .extended ∨ ∃ a b, fin = .pair a b) :
    ∃ path P, g.paths[i]? = some path ∧ robustOutline ctx g.tolerance g.maxEvals fin path = .ok P ∧
      shoelace P = 2 * (w * (lineLength ctx.num (r.x :: p :: pts) + (reach fin w).1 + (reach fin w).2)) := by
  obtain ⟨h1, h2, path, h3, h4, h5⟩ := segments_straight (pre := [r.x]) (p :: pts) hm hi hrw hro hrp ⟨rfl, .inl ⟨rfl, rfl⟩⟩ h
  rw [h1, h2]
  rcases h5 with ⟨_, h5⟩ | h5
  · simp at h5
  · rw [List.singleton_append] at h5
    cases path with
    | nil => cases h5
    | cons s l =>
      obtain ⟨P, hP, ha⟩ := C74_area ht hw h5 hd hc hf
      exact ⟨s :: l, P, h3, hP, ha⟩

theorem robust_forPolys {ctx : FlexCtx K} {r : Robust K} (hm : r.maxPoints ≤ 4) (rows : List (List (Sub K) × FlexEnd K × Int × Int))
    {d0 d : PolyDict K} (h : forOut (Robust.pathPolys ctx r) d0 rows = (d, none)) :
    ∃ Ps : List (Pgon K), List.Forall₂ (fun k P => robustOutline ctx r.tolerance r.maxEvals k.2.1 k.1 = .ok P) rows Ps ∧
      ∀ key : Int × Int, (d.lookup key).getD [] = (d0.lookup key).getD [] ++
        ((List.zip rows Ps).filter fun x => x.1.2.2 = key).map Prod.snd := by
  induction rows generalizing d0 with
  | nil =>
    cases h
    exact ⟨[], .nil, by simp⟩
  | cons k rows ih =>
    unfold forOut at h
    generalize hx : Robust.pathPolys ctx r d0 k = x at h
    obtain ⟨d1, e⟩ := x
    cases e with
    | some e => cases h
    | none =>
      obtain ⟨Ps, h1, h2⟩ := ih h
      unfold Robust.pathPolys at hx
      split at hx
      · cases hx
      · rename_i polys hy
        cases hx
        obtain ⟨P, hP, hy⟩ := bind_ok_inv hy
        rw [flexPieces_small ctx _ hm] at hy
        cases hy
        refine ⟨P :: Ps, .cons hP h1, fun key => ?_⟩
        rw [h2 key, lookup_addDict, List.zip_cons_cons, List.filter_cons, List.append_assoc]
        congr 1
        by_cases hk : key = (k.2.2.1, k.2.2.2)
        · subst hk
          simp
        · rw [if_neg hk, if_neg, List.nil_append]
          simp only [decide_eq_true_eq]
          rintro rfl
          exact hk rfl

/-- **C74.** `get_polygons(True)` of a path that is not to be cut (`max_points` at most 4) has, under each layer and datatype, the outlines of
the paths with this layer and datatype, in the order of the paths. -/
theorem C74_polygons {ctx : FlexCtx K} {r g : Robust K} (ha : RobustAligned r) (hm : r.maxPoints ≤ 4) (hcache : r.cache = none)
    {d : PolyDict K} (h : r.getPolygons ctx = (g, .ok d)) :
    ∃ Ps : List (Pgon K), Ps.length = r.n ∧
      (∀ (i : Nat) (path : List (Sub K)) (fin : FlexEnd K) (P : Pgon K), r.paths[i]? = some path → r.ends[i]? = some fin → Ps[i]? = some P →
        robustOutline ctx r.tolerance r.maxEvals fin path = .ok P) ∧
      ∀ key : Int × Int, (d.lookup key).getD [] =
        ((List.zip (List.zip r.layers r.datatypes) Ps).filter fun x => x.1 = key).map Prod.snd := by
  unfold Robust.getPolygons at h
  rw [hcache] at h
  simp only at h
  split at h
  · rename_i d' hd'
    cases h
    obtain ⟨Ps, h1, h2⟩ := robust_forPolys hm _ hd'
    have hlen := h1.length_eq
    simp only [List.length_zip, ha.paths, ha.ends, ha.layers, ha.datatypes, min_self] at hlen
    refine ⟨Ps, hlen.symm, ?_, fun key => ?_⟩
    · intro i path fin P hp hf hP
      have hi : i < r.n := by rw [← ha.paths]; exact (List.getElem?_eq_some_iff.1 hp).1
      have hz : (List.zip r.paths (List.zip r.ends (List.zip r.layers r.datatypes)))[i]? =
          some (path, fin, r.layers[i]'(by rw [ha.layers]; exact hi), r.datatypes[i]'(by rw [ha.datatypes]; exact hi)) := by
        rw [List.getElem?_zip_eq_some, List.getElem?_zip_eq_some, List.getElem?_zip_eq_some]
        exact ⟨hp, hf, List.getElem?_eq_getElem _, List.getElem?_eq_getElem _⟩
      have := List.forall₂_iff_get.1 h1
      obtain ⟨j1, j2⟩ := List.getElem?_eq_some_iff.1 hz
      obtain ⟨k1, k2⟩ := List.getElem?_eq_some_iff.1 hP
      have := this.2 i j1 k1
      simp only [List.get_eq_getElem] at this
      rw [j2, k2] at this
      exact this
    · rw [h2 key]
      simp only [List.lookup, Option.getD_none, List.nil_append]
      have e3 : r.ends.length = (List.zip r.layers r.datatypes).length := by
        simp [ha.ends, ha.layers, ha.datatypes]
      have e4 : r.paths.length = (List.zip r.ends (List.zip r.layers r.datatypes)).length := by
        simp [ha.paths, ha.ends, ha.layers, ha.datatypes]
      generalize List.zip r.layers r.datatypes = keys at e3 e4 ⊢
      clear h1 h2 hd' hlen
      revert e3 e4
      generalize r.ends = ends
      generalize r.paths = paths
      induction paths generalizing ends keys Ps with
      | nil =>
        intro e3 e4
        cases ends with
        | nil => cases keys with
          | nil => simp
          | cons a b => simp at e3
        | cons a b => cases keys with
          | nil => simp at e3
          | cons c d => simp at e4
      | cons a paths ih =>
        intro e3 e4
        cases ends with
        | nil => simp at e4
        | cons b ends =>
          cases keys with
          | nil => simp at e3
          | cons c keys =>
            cases Ps with
            | nil => simp
            | cons P Ps =>
              simp only [List.zip_cons_cons, List.filter_cons]
              have := ih Ps keys ends (by simpa using e3) (by simpa using e4)
              by_cases hk : c = key
              · simp only [hk, decide_true, if_true, List.map_cons, this]
              · simp only [hk, decide_false, Bool.false_eq_true, if_false, this]
  · cases h

end

theorem getLastD_mem {α : Type} (s : α) (l : List α) : l.getLastD s ∈ s :: l := by
  cases l with
  | nil => simp
  | cons a m =>
    rw [List.getLastD_cons]
    exact List.mem_cons_of_mem _ (by
      rw [← List.getLast_eq_getLastD (a := a) (l := m)]
      exact List.getLast_mem (by simp))

theorem round_width {s : Sub ℝ} {tol : ℝ} {limit : Nat} (hl : 0 < limit) {k e : ℝ} (hs : Placed tol limit s k e) {u : ℝ}
    (h0 : 0 ≤ u) (h1 : u ≤ 1) (hv : stepSlope s.h (edge realNum s 0) u ≠ (0, 0)) (hw : 0 < e * k * s.wid u) :
    s.width realNum u = e * k * s.wid u := by
  obtain ⟨A, hA, hA'⟩ := hs.place
  have : 0 < s.h := by
    rw [hs.step]
    positivity
  exact width_drawn realNum_polar hA hA' this h0 h1 hv hw

/-- **C74.** Round ends are drawn if both ends are at least as wide as the tolerance. -/
theorem C74_round_defined {ctx : FlexCtx ℝ} (hc : ctx.num = realNum) {tol : ℝ} (htol : 0 < tol) {limit : Nat} (hl : 0 < limit)
    {s : Sub ℝ} {l : List (Sub ℝ)} (hd : ∀ s' ∈ s :: l, EndsDirected realNum s') {k e k' e' : ℝ}
    (hs : Placed tol limit s k e) (he : Placed tol limit (l.getLastD s) k' e')
    (hw : tol ≤ e * k * s.wid 0) (hw' : tol ≤ e' * k' * (l.getLastD s).wid 1) :
    ∃ P, robustOutline ctx tol limit .round (s :: l) = .ok P := by
  have h0 : ∃ c, robustCap ctx tol limit .round s 1 = .ok c := by
    unfold robustCap
    simp only [if_true]
    rw [hc, round_width hl hs le_rfl zero_le_one ((hd s List.mem_cons_self).first 0 (by simp)) (by linarith)]
    obtain ⟨n, hn⟩ := flexSteps_ok (angle := 2 * realNum.halfpi) (r := 1 / 2 * (e * k * s.wid 0)) htol (by linarith)
    rw [hn]
    exact ⟨_, rfl⟩
  have h1 : ∃ c, robustCap ctx tol limit .round (l.getLastD s) (-1) = .ok c := by
    unfold robustCap
    simp only [show ¬ ((-1 : Int) = 1) by decide, if_false]
    rw [hc, round_width hl he zero_le_one le_rfl ((hd _ (getLastD_mem s l)).last 0 (by simp)) (by linarith)]
    obtain ⟨n, hn⟩ := flexSteps_ok (angle := 2 * realNum.halfpi) (r := 1 / 2 * (e' * k' * (l.getLastD s).wid 1)) htol (by linarith)
    rw [hn]
    exact ⟨_, rfl⟩
  obtain ⟨c1, k1⟩ := h1
  obtain ⟨c0, k0⟩ := h0
  unfold robustOutline
  simp only
  rw [k1, k0]
  exact ⟨_, rfl⟩

/-- **C74.** A round end that is narrower than the tolerance raises ValueError (the arccosine of a number below -1). -/
theorem C74_round_raises {ctx : FlexCtx ℝ} (hc : ctx.num = realNum) {tol : ℝ} {limit : Nat} (hl : 0 < limit)
    {s : Sub ℝ} {l : List (Sub ℝ)} (hd : ∀ s' ∈ s :: l, EndsDirected realNum s') {k' e' : ℝ}
    (he : Placed tol limit (l.getLastD s) k' e') (hp : 0 < e' * k' * (l.getLastD s).wid 1)
    (hw' : e' * k' * (l.getLastD s).wid 1 < tol) :
    robustOutline ctx tol limit .round (s :: l) = .error .valueError := by
  have h1 : robustCap ctx tol limit .round (l.getLastD s) (-1) = .error .valueError := by
    unfold robustCap
    simp only [show ¬ ((-1 : Int) = 1) by decide, if_false]
    rw [hc, round_width hl he zero_le_one le_rfl ((hd _ (getLastD_mem s l)).last 0 (by simp)) hp,
      flexSteps_raises (by linarith) (by linarith)]
    rfl
  unfold robustOutline
  simp only
  rw [h1]
  rfl

end Gdspy
