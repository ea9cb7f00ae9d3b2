import Verif.Model.Flex
import Verif.Props.C44
import Verif.Props.C60

/-!
# C70: the same polygons from `get_polygons`, `to_polygonset` and `area`

`to_polygonset` fractures the polygons of `get_polygons` once more (path.py:938-941). They are within the limit already
(path.py:544-576, 875-907), so nothing is cut a second time, whatever the cutting engine does: the set has exactly the
polygons of the dictionary, each with the layer and datatype of its key, and `area` is the sum of their areas.
-/

set_option linter.unusedSectionVars false

namespace Gdspy

open Spec

variable {K : Type} [Field K] [LinearOrder K] [FloorRing K]

theorem fracLoop_within (chop : Slicer K) (mx : Nat) {ps : PolySet K} (hs : ∀ p ∈ ps.polygons, p.length ≤ mx) :
    ∀ (fuel ii : Nat) (r : PolySet K), fracLoop chop mx fuel ii ps = .ok (some r) → r = ps := by
  intro fuel
  induction fuel with
  | zero => intro ii r h; rw [fracLoop] at h; cases h
  | succ n ih =>
    intro ii r h
    rw [fracLoop] at h
    have hstep : fracStep chop mx ii ps = .ok none ∨ fracStep chop mx ii ps = .ok (some (ii + 1, ps)) := by
      unfold fracStep
      cases hp : ps.polygons[ii]? with
      | none => exact Or.inl rfl
      | some p =>
        have := hs p (List.mem_of_getElem? hp)
        exact Or.inr (if_neg (by omega))
    rcases hstep with e | e
    · rw [e] at h; cases h; rfl
    · rw [e] at h; exact ih _ _ h

theorem fracture_within {chop : Slicer K} {fuel mx : Nat} {ps r : PolySet K}
    (hs : 4 < mx → ∀ p ∈ ps.polygons, p.length ≤ mx) (h : ps.fracture chop fuel mx = .ok (some r)) : r = ps := by
  unfold PolySet.fracture at h
  split at h
  · rename_i hm
    exact fracLoop_within chop mx (hs hm) _ _ _ h
  · cases h; rfl

/-- All polygons of the dictionary are within the limit, if there is one. -/
def Spec.DictWithin (mx : Nat) (d : PolyDict K) : Prop := 4 < mx → ∀ x ∈ d, ∀ p ∈ x.2, p.length ≤ mx

theorem addDict_within {mx : Nat} {d : PolyDict K} (hd : DictWithin mx d) (key : Int × Int) {l : List (Pgon K)}
    (hl : 4 < mx → ∀ p ∈ l, p.length ≤ mx) : DictWithin mx (addDict d key l) := by
  intro hm
  have hd := hd hm
  have hl := hl hm
  induction d with
  | nil =>
    intro x hx p hp
    rw [addDict, List.mem_singleton] at hx
    subst hx
    exact hl p hp
  | cons y d ih =>
    intro x hx p hp
    rw [addDict] at hx
    split at hx
    · rcases List.mem_cons.1 hx with rfl | hx
      · rcases List.mem_append.1 hp with hp | hp
        · exact hd y (by simp) p hp
        · exact hl p hp
      · exact hd x (by simp [hx]) p hp
    · rcases List.mem_cons.1 hx with rfl | hx
      · exact hd x (by simp) p hp
      · exact ih (fun _ z hz => hd z (by simp [hz])) (fun z hz => hd z (by simp [hz])) x hx p hp

theorem pathPolys_within (ctx : FlexCtx K) (f : Flex K) (o : Nat → Py (Pgon K)) {d : PolyDict K}
    (hd : DictWithin f.maxPoints d) (k : Nat) : DictWithin f.maxPoints (f.pathPolys ctx o d k).1 := by
  unfold Flex.pathPolys
  split
  · exact hd
  · rename_i x hx
    refine addDict_within hd _ fun hm => ?_
    cases ho : o k with
    | error e => rw [ho] at hx; cases hx
    | ok poly =>
      cases hf : flexPieces ctx f.precision f.maxPoints poly with
      | error e => rw [ho] at hx; simp only [bind, Except.bind, hf] at hx; cases hx
      | ok polys =>
        rw [ho] at hx
        simp only [bind, Except.bind, hf] at hx
        cases hl : idx f.layers k with
        | error e => rw [hl] at hx; cases hx
        | ok l =>
          rw [hl] at hx
          cases hdt : idx f.datatypes k with
          | error e => rw [hdt] at hx; cases hx
          | ok dt =>
            rw [hdt] at hx
            cases hx
            unfold flexPieces at hf
            cases hp : PolySet.fracture (ctx.chop (1 / f.precision)) ctx.fuel f.maxPoints ⟨[poly], [0], [0]⟩ with
            | error e => rw [hp] at hf; cases hf
            | ok r =>
              rw [hp] at hf
              cases r with
              | none => cases hf
              | some ps =>
                cases hf
                exact (C44_fracture _ _ _ hm ⟨[poly], [0], [0]⟩ ps ⟨rfl, rfl⟩ hp).2.1

theorem forOut_within (ctx : FlexCtx K) (f : Flex K) (o : Nat → Py (Pgon K)) (l : List Nat) {d : PolyDict K}
    (hd : DictWithin f.maxPoints d) : DictWithin f.maxPoints (forOut (f.pathPolys ctx o) d l).1 := by
  induction l generalizing d with
  | nil => exact hd
  | cons a l ih =>
    rw [forOut]
    have h := pathPolys_within ctx f o hd a
    split
    · rename_i s e he; rw [he] at h; exact h
    · rename_i s he; rw [he] at h; exact ih h

theorem compute_within (ctx : FlexCtx K) (f : Flex K) : DictWithin f.maxPoints (f.compute ctx).2.1 := by
  have h0 : DictWithin f.maxPoints ([] : PolyDict K) := by intro _ x hx; cases hx
  unfold Flex.compute
  split
  · split
    · split
      · exact h0
      · exact forOut_within ctx f _ _ h0
    · exact h0
  · have e : f.dedup.maxPoints = f.maxPoints := by unfold Flex.dedup; split <;> rfl
    rw [← e] at h0 ⊢
    exact forOut_within ctx f.dedup _ _ h0

/-- **C70.** No polygon that `get_polygons` returns has more vertices than `max_points` (if above 4). -/
theorem C70_limit {ctx : FlexCtx K} {f g : Flex K} {d : PolyDict K} (hc : f.cache = none)
    (h : f.getPolygons ctx = (g, .ok d)) (hm : 4 < f.maxPoints) : ∀ x ∈ d, ∀ p ∈ x.2, p.length ≤ f.maxPoints := by
  unfold Flex.getPolygons at h
  rw [hc] at h
  have hw := compute_within ctx f
  simp only at h
  split at h
  · rename_i g' d' he
    rw [he] at hw
    cases h
    exact hw hm
  · cases h

/-- **C70.** `to_polygonset` has the polygons of `get_polygons`, each with the layer and datatype under which it is
found there. -/
theorem C70_polygonset {ctx : FlexCtx K} {f g : Flex K} {ps : PolySet K} (hc : f.cache = none)
    (h : f.toPolygonset ctx = (g, .ok (some ps))) :
    ∃ d, f.getPolygons ctx = (g, .ok d) ∧ ps.polygons = d.flatMap Prod.snd ∧
      List.zip ps.polygons (List.zip ps.layers ps.datatypes) = d.flatMap fun x => x.2.map fun p => (p, x.1) := by
  unfold Flex.toPolygonset at h
  split at h
  · cases h
  · split at h
    · cases h
    · rename_i g' d hg
      have hw : f.maxPoints > 4 → ∀ p ∈ (PolyDict.toSet d).polygons, p.length ≤ f.maxPoints := by
        intro hm p hp
        obtain ⟨x, hx, hp⟩ := List.mem_flatMap.1 hp
        exact C70_limit hc hg hm x hx p hp
      simp only [Prod.mk.injEq] at h
      obtain ⟨rfl, h⟩ := h
      cases hf : (PolyDict.toSet d).fracture (ctx.chop (1 / f.precision)) ctx.fuel f.maxPoints with
      | error e => rw [hf] at h; cases h
      | ok r =>
        rw [hf] at h
        cases r with
        | none => cases h
        | some r =>
          have e := fracture_within hw hf
          subst e
          cases h
          refine ⟨d, hg, rfl, ?_⟩
          unfold PolyDict.toSet PolyDict.all
          simp only
          clear hg hw hf
          induction d with
          | nil => rfl
          | cons x d ih =>
            simp only [List.flatMap_cons]
            rw [List.zip_append (by simp), List.zip_append (by simp), ih]
            congr 1
            obtain ⟨k, l⟩ := x
            simp only
            induction l with
            | nil => rfl
            | cons p l il =>
              simp only [List.length_cons, List.replicate_succ, List.zip_cons_cons, List.map_cons]
              rw [il]

/-- **C70.** `area` is the sum of the areas of the polygons that `get_polygons` returns. -/
theorem C70_area_sum {ctx : FlexCtx K} {f g : Flex K} {A : K} (hc : f.cache = none)
    (h : f.area ctx = (g, .ok A)) :
    ∃ d, f.getPolygons ctx = (g, .ok d) ∧ A = (d.map fun x => (x.2.map polyArea).sum).sum := by
  unfold Flex.area at h
  split at h
  · cases h
  · cases h
  · rename_i g' ps hp
    cases h
    obtain ⟨d, h1, h2, -⟩ := C70_polygonset hc hp
    refine ⟨d, h1, ?_⟩
    rw [h2]
    clear h1 h2 hp
    induction d with
    | nil => rfl
    | cons x d ih => rw [List.flatMap_cons, List.map_append, List.sum_append, ih, List.map_cons, List.sum_cons]

/-- A path with a corner, never queried before: its area is its length times its width. -/
example : (tenFlex [(0, 0), (10, 0), (10, 10)] .flush).cache = none ∧
    4 < (tenFlex [(0, 0), (10, 0), (10, 10)] .flush).maxPoints ∧
    ((tenFlex [(0, 0), (10, 0), (10, 10)] .flush).area tenCtx).2.toOption = some 40 ∧
    ((tenFlex [(0, 0), (10, 0), (10, 10)] .flush).getPolygons tenCtx).2.toOption.map PolyDict.all =
      some [[(0, 1), (0, -1), (11, -1), (11, 10), (9, 10), (9, 1)]] := by
  decide +kernel

end Gdspy
