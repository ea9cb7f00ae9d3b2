import Verif.Spec.Flatten
import Verif.Lemmas.HierSamples

/-!
# C39: label placement through references
-/

set_option linter.unusedSectionVars false

namespace Gdspy

open Spec

variable {K P : Type} [Field K]

/-- All references of a hierarchy through `placements`, for labels. -/
theorem labels_ref (t : Trig K) (r : RefData K) (st : Bool) (l : List (HLabel K)) :
    (match r.array with
      | none => l.map (placeLabel r st (refPt t r))
      | some (cols, rows, spacing) => (lattice cols rows spacing).flatMap fun spc =>
          l.map (placeLabel r st (arrPt t r spc)))
      = (placements t r).flatMap fun A => l.map (placeLabel r st A.app) := by
  unfold placements
  cases r.array with
  | none =>
    simp only [List.flatMap_cons, List.flatMap_nil, List.append_nil]
    refine congrArg (fun f => l.map (placeLabel r st f)) ?_
    funext p
    exact refPt_eq t r p
  | some q =>
    obtain ⟨cols, rows, s⟩ := q
    simp only
    unfold lattice
    simp only [List.flatMap_assoc, List.flatMap_map]
    refine List.flatMap_congr ?_
    intro i _
    refine List.flatMap_congr ?_
    intro j _
    refine congrArg (fun f => l.map (placeLabel r st f)) ?_
    funext p
    exact arrPt_eq t r _ p

/-- A label after the references of a chain, innermost first. -/
def throughChain (st : Bool) (chain : List (RefData K × Aff K)) (l : HLabel K) : HLabel K :=
  chain.foldr (fun q l => placeLabel q.1 st q.2.app l) l

mutual
theorem getLabels_paths (t : Trig K) (st : Bool) : (c : HCell K P) →
    c.getLabels t none st = (labelPaths t c).map fun q => throughChain st q.2 q.1
  | .mk name polys paths labels refs => by
    rw [HCell.getLabels, labelPaths, if_pos (by rfl), List.map_append, List.map_map]
    refine congrArg₂ List.append ?_ (getLabelsRefs_paths t st refs)
    exact (List.map_id _).symm

theorem getLabelsRefs_paths (t : Trig K) (st : Bool) : (c : HRefs K P) →
    c.getLabels t none st = (labelPathsRefs t c).map fun q => throughChain st q.2 q.1
  | .nil => by rw [HRefs.getLabels, labelPathsRefs]; rfl
  | .cell r c rest => by
    rw [HRefs.getLabels, labelPathsRefs, List.map_append]
    refine congrArg₂ List.append ?_ (getLabelsRefs_paths t st rest)
    refine (labels_ref t r st _).trans ?_
    rw [List.map_flatMap]
    refine List.flatMap_congr ?_
    intro A _
    rw [getLabels_paths t st c, List.map_map, List.map_map]
    rfl
  | .name _ _ rest => by
    rw [HRefs.getLabels, labelPathsRefs]
    exact getLabelsRefs_paths t st rest
end

theorem app_id (p : Pt K) : (Aff.id : Aff K).app p = p := by
  simp [Aff.id, Aff.app]

theorem throughChain_false (chain : List (RefData K × Aff K)) (l : HLabel K) :
    throughChain false chain l = { l with position := (chainMap chain).app l.position } := by
  induction chain with
  | nil => simp [throughChain, chainMap, app_id]
  | cons q chain ih =>
    have h1 : throughChain false (q :: chain) l = placeLabel q.1 false q.2.app (throughChain false chain l) :=
      rfl
    have h2 : chainMap (q :: chain) = q.2.comp (chainMap chain) := rfl
    rw [h1, ih, h2, Aff_app_comp]
    rfl

/-- **C39.** `get_labels()` returns, for each label of the hierarchy and each chain of references
(and of array positions) down to it, a label that differs only in its position, which is the image
of the stored one under the composition of the maps of the chain. -/
theorem C39_positions (t : Trig K) (c : HCell K P) :
    c.getLabels t none false
      = (labelPaths t c).map fun q => { q.1 with position := (chainMap q.2).app q.1.position } := by
  rw [getLabels_paths]
  refine List.map_congr_left ?_
  rintro ⟨l, chain⟩ _
  exact throughChain_false chain l

theorem throughChain_position (st : Bool) (chain : List (RefData K × Aff K)) (l : HLabel K) :
    (throughChain st chain l).position = (chainMap chain).app l.position := by
  induction chain with
  | nil => simp [throughChain, chainMap, app_id]
  | cons q chain ih =>
    have h1 : throughChain st (q :: chain) l = placeLabel q.1 st q.2.app (throughChain st chain l) := rfl
    have h2 : chainMap (q :: chain) = q.2.comp (chainMap chain) := rfl
    rw [h1, h2, Aff_app_comp, ← ih]
    cases st <;> rfl

/-- Number of levels at which the reflection is toggled. -/
def toggles (chain : List (RefData K × Aff K)) : Nat := (chain.filter fun q => q.1.xrefl.isSome).length

theorem throughChain_attrs (chain : List (RefData K × Aff K)) (l : HLabel K) :
    ((throughChain true chain l).magnification.getD 1
      = (chain.map fun q => q.1.magnification.getD 1).foldr (fun m x => x * m) (l.magnification.getD 1)) ∧
    ((throughChain true chain l).rotation.getD 0
      = (chain.map fun q => q.1.rotation.getD 0).foldr (fun m x => x + m) (l.rotation.getD 0)) ∧
    ((throughChain true chain l).xrefl.getD false
      = xor (l.xrefl.getD false) (decide (toggles chain % 2 = 1))) := by
  induction chain with
  | nil => exact ⟨rfl, rfl, by simp [throughChain, toggles]⟩
  | cons q chain ih =>
    have h1 : throughChain true (q :: chain) l
        = labelTransform q.1 { throughChain true chain l with
            position := q.2.app (throughChain true chain l).position } := rfl
    obtain ⟨i1, i2, i3⟩ := ih
    rw [h1]
    refine ⟨?_, ?_, ?_⟩
    · rw [List.map_cons, List.foldr_cons, ← i1]
      unfold labelTransform
      cases q.1.magnification <;> cases (throughChain true chain l).magnification <;> simp
    · rw [List.map_cons, List.foldr_cons, ← i2]
      unfold labelTransform
      cases q.1.rotation <;> cases (throughChain true chain l).rotation <;> simp
    · unfold labelTransform toggles
      unfold toggles at i3
      by_cases hq : q.1.xrefl.isSome = true
      · rw [List.filter_cons_of_pos (by simpa using hq), List.length_cons]
        simp only [hq, if_true, Option.getD_some]
        generalize (chain.filter fun q => q.1.xrefl.isSome).length = n at i3
        have e1 : decide ((n + 1) % 2 = 1) = !decide (n % 2 = 1) := by
          rcases Nat.mod_two_eq_zero_or_one n with h | h
          · have : (n + 1) % 2 = 1 := by omega
            simp [h, this]
          · have : (n + 1) % 2 = 0 := by omega
            simp [h, this]
        have e2 : (decide ((throughChain true chain l).xrefl = some true))
            = (throughChain true chain l).xrefl.getD false := by
          cases (throughChain true chain l).xrefl with
          | none => rfl
          | some b => cases b <;> rfl
        rw [e1, e2, i3]
        cases l.xrefl.getD false <;> cases decide (n % 2 = 1) <;> rfl
      · rw [List.filter_cons_of_neg (by simpa using hq)]
        simp only [hq]
        exact i3

/-- The references of the chain have no reflection attribute (None, not False). -/
def NoRefl (chain : List (RefData K × Aff K)) : Prop := ∀ q ∈ chain, q.1.xrefl = none

/-- **C39**, with `set_transform=True`: the position is as without it; the magnification is the
product of all magnifications and the rotation the sum of all rotations (None standing for 1 and 0).
The reflection is toggled once for each reference whose attribute is not None, be it True or
False. When all attributes are None, this is the composition of the transformations; the intended
claim, parity of the reflections that are True and rotations that change sign under reflection, is
refuted below. -/
theorem C39_set_transform_partial (t : Trig K) (c : HCell K P) :
    c.getLabels t none true = (labelPaths t c).map (fun q => throughChain true q.2 q.1) ∧
    ∀ q ∈ labelPaths t c,
      (throughChain true q.2 q.1).text = q.1.text ∧
      (throughChain true q.2 q.1).layer = q.1.layer ∧
      (throughChain true q.2 q.1).texttype = q.1.texttype ∧
      (throughChain true q.2 q.1).position = (chainMap q.2).app q.1.position ∧
      (throughChain true q.2 q.1).magnification.getD 1
        = (q.2.map fun r => r.1.magnification.getD 1).foldr (fun m x => x * m)
            (q.1.magnification.getD 1) ∧
      (throughChain true q.2 q.1).rotation.getD 0
        = (q.2.map fun r => r.1.rotation.getD 0).foldr (fun m x => x + m) (q.1.rotation.getD 0) ∧
      (throughChain true q.2 q.1).xrefl.getD false
        = xor (q.1.xrefl.getD false) (decide (toggles q.2 % 2 = 1)) ∧
      (NoRefl q.2 → (throughChain true q.2 q.1).xrefl.getD false = q.1.xrefl.getD false) := by
  refine ⟨getLabels_paths t true c, ?_⟩
  rintro ⟨l, chain⟩ hm
  clear hm
  obtain ⟨h1, h2, h3⟩ := throughChain_attrs chain l
  have hk : (throughChain true chain l).text = l.text ∧ (throughChain true chain l).layer = l.layer ∧
      (throughChain true chain l).texttype = l.texttype := by
    clear h1 h2 h3
    induction chain with
    | nil => exact ⟨rfl, rfl, rfl⟩
    | cons q chain ih => exact ih
  refine ⟨hk.1, hk.2.1, hk.2.2, throughChain_position true chain l, h1, h2, h3, ?_⟩
  intro hn
  rw [h3]
  have : toggles chain = 0 := by
    unfold toggles
    rw [List.length_eq_zero_iff, List.filter_eq_nil_iff]
    intro q hq
    simp [hn q hq]
  simp [this]

/-- **C39.** A label under a reference with `x_reflection=False`, the default, comes out reflected. -/
theorem C39_false_reflects : ∃ (c : HCell ℚ IdealPath),
    (∀ q ∈ labelPaths ratTrig c, ∀ r ∈ q.2, r.1.xrefl = some false) ∧
    (c.getLabels ratTrig none false).map HLabel.xrefl = [some false] ∧
    (c.getLabels ratTrig none true).map HLabel.xrefl = [some true] := by
  refine ⟨.mk [] [] [] [] (.cell sampleRef sampleLeaf .nil), ?_, by decide +kernel, by decide +kernel⟩
  simp only [labelPaths, labelPathsRefs, sampleLeaf, List.map_nil, List.nil_append, List.append_nil,
    List.map_cons, List.mem_flatMap, List.mem_singleton]
  rintro q ⟨A, -, rfl⟩ r hr
  rw [List.mem_singleton] at hr
  rw [hr]
  rfl

/-- **C39.** Under a reflected reference the rotation of the label keeps its sign: a label at 37
degrees should come out at -37 degrees. -/
theorem C39_rotation_sign : ∃ (c : HCell ℚ IdealPath),
    (c.getLabels ratTrig none true).map HLabel.rotation = [some 37] ∧
    (c.getLabels ratTrig none true).map HLabel.xrefl = [some true] ∧
    ∃ (r : RefData ℚ) (l : HLabel ℚ), l.rotation = some 37 ∧ r.xrefl = some true ∧ r.rotation = none ∧
      c = .mk [] [] [] [] (.cell r (.mk [] [] [] [l] .nil) .nil) :=
  ⟨.mk [] [] [] [] (.cell ⟨none, none, none, some true, none⟩
      (.mk [] [] [] [⟨['t'], (1, 2), some 37, none, some false, 0, some 0⟩] .nil) .nil),
    by decide +kernel, by decide +kernel, _, _, rfl, rfl, rfl, rfl⟩

example : (sampleMid.getLabels ratTrig none false).map HLabel.position
    = [(14, 22), (20, 22), (14, 27), (20, 27)] := by decide +kernel

example : (sampleTop.getLabels ratTrig none false).length = 5 := by decide +kernel

end Gdspy
