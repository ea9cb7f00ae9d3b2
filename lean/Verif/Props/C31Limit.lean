import Verif.Props.C30

/-!
# C31: depth limits of `get_polygonsets`, `get_paths` and `get_labels`
-/

set_option linter.unusedSectionVars false

namespace Gdspy

open Spec

variable {K P : Type} [Field K] [LinearOrder K]

mutual
/-- The hierarchy without the references more than `d` levels down. -/
def Spec.prune : Nat → HCell K P → HCell K P
  | 0, .mk name polys paths labels _ => .mk name polys paths labels .nil
  | d + 1, .mk name polys paths labels refs => .mk name polys paths labels (Spec.pruneRefs d refs)

def Spec.pruneRefs (d : Nat) : HRefs K P → HRefs K P
  | .nil => .nil
  | .cell r c rest => .cell r (Spec.prune d c) (Spec.pruneRefs d rest)
  | .name r n rest => .name r n (Spec.pruneRefs d rest)
end

theorem descends_pos (d : Nat) : descends (some ((d + 1 : Nat) : Int)) = true ∧
    nextDepth (some ((d + 1 : Nat) : Int)) = some (d : Int) := by
  constructor
  · simp only [descends, Option.all_some, decide_eq_true_eq]
    omega
  · simp [nextDepth]

mutual
theorem prune_elements (ops : PathOps K P) (t : Trig K) (st : Bool) : (d : Nat) → (c : HCell K P) →
    c.polysets t (some d) = (prune d c).polysets t none ∧ c.getPaths ops (some d) = (prune d c).getPaths ops none ∧
      c.getLabels t (some d) st = (prune d c).getLabels t none st
  | 0, .mk name polys paths labels refs => by
    have hd : descends (some ((0 : Nat) : Int)) = false := by decide
    refine ⟨?_, ?_, ?_⟩
    · rw [HCell.polysets, prune, HCell.polysets, hd, HRefs.polysets]
      simp
    · rw [HCell.getPaths, prune, HCell.getPaths, hd, HRefs.getPaths]
      simp
    · rw [HCell.getLabels, prune, HCell.getLabels, hd, HRefs.getLabels]
      simp
  | d + 1, .mk name polys paths labels refs => by
    obtain ⟨hd, hn⟩ := descends_pos d
    obtain ⟨h1, h2, h3⟩ := prune_elementsRefs ops t st d refs
    refine ⟨?_, ?_, ?_⟩
    · rw [HCell.polysets, prune, HCell.polysets, hd, hn, h1]
      rfl
    · rw [HCell.getPaths, prune, HCell.getPaths, hd, hn, h2]
      rfl
    · rw [HCell.getLabels, prune, HCell.getLabels, hd, hn, h3]
      rfl

theorem prune_elementsRefs (ops : PathOps K P) (t : Trig K) (st : Bool) (d : Nat) : (c : HRefs K P) →
    c.polysets t (some d) = (pruneRefs d c).polysets t none ∧ c.getPaths ops (some d) = (pruneRefs d c).getPaths ops none ∧
      c.getLabels t (some d) st = (pruneRefs d c).getLabels t none st
  | .nil => by
    rw [pruneRefs]
    exact ⟨by rw [HRefs.polysets, HRefs.polysets], by rw [HRefs.getPaths, HRefs.getPaths], by rw [HRefs.getLabels, HRefs.getLabels]⟩
  | .cell r c rest => by
    obtain ⟨a1, a2, a3⟩ := prune_elements ops t st d c
    obtain ⟨b1, b2, b3⟩ := prune_elementsRefs ops t st d rest
    rw [pruneRefs]
    refine ⟨?_, ?_, ?_⟩
    · rw [HRefs.polysets, HRefs.polysets, a1, b1]
    · rw [HRefs.getPaths, HRefs.getPaths, a2, b2]
    · rw [HRefs.getLabels, HRefs.getLabels, a3, b3]
  | .name _ _ rest => by
    obtain ⟨b1, b2, b3⟩ := prune_elementsRefs ops t st d rest
    rw [pruneRefs]
    refine ⟨?_, ?_, ?_⟩
    · rw [HRefs.polysets, HRefs.polysets, b1]
    · rw [HRefs.getPaths, HRefs.getPaths, b2]
    · rw [HRefs.getLabels, HRefs.getLabels, b3]
end

/-- **C31.** With depth `d ≥ 0`, `get_polygonsets`, `get_paths` and `get_labels` return what they return without a limit
for the hierarchy from which the references more than `d` levels down have been removed. -/
theorem C31_elements (ops : PathOps K P) (t : Trig K) (d : Nat) (st : Bool) (c : HCell K P) :
    c.polysets t (some d) = (prune d c).polysets t none ∧ c.getPaths ops (some d) = (prune d c).getPaths ops none ∧
      c.getLabels t (some d) st = (prune d c).getLabels t none st :=
  prune_elements ops t st d c

theorem no_elements (ops : PathOps K P) (t : Trig K) (d : Option Int) (st : Bool) : (c : HRefs K P) → heightRefs c = 0 →
    c.polysets t d = [] ∧ c.getPaths ops d = [] ∧ c.getLabels t d st = []
  | .nil, _ => by rw [HRefs.polysets, HRefs.getPaths, HRefs.getLabels]; exact ⟨rfl, rfl, rfl⟩
  | .cell r c rest, h => by
    rw [heightRefs] at h
    omega
  | .name r n rest, h => by
    rw [heightRefs] at h
    rw [HRefs.polysets, HRefs.getPaths, HRefs.getLabels]
    exact no_elements ops t d st rest h

mutual
theorem deep_elements (ops : PathOps K P) (t : Trig K) (st : Bool) : (d : Int) → (c : HCell K P) → (height c : Int) ≤ d →
    c.polysets t (some d) = c.polysets t none ∧ c.getPaths ops (some d) = c.getPaths ops none ∧
      c.getLabels t (some d) st = c.getLabels t none st
  | d, .mk name polys paths labels refs, h => by
    rw [height] at h
    have hn : descends none = true := rfl
    have hm : nextDepth none = none := rfl
    rw [HCell.polysets, HCell.polysets, HCell.getPaths, HCell.getPaths, HCell.getLabels, HCell.getLabels, hn, hm]
    by_cases hd : 0 < d
    · have h1 : descends (some d) = true := by simp [descends, hd]
      have h2 : nextDepth (some d) = some (d - 1) := rfl
      obtain ⟨a1, a2, a3⟩ := deep_elementsRefs ops t st (d - 1) refs (by omega)
      rw [h1, h2, a1, a2, a3]
      exact ⟨rfl, rfl, rfl⟩
    · have h1 : descends (some d) = false := by simp [descends, hd]
      obtain ⟨a1, a2, a3⟩ := no_elements ops t none st refs (by omega)
      rw [h1, a1, a2, a3]
      exact ⟨rfl, rfl, rfl⟩

theorem deep_elementsRefs (ops : PathOps K P) (t : Trig K) (st : Bool) (d : Int) : (c : HRefs K P) → (heightRefs c : Int) ≤ d + 1 →
    c.polysets t (some d) = c.polysets t none ∧ c.getPaths ops (some d) = c.getPaths ops none ∧
      c.getLabels t (some d) st = c.getLabels t none st
  | .nil, _ => ⟨by rw [HRefs.polysets, HRefs.polysets], by rw [HRefs.getPaths, HRefs.getPaths],
      by rw [HRefs.getLabels, HRefs.getLabels]⟩
  | .cell r c rest, h => by
    rw [heightRefs] at h
    obtain ⟨a1, a2, a3⟩ := deep_elements ops t st d c (by omega)
    obtain ⟨b1, b2, b3⟩ := deep_elementsRefs ops t st d rest (by omega)
    refine ⟨?_, ?_, ?_⟩
    · rw [HRefs.polysets, HRefs.polysets, a1, b1]
    · rw [HRefs.getPaths, HRefs.getPaths, a2, b2]
    · rw [HRefs.getLabels, HRefs.getLabels, a3, b3]
  | .name r n rest, h => by
    rw [heightRefs] at h
    obtain ⟨b1, b2, b3⟩ := deep_elementsRefs ops t st d rest h
    refine ⟨?_, ?_, ?_⟩
    · rw [HRefs.polysets, HRefs.polysets, b1]
    · rw [HRefs.getPaths, HRefs.getPaths, b2]
    · rw [HRefs.getLabels, HRefs.getLabels, b3]
end

/-- **C31.** With a depth of at least the number of levels of references, `get_polygonsets`, `get_paths` and `get_labels`
return the same as without a limit. -/
theorem C31_elements_deep_enough (ops : PathOps K P) (t : Trig K) (d : Int) (st : Bool) (c : HCell K P) (h : (height c : Int) ≤ d) :
    c.polysets t (some d) = c.polysets t none ∧ c.getPaths ops (some d) = c.getPaths ops none ∧
      c.getLabels t (some d) st = c.getLabels t none st :=
  deep_elements ops t st d c h

/-- **C31.** With a negative depth they return the elements of the cell itself. -/
theorem C31_elements_negative (ops : PathOps K P) (t : Trig K) (d : Int) (hd : d < 0) (st : Bool) (c : HCell K P) :
    c.polysets t (some d) = c.polygons ∧ c.getPaths ops (some d) = c.paths ∧ c.getLabels t (some d) st = c.labels := by
  have h1 : descends (some d) = false := by simp [descends]; omega
  cases c with
  | mk name polys paths labels refs =>
    rw [HCell.polysets, HCell.getPaths, HCell.getLabels, h1]
    simp [HCell.polygons, HCell.paths, HCell.labels]

example : (sampleTop.polysets ratTrig (some 0)).length ≠ (sampleTop.polysets ratTrig (some 1)).length ∧
    (sampleTop.polysets ratTrig (some 1)).length ≠ (sampleTop.polysets ratTrig none).length ∧
    height sampleTop = 2 := by decide +kernel

end Gdspy
