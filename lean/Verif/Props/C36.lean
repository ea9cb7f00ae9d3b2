import Verif.Spec.Listing
import Verif.Lemmas.HierSamples

/-!
# C36: layer, datatype and class listings; C38: selective removal
-/

set_option linter.unusedSectionVars false

namespace Gdspy

open Spec

variable {K P : Type}

theorem below_iff (own : HCell K P → Prop) (c : HCell K P) :
    (∃ d, Below c d ∧ own d) ↔ own c ∨ ∃ e ∈ children c.references, ∃ d, Below e d ∧ own d := by
  constructor
  · rintro ⟨d, hd, ho⟩
    cases hd with
    | refl => exact Or.inl ho
    | step h h' => exact Or.inr ⟨_, h, d, h', ho⟩
  · rintro (h | ⟨e, he, d, hd, ho⟩)
    · exact ⟨c, .refl c, h⟩
    · exact ⟨d, .step he hd, ho⟩

/-- What is listed for the elements of one cell. -/
def ownLayer (ops : PathOps K P) (l : Int) (c : HCell K P) : Prop :=
  (∃ ps ∈ c.polygons, l ∈ ps.layers) ∨ (∃ p ∈ c.paths, ∃ e ∈ ops.elems p, e.1.1 = l) ∨
    ∃ lb ∈ c.labels, lb.layer = l

def ownDatatype (ops : PathOps K P) (l : Int) (c : HCell K P) : Prop :=
  (∃ ps ∈ c.polygons, l ∈ ps.datatypes) ∨ ∃ p ∈ c.paths, ∃ e ∈ ops.elems p, e.1.2 = l

/-- Layer and datatype of the same polygon or the same element of a path. -/
def ownClass (ops : PathOps K P) (k : Int × Int) (c : HCell K P) : Prop :=
  (∃ ps ∈ c.polygons, ∃ i : Nat, ps.layers[i]? = some k.1 ∧ ps.datatypes[i]? = some k.2) ∨
    ∃ p ∈ c.paths, ∃ e ∈ ops.elems p, e.1 = k

def ownTextClass (k : Int × Option Int) (c : HCell K P) : Prop :=
  ∃ lb ∈ c.labels, (lb.layer, lb.texttype) = k

mutual
theorem layers_ok (ops : PathOps K P) : (c : HCell K P) → NoStrings c →
    ∃ L, c.layers ops = .ok L ∧ ∀ l, l ∈ L ↔ ∃ d, Below c d ∧ ownLayer ops l d
  | .mk name polys paths labels refs, h => by
    obtain ⟨R, hR, hr⟩ := layersRefs_ok ops refs (h _ (.refl _))
      (fun e he d hd => h d (.step he hd))
    refine ⟨_, by rw [HCell.layers, hR]; rfl, ?_⟩
    intro l
    have e : (HCell.mk name polys paths labels refs).references = refs := rfl
    rw [below_iff, List.mem_append, List.mem_append, List.mem_append, hr l, e]
    generalize (∃ e ∈ children refs, ∃ d, Below e d ∧ ownLayer ops l d) = X
    simp only [ownLayer, HCell.polygons, HCell.paths, HCell.labels, List.mem_flatMap, List.mem_map]
    generalize (∃ a ∈ polys, l ∈ a.layers) = U
    generalize (∃ a ∈ paths, ∃ a_1 ∈ ops.elems a, a_1.1.1 = l) = V
    generalize (∃ a ∈ labels, a.layer = l) = W
    tauto

theorem layersRefs_ok (ops : PathOps K P) : (r : HRefs K P) → strings r = [] →
    (∀ e ∈ children r, NoStrings e) →
    ∃ L, r.layers ops = .ok L ∧ ∀ l, l ∈ L ↔ ∃ e ∈ children r, ∃ d, Below e d ∧ ownLayer ops l d
  | .nil, _, _ => ⟨[], by rw [HRefs.layers]; rfl, by simp [children]⟩
  | .cell d c rest, hs, h => by
    obtain ⟨A, hA, ha⟩ := layers_ok ops c (h c (by simp [children]))
    obtain ⟨B, hB, hb⟩ := layersRefs_ok ops rest hs (fun e he => h e (by simp [children, he]))
    refine ⟨A ++ B, by rw [HRefs.layers, hA, hB]; rfl, ?_⟩
    intro l
    rw [List.mem_append, ha l, hb l]
    simp [children]
  | .name d s rest, hs, _ => by simp [strings] at hs
end

/-- **C36.** When no reference of the hierarchy is a string, `get_layers` returns exactly the layers
used by polygons, paths and labels of the cell and of all the cells below it. -/
theorem C36_layers (ops : PathOps K P) (c : HCell K P) (h : NoStrings c) :
    ∃ L, c.layers ops = .ok L ∧ ∀ l, l ∈ L ↔ ∃ d, Below c d ∧ ownLayer ops l d :=
  layers_ok ops c h

mutual
theorem datatypes_ok (ops : PathOps K P) : (c : HCell K P) → NoStrings c →
    ∃ L, c.datatypes ops = .ok L ∧ ∀ l, l ∈ L ↔ ∃ d, Below c d ∧ ownDatatype ops l d
  | .mk name polys paths labels refs, h => by
    obtain ⟨R, hR, hr⟩ := datatypesRefs_ok ops refs (h _ (.refl _))
      (fun e he d hd => h d (.step he hd))
    refine ⟨_, by rw [HCell.datatypes, hR]; rfl, ?_⟩
    intro l
    rw [below_iff, List.mem_append, List.mem_append, hr l]
    simp only [ownDatatype, HCell.polygons, HCell.paths, HCell.references, List.mem_flatMap, List.mem_map]

theorem datatypesRefs_ok (ops : PathOps K P) : (r : HRefs K P) → strings r = [] →
    (∀ e ∈ children r, NoStrings e) →
    ∃ L, r.datatypes ops = .ok L ∧ ∀ l, l ∈ L ↔ ∃ e ∈ children r, ∃ d, Below e d ∧ ownDatatype ops l d
  | .nil, _, _ => ⟨[], by rw [HRefs.datatypes]; rfl, by simp [children]⟩
  | .cell d c rest, hs, h => by
    obtain ⟨A, hA, ha⟩ := datatypes_ok ops c (h c (by simp [children]))
    obtain ⟨B, hB, hb⟩ := datatypesRefs_ok ops rest hs (fun e he => h e (by simp [children, he]))
    refine ⟨A ++ B, by rw [HRefs.datatypes, hA, hB]; rfl, ?_⟩
    intro l
    rw [List.mem_append, ha l, hb l]
    simp [children]
  | .name d s rest, hs, _ => by simp [strings] at hs
end

/-- **C36.** The same for `get_datatypes`. -/
theorem C36_datatypes (ops : PathOps K P) (c : HCell K P) (h : NoStrings c) :
    ∃ L, c.datatypes ops = .ok L ∧ ∀ l, l ∈ L ↔ ∃ d, Below c d ∧ ownDatatype ops l d :=
  datatypes_ok ops c h

mutual
theorem layers_error (ops : PathOps K P) : (c : HCell K P) → ¬ NoStrings c →
    c.layers ops = .error .attributeError ∧ c.datatypes ops = .error .attributeError
  | .mk name polys paths labels refs, h => by
    have h' : strings refs ≠ [] ∨ ∃ e ∈ children refs, ¬ NoStrings e := by
      unfold NoStrings at h
      push Not at h
      obtain ⟨d, hd, hs⟩ := h
      cases hd with
      | refl => exact Or.inl hs
      | step he hd => exact Or.inr ⟨_, he, fun hn => hs (hn d hd)⟩
    obtain ⟨h1, h2⟩ := layersRefs_error ops refs h'
    constructor
    · rw [HCell.layers, h1]; rfl
    · rw [HCell.datatypes, h2]; rfl

theorem layersRefs_error (ops : PathOps K P) : (r : HRefs K P) →
    (strings r ≠ [] ∨ ∃ e ∈ children r, ¬ NoStrings e) →
    r.layers ops = .error .attributeError ∧ r.datatypes ops = .error .attributeError
  | .nil, h => by simp [strings, children] at h
  | .cell d c rest, h => by
    by_cases hc : NoStrings c
    · obtain ⟨A, hA, -⟩ := layers_ok ops c hc
      obtain ⟨B, hB, -⟩ := datatypes_ok ops c hc
      obtain ⟨h1, h2⟩ := layersRefs_error ops rest (by
        simp only [strings, children, List.mem_cons, exists_eq_or_imp] at h
        tauto)
      rw [HRefs.layers, HRefs.datatypes, hA, hB, h1, h2]
      exact ⟨rfl, rfl⟩
    · obtain ⟨h1, h2⟩ := layers_error ops c hc
      rw [HRefs.layers, HRefs.datatypes, h1, h2]
      exact ⟨rfl, rfl⟩
  | .name d s rest, _ => by rw [HRefs.layers, HRefs.datatypes]; exact ⟨rfl, rfl⟩
end

/-- **C36.** A reference to a string anywhere in the hierarchy makes both raise AttributeError. -/
theorem C36_strings_raise (ops : PathOps K P) (c : HCell K P) (h : ¬ NoStrings c) :
    c.layers ops = .error .attributeError ∧ c.datatypes ops = .error .attributeError :=
  layers_error ops c h

theorem mem_zip_iff (a : List Int) (b : List Int) (k : Int × Int) :
    k ∈ a.zip b ↔ ∃ i : Nat, a[i]? = some k.1 ∧ b[i]? = some k.2 := by
  rw [List.mem_iff_getElem?]
  constructor
  · rintro ⟨i, hi⟩
    exact ⟨i, (List.getElem?_zip_eq_some.1 hi)⟩
  · rintro ⟨i, h1, h2⟩
    exact ⟨i, List.getElem?_zip_eq_some.2 ⟨h1, h2⟩⟩

mutual
theorem svg_mem (ops : PathOps K P) : (c : HCell K P) →
    (∀ k, k ∈ (c.svgClasses ops).1 ↔ ∃ d, Below c d ∧ ownClass ops k d) ∧
    (∀ k, k ∈ (c.svgClasses ops).2 ↔ ∃ d, Below c d ∧ ownTextClass k d)
  | .mk name polys paths labels refs => by
    obtain ⟨h1, h2⟩ := svgRefs_mem ops refs
    rw [HCell.svgClasses]
    constructor
    · intro k
      rw [below_iff, List.mem_append, List.mem_append, h1 k]
      simp only [ownClass, HCell.polygons, HCell.paths, HCell.references, List.mem_flatMap, List.mem_map,
        mem_zip_iff]
    · intro k
      rw [below_iff, List.mem_append, h2 k]
      simp only [ownTextClass, HCell.labels, HCell.references, List.mem_map]

theorem svgRefs_mem (ops : PathOps K P) : (r : HRefs K P) →
    (∀ k, k ∈ (r.svgClasses ops).1 ↔ ∃ e ∈ children r, ∃ d, Below e d ∧ ownClass ops k d) ∧
    (∀ k, k ∈ (r.svgClasses ops).2 ↔ ∃ e ∈ children r, ∃ d, Below e d ∧ ownTextClass k d)
  | .nil => by rw [HRefs.svgClasses]; simp [children]
  | .cell d c rest => by
    obtain ⟨h1, h2⟩ := svg_mem ops c
    obtain ⟨h3, h4⟩ := svgRefs_mem ops rest
    rw [HRefs.svgClasses]
    constructor
    · intro k
      rw [List.mem_append, h1, h3]
      simp [children]
    · intro k
      rw [List.mem_append, h2, h4]
      simp [children]
  | .name d s rest => by
    rw [HRefs.svgClasses]
    exact svgRefs_mem ops rest
end

/-- **C36.** `get_svg_classes` returns exactly the pairs (layer, datatype) of the polygons and of the
path elements, and the pairs (layer, texttype) of the labels, of the cell and of all cells below it;
references to strings are skipped. -/
theorem C36_svg_classes (ops : PathOps K P) (c : HCell K P) :
    (∀ k, k ∈ (c.svgClasses ops).1 ↔ ∃ d, Below c d ∧ ownClass ops k d) ∧
    (∀ k, k ∈ (c.svgClasses ops).2 ↔ ∃ d, Below c d ∧ ownTextClass k d) :=
  svg_mem ops c

/-- **C36.** `get_texttypes` is right for cells without references and raises AttributeError for all
others, even if no label is missing below. -/
theorem C36_texttypes_partial (c : HCell K P) :
    (c.references = .nil → c.texttypes = .ok (c.labels.map HLabel.texttype)) ∧
    (c.references ≠ .nil → c.texttypes = .error .attributeError) := by
  obtain ⟨name, polys, paths, labels, refs⟩ := c
  constructor
  · rintro h
    have : refs = .nil := h
    subst this
    rfl
  · intro h
    cases refs with
    | nil => exact absurd rfl h
    | cell r c rest => rfl
    | name r s rest => rfl

/-- A hierarchy of three levels without strings, and one with a string. -/
example : NoStrings (HCell.mk ['A'] [] [] [] (.cell sampleRef sampleLeaf .nil)) := by
  intro d hd
  cases hd with
  | refl => rfl
  | step h h' =>
    simp only [HCell.references, children, List.mem_singleton] at h
    subst h
    cases h' with
    | refl => rfl
    | step h h' => simp [sampleLeaf, HCell.references, children] at h

example : ¬ NoStrings sampleTop := by
  intro h
  have := h sampleMid (.step (by simp [sampleTop, HCell.references, children]) (.refl _))
  simp [sampleMid, HCell.references, strings] at this

example : ((HCell.mk ['A'] [] [] [] (.cell sampleRef sampleLeaf .nil)).layers (idealOps ratTrig)).toOption
    = some [1, 3] := by decide +kernel

example : (sampleTop.svgClasses (idealOps ratTrig)).1
    = [(2, 0), (3, 0), (2, 0), (1, 0), (2, 1), (2, 2), (1, 0), (1, 0)] := by decide +kernel

/-! ## C38 -/

theorem popLoop_eq {α : Type} (test : α → Bool) : ∀ (n ii : Nat) (l : List α), ii ≤ l.length →
    l.length ≤ ii + n → popLoop test n ii l = l.take ii ++ (l.drop ii).filter fun x => !test x := by
  intro n
  induction n with
  | zero =>
    intro ii l h1 h2
    have : ii = l.length := by omega
    subst this
    simp [popLoop]
  | succ n ih =>
    intro ii l h1 h2
    rw [popLoop]
    cases hx : l[ii]? with
    | none =>
      have : l.length ≤ ii := List.getElem?_eq_none_iff.1 hx
      have : ii = l.length := by omega
      subst this
      simp
    | some x =>
      obtain ⟨hlt, hx⟩ := List.getElem?_eq_some_iff.1 hx
      simp only
      have hd : l.drop ii = x :: l.drop (ii + 1) := by
        rw [← hx]
        exact List.drop_eq_getElem_cons hlt
      by_cases ht : test x = true
      · rw [if_pos ht, ih ii _ (by rw [List.length_eraseIdx_of_lt hlt]; omega)
          (by rw [List.length_eraseIdx_of_lt hlt]; omega), hd, List.filter_cons_of_neg (by simp [ht]),
          List.eraseIdx_eq_take_drop_succ, List.take_append_of_le_length (by simp; omega),
          List.take_take, min_self, List.drop_append_of_le_length (by simp; omega),
          List.drop_eq_nil_of_le (by simp), List.nil_append]
      · rw [if_neg ht, ih (ii + 1) l (by omega) (by omega), hd, List.filter_cons_of_pos (by simp [ht]),
          List.take_succ_eq_append_getElem hlt, hx]
        simp

/-- **C38.** `remove_paths` keeps exactly the paths failing the test, in order, and nothing else
changes. -/
theorem C38_remove_paths (test : P → Bool) (c : HCell K P) :
    (c.removePaths test).paths = c.paths.filter (fun p => !test p) ∧
    (c.removePaths test).polygons = c.polygons ∧ (c.removePaths test).labels = c.labels ∧
    (c.removePaths test).references = c.references := by
  refine ⟨?_, rfl, rfl, rfl⟩
  show popLoop test c.paths.length 0 c.paths = _
  rw [popLoop_eq test _ _ _ (by omega) (by omega)]
  simp

/-- **C38.** The same for `remove_labels`. -/
theorem C38_remove_labels (test : HLabel K → Bool) (c : HCell K P) :
    (c.removeLabels test).labels = c.labels.filter (fun p => !test p) ∧
    (c.removeLabels test).polygons = c.polygons ∧ (c.removeLabels test).paths = c.paths ∧
    (c.removeLabels test).references = c.references := by
  refine ⟨?_, rfl, rfl, rfl⟩
  show popLoop test c.labels.length 0 c.labels = _
  rw [popLoop_eq test _ _ _ (by omega) (by omega)]
  simp

/-- The polygons of a cell with layer and datatype, by index. -/
def ownTagged (c : HCell K P) : List (Pgon K × Int × Int) :=
  c.polygons.flatMap fun ps => (List.range ps.polygons.length).map fun i =>
    (ps.polygons.getD i [], ps.layers.getD i 0, ps.datatypes.getD i 0)

theorem indexed_zip {ps : PolySet K} (h : Aligned ps) :
    (List.range ps.polygons.length).map (fun i =>
      (ps.polygons.getD i [], ps.layers.getD i 0, ps.datatypes.getD i 0))
      = ps.polygons.zip (ps.layers.zip ps.datatypes) := by
  obtain ⟨h1, h2⟩ := h
  apply List.ext_getElem
  · simp [h1, h2]
  · intro i hi hi'
    simp only [List.length_map, List.length_range] at hi
    simp [List.getD_eq_getElem?_getD, hi, h1, h2]

/-- **C38.** `remove_polygons` keeps exactly the polygons failing the test, in order, each with its
layer and datatype. No polygon set is left empty, and each has a layer and datatype per polygon. -/
theorem C38_remove_polygons [DecidableEq K] (test : Pgon K → Int → Int → Bool) (c : HCell K P)
    (h : ∀ ps ∈ c.polygons, Aligned ps) :
    ownTagged (c.removePolygons test) = (ownTagged c).filter (fun q => !test q.1 q.2.1 q.2.2) ∧
    (∀ ps ∈ (c.removePolygons test).polygons, Aligned ps ∧ ps.polygons ≠ []) ∧
    (c.removePolygons test).paths = c.paths ∧ (c.removePolygons test).labels = c.labels ∧
    (c.removePolygons test).references = c.references := by
  refine ⟨?_, ?_, rfl, rfl, rfl⟩
  · unfold ownTagged HCell.removePolygons
    simp only [HCell.polygons.eq_1]
    generalize c.polygons = polys at h
    induction polys with
    | nil => rfl
    | cons ps polys ih =>
      have ih' := ih fun q hq => h q (List.mem_cons_of_mem _ hq)
      rw [List.flatMap_cons, List.filter_append, indexed_zip (h ps List.mem_cons_self),
        List.filterMap_cons]
      split
      · rename_i hn
        split at hn
        · rename_i he
          rw [ih', he, List.nil_append]
        · simp at hn
      · rename_i q hn
        split at hn
        · simp at hn
        · rename_i he
          rw [Option.some.injEq] at hn
          rw [List.flatMap_cons, ih']
          refine congrArg₂ List.append ?_ rfl
          rw [← hn, indexed_zip (by simp [Aligned])]
          simp only [List.zip_map']
          exact List.map_id _
  · intro ps hps
    unfold HCell.removePolygons at hps
    simp only [HCell.polygons.eq_1] at hps
    obtain ⟨q, -, hq⟩ := List.mem_filterMap.1 hps
    split at hq
    · simp at hq
    · rename_i he
      rw [Option.some.injEq] at hq
      rw [← hq]
      exact ⟨by simp [Aligned], by simpa using he⟩

/-- Removing the polygons on layer 1 from a cell with two polygons in one set and one in another. -/
example : ((HCell.mk [] [⟨[[(0, 0)], [(1, 1)]], [1, 2], [3, 4]⟩, ⟨[[(5, 5)]], [1], [0]⟩] [] [] .nil :
    HCell ℚ IdealPath).removePolygons fun _ l _ => l = 1).polygons = [⟨[[(1, 1)]], [2], [4]⟩] := by
  decide +kernel

example : ((HCell.mk [] [] [[((1, 0), [])], [((2, 0), [])], [((1, 0), [])], [((3, 0), [])]] [] .nil :
    HCell ℚ IdealPath).removePaths fun p => p.any fun e => e.1.1 = 1).paths
      = [[((2, 0), [])], [((3, 0), [])]] := by decide +kernel

end Gdspy
