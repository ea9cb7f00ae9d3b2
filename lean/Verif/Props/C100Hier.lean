import Verif.Props.C100
import Verif.Model.Hier

/-!
# C100: the elements with the properties are those with the geometry

The model of the properties (`Model/PropFlow.lean`) and the model of the geometry (`Model/Hier.lean`) return the same elements in
the same order: what an element has and keeps when it is moved can be put in the place of its properties.
-/

namespace Gdspy

open Spec

variable {K P : Type}

mutual
/-- The hierarchy with something of each element in the place of its properties. -/
def Spec.marked (fp : PolySet K → Properties) (fq : P → Properties) (fl : HLabel K → Properties) :
    HCell K P → PCell
  | .mk _ polys paths labels refs => .mk (polys.map fp) (paths.map fq) (labels.map fl) (Spec.markedRefs fp fq fl refs)

def Spec.markedRefs (fp : PolySet K → Properties) (fq : P → Properties) (fl : HLabel K → Properties) :
    HRefs K P → PRefs
  | .nil => .nil
  | .cell r c rest => .cell (r.array.map fun x => ((x.1 : Int), (x.2.1 : Int))) [] (Spec.marked fp fq fl c)
      (Spec.markedRefs fp fq fl rest)
  | .name r s rest => .name (r.array.map fun x => ((x.1 : Int), (x.2.1 : Int))) [] s (Spec.markedRefs fp fq fl rest)
end

theorem descends_deeper (depth : Option Int) : descends depth = deeper depth := by
  cases depth <;> rfl

section
variable [Field K]

theorem placed_map {α : Type} (f : α → Properties) (r : RefData K) (g : α → α) (h : Pt K → α → α) (l : List α)
    (hg : ∀ x, f (g x) = f x) (hh : ∀ s x, f (h s x) = f x) :
    List.map f (match r.array with
      | none => l.map g
      | some (cols, rows, spacing) => (lattice cols rows spacing).flatMap fun spc => l.map (h spc))
      = placedProps (r.array.map fun x => ((x.1 : Int), (x.2.1 : Int))) (l.map f) := by
  rcases r.array with _ | ⟨cols, rows, spacing⟩
  · simp [placedProps, hg, Function.comp_def]
  · simp only [placedProps, lattice, Option.map_some, Int.toNat_natCast, List.map_flatMap, List.flatMap_assoc,
      List.flatMap_map, List.map_map, Function.comp_def, hh]

variable (fp : PolySet K → Properties) (fq : P → Properties) (fl : HLabel K → Properties)

mutual
theorem marked_polygons (t : Trig K) (hp : ∀ f ps, fp (PolySet.mapPts f ps) = fp ps) :
    ∀ (c : HCell K P) (depth : Option Int),
      (c.polysets t depth).map fp = (marked fp fq fl c).get .polygon depth
  | .mk n polys paths labels refs, depth => by
    rw [HCell.polysets, marked, PCell.get, List.map_append, descends_deeper]
    congr 1
    split_ifs
    · exact marked_polygons_refs t hp refs _
    · rfl

theorem marked_polygons_refs (t : Trig K) (hp : ∀ f ps, fp (PolySet.mapPts f ps) = fp ps) :
    ∀ (r : HRefs K P) (depth : Option Int),
      (r.polysets t depth).map fp = (markedRefs fp fq fl r).get .polygon depth
  | .nil, _ => rfl
  | .cell r c rest, depth => by
    rw [HRefs.polysets, markedRefs, PRefs.get, List.map_append, marked_polygons_refs t hp rest depth,
      ← marked_polygons t hp c depth]
    congr 1
    exact placed_map fp r _ (fun s => PolySet.mapPts (arrPt t r s)) _ (fun x => hp _ x) fun s x => hp _ x
  | .name r s rest, depth => by
    rw [HRefs.polysets, markedRefs, PRefs.get, marked_polygons_refs t hp rest depth]
end

mutual
theorem marked_paths (ops : PathOps K P) (hq : ∀ o b m x s p, fq (ops.transform o b m x s p) = fq p) :
    ∀ (c : HCell K P) (depth : Option Int),
      (c.getPaths ops depth).map fq = (marked fp fq fl c).get .path depth
  | .mk n polys paths labels refs, depth => by
    rw [HCell.getPaths, marked, PCell.get, List.map_append, descends_deeper]
    congr 1
    split_ifs
    · exact marked_paths_refs ops hq refs _
    · rfl

theorem marked_paths_refs (ops : PathOps K P) (hq : ∀ o b m x s p, fq (ops.transform o b m x s p) = fq p) :
    ∀ (r : HRefs K P) (depth : Option Int),
      (r.getPaths ops depth).map fq = (markedRefs fp fq fl r).get .path depth
  | .nil, _ => rfl
  | .cell r c rest, depth => by
    rw [HRefs.getPaths, markedRefs, PRefs.get, List.map_append, marked_paths_refs ops hq rest depth,
      ← marked_paths ops hq c depth]
    congr 1
    exact placed_map fq r _ (fun s => ops.transform r.origin r.rotation r.magnification r.xrefl (some s)) _
      (fun x => hq _ _ _ _ _ x) fun s x => hq _ _ _ _ _ x
  | .name r s rest, depth => by
    rw [HRefs.getPaths, markedRefs, PRefs.get, marked_paths_refs ops hq rest depth]
end

mutual
theorem marked_labels (t : Trig K) (st : Bool) (hl : ∀ r f l, fl (placeLabel r st f l) = fl l) :
    ∀ (c : HCell K P) (depth : Option Int),
      (c.getLabels t depth st).map fl = (marked fp fq fl c).get .label depth
  | .mk n polys paths labels refs, depth => by
    rw [HCell.getLabels, marked, PCell.get, List.map_append, descends_deeper]
    congr 1
    split_ifs
    · exact marked_labels_refs t st hl refs _
    · rfl

theorem marked_labels_refs (t : Trig K) (st : Bool) (hl : ∀ r f l, fl (placeLabel r st f l) = fl l) :
    ∀ (r : HRefs K P) (depth : Option Int),
      (r.getLabels t depth st).map fl = (markedRefs fp fq fl r).get .label depth
  | .nil, _ => rfl
  | .cell r c rest, depth => by
    rw [HRefs.getLabels, markedRefs, PRefs.get, List.map_append, marked_labels_refs t st hl rest depth,
      ← marked_labels t st hl c depth]
    congr 1
    exact placed_map fl r _ (fun s => placeLabel r st (arrPt t r s)) _ (fun x => hl _ _ x) fun s x => hl _ _ x
  | .name r s rest, depth => by
    rw [HRefs.getLabels, markedRefs, PRefs.get, marked_labels_refs t st hl rest depth]
end

/-- **C100.** The elements that are returned with their properties are those that are returned with their geometry, in the same
order. Whatever is written in the place of the properties of an element and does not change when the element is moved (for example
its layers and datatypes) is found in the place of its properties in the result. -/
theorem C100_same_elements (t : Trig K) (ops : PathOps K P) (st : Bool)
    (hp : ∀ f ps, fp (PolySet.mapPts f ps) = fp ps)
    (hq : ∀ o b m x s p, fq (ops.transform o b m x s p) = fq p)
    (hl : ∀ r f l, fl (placeLabel r st f l) = fl l) (c : HCell K P) (depth : Option Int) :
    (c.polysets t depth).map fp = (marked fp fq fl c).get .polygon depth ∧
    (c.getPaths ops depth).map fq = (marked fp fq fl c).get .path depth ∧
    (c.getLabels t depth st).map fl = (marked fp fq fl c).get .label depth :=
  ⟨marked_polygons fp fq fl t hp c depth, marked_paths fp fq fl ops hq c depth,
    marked_labels fp fq fl t st hl c depth⟩

end

/-- The layers of polygon sets and the layer and text of labels can be used. -/
example : (∀ f (ps : PolySet ℚ), (PolySet.mapPts f ps).layers.map (fun n => (n, some "L".toList))
      = ps.layers.map (fun n => (n, some "L".toList))) ∧
    ∀ (r : RefData ℚ) f (l : HLabel ℚ) st, [((placeLabel r st f l).layer, some l.text)]
      = [(l.layer, some l.text)] := by
  refine ⟨fun f ps => rfl, fun r f l st => ?_⟩
  cases st <;> rfl

end Gdspy
