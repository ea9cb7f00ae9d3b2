import Verif.Model.Twice
import Verif.Props.C32
import Mathlib.Data.List.Count

/-!
# C92: elements that are in a cell more than once

Nothing keeps an element from being in a cell twice (`cell.add([p, p])`, `cell.add(p)` twice). Elements are changed in place
in copies made by `deepcopy`, in which the element is one object, so that it is changed twice.

The full claim, "what is returned does not depend on which elements are the same object", is false (C92_labels_moved,
C92_flatten_moves). The `_partial` theorems prove it when no cell below the references holds an element twice.
-/

namespace Gdspy

open Spec

variable {K P E : Type}

/-! ### Specification -/

section Specification

variable [Field K]

mutual
/-- The elements of a hierarchy where they are placed, each with the number of places in the list that hold the same
object. A reference changes an object once for each of these places. An array gives new objects. -/
def Spec.placedTimes (own : NCell K → List Nat) (look : Nat → E) (place : RefData K → E → E)
    (placeIn : RefData K → Pt K → E → E) (depth : Option Int) : NCell K → List (E × Nat)
  | .mk name polys paths labels refs =>
    let l := own (.mk name polys paths labels refs)
    (l.map fun n => (look n, l.count n)) ++
      if descends depth then placedTimesRefs own look place placeIn (nextDepth depth) refs else []

def Spec.placedTimesRefs (own : NCell K → List Nat) (look : Nat → E) (place : RefData K → E → E)
    (placeIn : RefData K → Pt K → E → E) (depth : Option Int) : NRefs K → List (E × Nat)
  | .nil => []
  | .cell r c rest =>
    (match r.array with
      | none => (placedTimes own look place placeIn depth c).map fun q => ((place r)^[q.2] q.1, q.2)
      | some (cols, rows, spacing) => (lattice cols rows spacing).flatMap fun spc =>
          (placedTimes own look place placeIn depth c).map fun q => (placeIn r spc q.1, 1))
    ++ placedTimesRefs own look place placeIn depth rest
  | .name _ _ rest => placedTimesRefs own look place placeIn depth rest
end

omit [Field K] in
/-- What can be seen of a list of objects: the values, and how often each object is there. -/
def Spec.seen (l : ObjList E) : List (E × Nat) := l.map fun p => (p.2, (l.map Prod.fst).count p.1)

end Specification

mutual
/-- No element is twice in the list of a cell below the references. -/
def Spec.OnceBelow (own : NCell K → List Nat) : NRefs K → Prop
  | .nil => True
  | .cell _ c rest => OnceCell own c ∧ OnceBelow own rest
  | .name _ _ rest => OnceBelow own rest

def Spec.OnceCell (own : NCell K → List Nat) : NCell K → Prop
  | .mk name polys paths labels refs => (own (.mk name polys paths labels refs)).Nodup ∧ OnceBelow own refs
end

/-! ### Lists of objects -/

theorem forEach_eq (f : E → E) (l : ObjList E) :
    l.forEach f = l.map fun p => (p.1, f^[(l.map Prod.fst).count p.1] p.2) := by
  have key : ∀ (ns : List Nat) (l : ObjList E), ns.foldl (fun l n => l.change f n) l =
      l.map fun p => (p.1, f^[ns.count p.1] p.2) := by
    intro ns
    induction ns with
    | nil => intro l; simp
    | cons n ns ih =>
      intro l
      rw [List.foldl_cons, ih, ObjList.change, List.map_map]
      refine List.map_congr_left fun p _ => ?_
      by_cases h : p.1 = n
      · subst h
        simp [Function.iterate_succ_apply]
      · have h' : ¬ n = p.1 := fun e => h e.symm
        simp [h, h']
  exact key _ l

theorem seen_forEach (f : E → E) (l : ObjList E) :
    seen (l.forEach f) = (seen l).map fun q => (f^[q.2] q.1, q.2) := by
  rw [forEach_eq]
  simp only [seen, List.map_map]
  rfl

theorem lt_bound (l : ObjList E) : ∀ n ∈ l.map Prod.fst, n < l.bound := by
  have key : ∀ ns : List Nat, ∀ n ∈ ns, n ≤ ns.foldr max 0 := by
    intro ns
    induction ns with
    | nil => simp
    | cons a ns ih =>
      intro n hn
      rcases List.mem_cons.1 hn with rfl | hn
      · exact le_max_left _ _
      · exact (ih n hn).trans (le_max_right _ _)
  exact fun n hn => Nat.lt_succ_of_le (key _ n hn)

theorem seen_extend (a b : ObjList E) : seen (a.extend b) = seen a ++ seen b := by
  have hids : (a.extend b).map Prod.fst = a.map Prod.fst ++ (b.map Prod.fst).map (· + a.bound) := by
    simp [ObjList.extend]
  unfold seen
  rw [hids]
  unfold ObjList.extend
  rw [List.map_append]
  congr 1
  · refine List.map_congr_left fun p hp => ?_
    have hlt := lt_bound a p.1 (List.mem_map_of_mem hp)
    rw [List.count_append, List.count_eq_zero_of_not_mem (l := (b.map Prod.fst).map _), Nat.add_zero]
    intro hm
    obtain ⟨k, -, e⟩ := List.mem_map.1 hm
    omega
  · rw [List.map_map]
    refine List.map_congr_left fun p hp => ?_
    simp only [Function.comp]
    rw [List.count_append, List.count_eq_zero_of_not_mem (l := a.map Prod.fst), Nat.zero_add,
      List.count_map_of_injective _ _ (add_left_injective _)]
    intro hm
    have := lt_bound a _ hm
    omega

theorem seen_newObjs (l : List E) : seen (newObjs l) = l.map fun x => (x, 1) := by
  have hids : (newObjs l).map Prod.fst = List.range l.length := by
    unfold newObjs
    rw [List.map_map, List.range_eq_range', ← List.zipIdx_map_snd 0 l]
    rfl
  unfold seen
  have h1 : ∀ p ∈ newObjs l, (p.2, ((newObjs l).map Prod.fst).count p.1) = (p.2, 1) := by
    intro p hp
    have hm : p.1 ∈ (newObjs l).map Prod.fst := List.mem_map_of_mem hp
    rw [List.count_eq_one_of_mem (by rw [hids]; exact List.nodup_range) hm]
  rw [List.map_congr_left h1]
  have h2 : (newObjs l).map Prod.snd = l := by
    unfold newObjs
    rw [List.map_map]
    exact List.zipIdx_map_fst 0 l
  conv_rhs => rw [← h2]
  rw [List.map_map]
  rfl

theorem seen_copies (gs : List (E → E)) (l : ObjList E) :
    seen (l.copies gs) = gs.flatMap fun g => (seen l).map fun q => (g q.1, 1) := by
  rw [ObjList.copies, seen_newObjs, List.map_flatMap]
  refine congrArg (fun f => gs.flatMap f) (funext fun g => ?_)
  simp only [seen, List.map_map]
  rfl

theorem seen_deepCopy (look : Nat → E) (l : List Nat) :
    seen (deepCopyList look l) = l.map fun n => (look n, l.count n) := by
  simp only [seen, deepCopyList, List.map_map]
  have : ((Prod.fst : Nat × E → Nat) ∘ fun n => (n, look n)) = id := rfl
  rw [this, List.map_id]
  rfl

theorem seen_vals (l : ObjList E) : (seen l).map Prod.fst = l.vals := by
  simp only [seen, ObjList.vals, List.map_map]
  rfl

/-! ### C92: what is returned -/

section Exact

variable [Field K] (own : NCell K → List Nat) (look : Nat → E) (place : RefData K → E → E)
  (placeIn : RefData K → Pt K → E → E)

mutual
theorem gather_seen (depth : Option Int) : (c : NCell K) →
    seen (c.gather own look place placeIn depth) = placedTimes own look place placeIn depth c
  | .mk name polys paths labels refs => by
    rw [NCell.gather, placedTimes]
    by_cases h : descends depth = true
    · simp only [h, if_true]
      rw [gatherRefs_seen (nextDepth depth) _ refs, seen_deepCopy]
    · simp only [h, Bool.false_eq_true, if_false, List.append_nil]
      exact seen_deepCopy _ _

theorem gatherRefs_seen (depth : Option Int) (l : ObjList E) : (refs : NRefs K) →
    seen (refs.gather own look place placeIn depth l) = seen l ++ placedTimesRefs own look place placeIn depth refs
  | .nil => by rw [NRefs.gather, placedTimesRefs, List.append_nil]
  | .cell r c rest => by
    rw [NRefs.gather, placedTimesRefs]
    rw [gatherRefs_seen depth _ rest, seen_extend, List.append_assoc]
    congr 2
    cases r.array with
    | none =>
      simp only
      rw [seen_forEach, gather_seen depth c]
    | some q =>
      obtain ⟨cols, rows, spacing⟩ := q
      simp only
      rw [seen_copies, gather_seen depth c, List.flatMap_map]
  | .name r s rest => by
    rw [NRefs.gather, placedTimesRefs]
    exact gatherRefs_seen depth l rest
end

end Exact

/-! ### Elements that are there once -/

section Once

variable [Field K] (own : NCell K → List Nat) (look : Nat → E) (place : RefData K → E → E)
  (placeIn : RefData K → Pt K → E → E)

mutual
/-- Every element placed once. -/
def plainCell (depth : Option Int) : NCell K → List E
  | .mk name polys paths labels refs =>
    (own (.mk name polys paths labels refs)).map look ++
      if descends depth then plainRefs (nextDepth depth) refs else []

def plainRefs (depth : Option Int) : NRefs K → List E
  | .nil => []
  | .cell r c rest =>
    (match r.array with
      | none => (plainCell depth c).map (place r)
      | some (cols, rows, spacing) => (lattice cols rows spacing).flatMap fun spc =>
          (plainCell depth c).map (placeIn r spc))
    ++ plainRefs depth rest
  | .name _ _ rest => plainRefs depth rest
end

mutual
theorem placed_once (depth : Option Int) : (c : NCell K) → OnceCell own c →
    placedTimes own look place placeIn depth c = (plainCell own look place placeIn depth c).map fun x => (x, 1)
  | .mk name polys paths labels refs, h => by
    rw [OnceCell] at h
    rw [placedTimes, plainCell, List.map_append, List.map_map]
    congr 1
    · refine List.map_congr_left fun n hn => ?_
      rw [List.count_eq_one_of_mem h.1 hn]
      rfl
    · by_cases hd : descends depth = true
      · simp only [hd, if_true]
        exact placedRefs_once (nextDepth depth) refs h.2
      · simp only [hd, Bool.false_eq_true, if_false, List.map_nil]

theorem placedRefs_once (depth : Option Int) : (refs : NRefs K) → OnceBelow own refs →
    placedTimesRefs own look place placeIn depth refs = (plainRefs own look place placeIn depth refs).map fun x => (x, 1)
  | .nil, _ => by rw [placedTimesRefs, plainRefs, List.map_nil]
  | .cell r c rest, h => by
    rw [OnceBelow] at h
    rw [placedTimesRefs, plainRefs, List.map_append, placedRefs_once depth rest h.2, placed_once depth c h.1]
    congr 1
    cases r.array with
    | none =>
      simp only [List.map_map]
      rfl
    | some q =>
      obtain ⟨cols, rows, spacing⟩ := q
      simp only [List.map_flatMap, List.map_map]
      rfl
  | .name r s rest, h => by
    rw [OnceBelow] at h
    rw [placedTimesRefs, plainRefs]
    exact placedRefs_once depth rest h
end

theorem gather_once (depth : Option Int) (c : NCell K) (h : OnceBelow own c.references) :
    (c.gather own look place placeIn depth).vals = plainCell own look place placeIn depth c := by
  rw [← seen_vals, gather_seen]
  obtain ⟨name, polys, paths, labels, refs⟩ := c
  rw [placedTimes, plainCell, List.map_append, List.map_map]
  congr 1
  by_cases hd : descends depth = true
  · simp only [hd, if_true]
    rw [placedRefs_once own look place placeIn _ refs h, List.map_map]
    exact List.map_id _
  · simp only [hd, Bool.false_eq_true, if_false, List.map_nil]

end Once

section Values

variable [Field K]

mutual
theorem plain_polysets (o : Objs K P) (t : Trig K) (depth : Option Int) : (c : NCell K) →
    plainCell NCell.polygons o.poly (fun r => PolySet.mapPts (refPt t r)) (fun r spc => PolySet.mapPts (arrPt t r spc)) depth c =
      (c.values o).polysets t depth
  | .mk name polys paths labels refs => by
    rw [plainCell, NCell.values, HCell.polysets, plain_polysetsRefs o t _ refs]
    rfl

theorem plain_polysetsRefs (o : Objs K P) (t : Trig K) (depth : Option Int) : (refs : NRefs K) →
    plainRefs NCell.polygons o.poly (fun r => PolySet.mapPts (refPt t r)) (fun r spc => PolySet.mapPts (arrPt t r spc)) depth refs =
      (refs.values o).polysets t depth
  | .nil => by rw [plainRefs, NRefs.values, HRefs.polysets]
  | .cell r c rest => by
    rw [plainRefs, NRefs.values, HRefs.polysets, plain_polysetsRefs o t depth rest, plain_polysets o t depth c]
    rcases r.array with _ | ⟨_, _, _⟩ <;> rfl
  | .name r s rest => by
    rw [plainRefs, NRefs.values, HRefs.polysets, plain_polysetsRefs o t depth rest]
end

mutual
theorem plain_paths (o : Objs K P) (ops : PathOps K P) (depth : Option Int) : (c : NCell K) →
    plainCell NCell.paths o.path (fun r => ops.transform r.origin r.rotation r.magnification r.xrefl none)
      (fun r spc => ops.transform r.origin r.rotation r.magnification r.xrefl (some spc)) depth c =
      (c.values o).getPaths ops depth
  | .mk name polys paths labels refs => by
    rw [plainCell, NCell.values, HCell.getPaths, plain_pathsRefs o ops _ refs]
    rfl

theorem plain_pathsRefs (o : Objs K P) (ops : PathOps K P) (depth : Option Int) : (refs : NRefs K) →
    plainRefs NCell.paths o.path (fun r => ops.transform r.origin r.rotation r.magnification r.xrefl none)
      (fun r spc => ops.transform r.origin r.rotation r.magnification r.xrefl (some spc)) depth refs =
      (refs.values o).getPaths ops depth
  | .nil => by rw [plainRefs, NRefs.values, HRefs.getPaths]
  | .cell r c rest => by
    rw [plainRefs, NRefs.values, HRefs.getPaths, plain_pathsRefs o ops depth rest, plain_paths o ops depth c]
    rcases r.array with _ | ⟨_, _, _⟩ <;> rfl
  | .name r s rest => by
    rw [plainRefs, NRefs.values, HRefs.getPaths, plain_pathsRefs o ops depth rest]
end

mutual
theorem plain_labels (o : Objs K P) (t : Trig K) (st : Bool) (depth : Option Int) : (c : NCell K) →
    plainCell NCell.labels o.label (fun r => placeLabel r st (refPt t r)) (fun r spc => placeLabel r st (arrPt t r spc)) depth c =
      (c.values o).getLabels t depth st
  | .mk name polys paths labels refs => by
    rw [plainCell, NCell.values, HCell.getLabels, plain_labelsRefs o t st _ refs]
    rfl

theorem plain_labelsRefs (o : Objs K P) (t : Trig K) (st : Bool) (depth : Option Int) : (refs : NRefs K) →
    plainRefs NCell.labels o.label (fun r => placeLabel r st (refPt t r)) (fun r spc => placeLabel r st (arrPt t r spc)) depth refs =
      (refs.values o).getLabels t depth st
  | .nil => by rw [plainRefs, NRefs.values, HRefs.getLabels]
  | .cell r c rest => by
    rw [plainRefs, NRefs.values, HRefs.getLabels, plain_labelsRefs o t st depth rest, plain_labels o t st depth c]
    rcases r.array with _ | ⟨_, _, _⟩ <;> rfl
  | .name r s rest => by
    rw [plainRefs, NRefs.values, HRefs.getLabels, plain_labelsRefs o t st depth rest]
end

end Values

/-! ### C92 -/

section C92

variable [Field K]

/-- **C92.** What `get_polygonsets`, `get_paths` and `get_labels` return for every hierarchy, with the number of places of
every object: a reference transforms an element as many times as it is in the list, an array once. -/
theorem C92_exact (o : Objs K P) (ops : PathOps K P) (t : Trig K) (depth : Option Int) (st : Bool) (c : NCell K) :
    seen (c.polysets o t depth) = placedTimes NCell.polygons o.poly (fun r => PolySet.mapPts (refPt t r))
      (fun r spc => PolySet.mapPts (arrPt t r spc)) depth c ∧
    seen (c.getPaths o ops depth) = placedTimes NCell.paths o.path
      (fun r => ops.transform r.origin r.rotation r.magnification r.xrefl none)
      (fun r spc => ops.transform r.origin r.rotation r.magnification r.xrefl (some spc)) depth c ∧
    seen (c.getLabels o t depth st) = placedTimes NCell.labels o.label (fun r => placeLabel r st (refPt t r))
      (fun r spc => placeLabel r st (arrPt t r spc)) depth c :=
  ⟨gather_seen _ _ _ _ _ _, gather_seen _ _ _ _ _ _, gather_seen _ _ _ _ _ _⟩

/-- **C92.** When no element is twice in the list of a cell below the references, elements are placed as if they were
values. -/
theorem C92_polysets_partial (o : Objs K P) (t : Trig K) (depth : Option Int) (c : NCell K)
    (h : OnceBelow NCell.polygons c.references) : (c.polysets o t depth).vals = (c.values o).polysets t depth := by
  rw [NCell.polysets, gather_once _ _ _ _ _ _ h, plain_polysets]

/-- **C92.** The same for `get_paths`. -/
theorem C92_paths_partial (o : Objs K P) (ops : PathOps K P) (depth : Option Int) (c : NCell K)
    (h : OnceBelow NCell.paths c.references) : (c.getPaths o ops depth).vals = (c.values o).getPaths ops depth := by
  rw [NCell.getPaths, gather_once _ _ _ _ _ _ h, plain_paths]

/-- **C92.** The same for `get_labels`. -/
theorem C92_labels_partial (o : Objs K P) (t : Trig K) (depth : Option Int) (st : Bool) (c : NCell K)
    (h : OnceBelow NCell.labels c.references) : (c.getLabels o t depth st).vals = (c.values o).getLabels t depth st := by
  rw [NCell.getLabels, gather_once _ _ _ _ _ _ h, plain_labels]

/-- **C92.** Under the same condition, `flatten` does what it does on values (C32). -/
theorem C92_flatten_partial (o : Objs K P) (ops : PathOps K P) (t : Trig K) (c : NCell K)
    (h1 : OnceBelow NCell.polygons c.references) (h2 : OnceBelow NCell.paths c.references)
    (h3 : OnceBelow NCell.labels c.references) :
    c.flatten o ops t = (c.values o).flatten ops t none none none := by
  have e1 : PolySet.relabel none none = (id : PolySet K → PolySet K) := rfl
  have e2 : HLabel.relabel none none none = (id : HLabel K → HLabel K) := rfl
  rw [NCell.flatten, HCell.flatten, C92_polysets_partial o t none c h1, C92_paths_partial o ops none c h2,
    C92_labels_partial o t none false c h3, e1, e2, List.map_id, List.map_id]
  simp only [Option.isSome_none, Bool.or_self, Bool.false_eq_true, if_false, List.map_id]
  obtain ⟨name, polys, paths, labels, refs⟩ := c
  rfl

/-- **C92.** `Cell.copy` with a transformation transforms an element as many times as it is in its list. -/
theorem C92_copy [LinearOrder K] (o : Objs K P) (ops : PathOps K P) (t : Trig K) (name : Str) (a : CopyArgs K) (c : NCell K)
    (c' : HCell K P) (h : c.copy o ops t name a = .ok c') :
    c'.polygons = (c.polygons.map fun n => (PolySet.mapPts (copyPt t a))^[c.polygons.count n] (o.poly n)) ∧
    c'.paths = (c.paths.map fun n =>
      (ops.transform a.translation a.rotation a.scale (some a.xrefl) none)^[c.paths.count n] (o.path n)) ∧
    c'.labels = c.labels.map fun n => (copyLabel t a)^[c.labels.count n] (o.label n) := by
  have key : ∀ {E : Type} (f : E → E) (look : Nat → E) (l : List Nat),
      ((deepCopyList look l).forEach f).vals = l.map fun n => f^[l.count n] (look n) := by
    intro E f look l
    rw [← seen_vals, seen_forEach, seen_deepCopy, List.map_map, List.map_map]
    rfl
  unfold NCell.copy at h
  simp only [key] at h
  cases hr : (c.references.values o).mapData (copyRef t a) with
  | error e => rw [hr] at h; cases h
  | ok refs =>
    rw [hr] at h
    cases h
    exact ⟨rfl, rfl, rfl⟩

/-- **C92.** Without repetition this is `Cell.copy` on values (C37). -/
theorem C92_copy_partial [LinearOrder K] (o : Objs K P) (ops : PathOps K P) (t : Trig K) (name : Str) (a : CopyArgs K)
    (c : NCell K) (ha : (a.xrefl || a.scale.isSome || a.rotation.isSome || a.translation.isSome) = true)
    (h1 : c.polygons.Nodup) (h2 : c.paths.Nodup) (h3 : c.labels.Nodup) :
    c.copy o ops t name a = (c.values o).copy ops t name a := by
  have key : ∀ {E : Type} (f : E → E) (look : Nat → E) (l : List Nat), l.Nodup →
      ((deepCopyList look l).forEach f).vals = (l.map look).map f := by
    intro E f look l hl
    rw [← seen_vals, seen_forEach, seen_deepCopy, List.map_map, List.map_map, List.map_map]
    refine List.map_congr_left fun n hn => ?_
    simp only [Function.comp, List.count_eq_one_of_mem hl hn]
    rfl
  obtain ⟨cn, polys, paths, labels, refs⟩ := c
  unfold NCell.copy HCell.copy
  rw [if_pos ha, key _ _ _ h1, key _ _ _ h2, key _ _ _ h3]
  rfl

/-! ### Violations -/

/-- **C92, disagreement.** A reference that only moves its cell by `v`: labels come out moved by `v` as many times as they
are in the cell. -/
theorem C92_labels_moved (o : Objs K P) (t : Trig K) (st : Bool) (name sub : Str) (labels : List Nat) (v : Pt K) :
    ((NCell.mk name [] [] [] (.cell ⟨some v, none, none, none, none⟩ (.mk sub [] [] labels .nil) .nil)).getLabels
      o t none st).vals =
      labels.map fun n => { o.label n with
        position := ((o.label n).position.1 + labels.count n * v.1, (o.label n).position.2 + labels.count n * v.2) } := by
  have key : ∀ (k : Nat) (b : HLabel K), (placeLabel (⟨some v, none, none, none, none⟩ : RefData K) st
      (refPt t ⟨some v, none, none, none, none⟩))^[k] b =
        { b with position := (b.position.1 + k * v.1, b.position.2 + k * v.2) } := by
    intro k
    induction k with
    | zero => intro b; simp
    | succ k ih =>
      intro b
      rw [Function.iterate_succ_apply, ih]
      have : placeLabel (⟨some v, none, none, none, none⟩ : RefData K) st (refPt t ⟨some v, none, none, none, none⟩) b =
          { b with position := (b.position.1 + v.1, b.position.2 + v.2) } := by
        cases st <;> simp [placeLabel, refPt, onSome, addPt, labelTransform]
      rw [this]
      simp only [Nat.cast_succ, HLabel.mk.injEq, Prod.mk.injEq, true_and, and_true]
      constructor <;> ring
  rw [← seen_vals, (C92_exact o (⟨fun _ => [], fun _ _ _ _ _ p => p, fun _ _ p => p⟩ : PathOps K P) t none st _).2.2]
  simp [placedTimes, placedTimesRefs, descends, nextDepth, NCell.labels, key]

/-- **C92, disagreement.** `flatten` moves a polygon that is twice in a referenced cell: `get_polygons()` gives it at `p + v`
before and at `p + 2 v` after. -/
theorem C92_flatten_moves [LinearOrder K] (o : Objs K P) (ops : PathOps K P) (t : Trig K) (name sub : Str) (n : Nat)
    (v : Pt K) (hv : v ≠ (0, 0)) (hp : ∃ p ∈ (o.poly n).polygons, p ≠ []) :
    let c : NCell K := .mk name [] [] [] (.cell ⟨some v, none, none, none, none⟩ (.mk sub [n, n] [] [] .nil) .nil)
    let p := (o.poly n).polygons
    (c.values o).flatPolys ops t = (p ++ p).map (List.map fun q => (q.1 + v.1, q.2 + v.2)) ∧
    (c.flatten o ops t).flatPolys ops t = (p ++ p).map (List.map fun q => (q.1 + 2 * v.1, q.2 + 2 * v.2)) ∧
    (c.flatten o ops t).flatPolys ops t ≠ (c.values o).flatPolys ops t := by
  intro c p
  have e1 : (c.values o).flatPolys ops t = (p ++ p).map (List.map fun q => (q.1 + v.1, q.2 + v.2)) := by
    have hr : refPt t ⟨some v, none, none, none, none⟩ = fun q => (q.1 + v.1, q.2 + v.2) := by
      funext q
      simp [refPt, onSome, addPt]
    simp [c, p, NCell.values, NRefs.values, HCell.flatPolys, HRefs.flatPolys, transformPolys, hr]
  have e2 : (c.flatten o ops t).flatPolys ops t = (p ++ p).map (List.map fun q => (q.1 + 2 * v.1, q.2 + 2 * v.2)) := by
    have hs : (c.polysets o t none).vals =
        [((o.poly n).mapPts fun q => (q.1 + 2 * v.1, q.2 + 2 * v.2)), ((o.poly n).mapPts fun q => (q.1 + 2 * v.1, q.2 + 2 * v.2))] := by
      rw [← seen_vals, (C92_exact o ops t none false c).1]
      have hm : ∀ s : PolySet K, PolySet.mapPts (refPt t ⟨some v, none, none, none, none⟩)
          (PolySet.mapPts (refPt t ⟨some v, none, none, none, none⟩) s) = s.mapPts fun q => (q.1 + 2 * v.1, q.2 + 2 * v.2) := by
        intro s
        simp only [PolySet.mapPts, List.map_map]
        congr 1
        refine List.map_congr_left fun l _ => ?_
        simp only [Function.comp, List.map_map]
        refine List.map_congr_left fun q _ => ?_
        simp only [Function.comp, refPt, onSome, addPt]
        simp
        constructor <;> ring
      simp [c, placedTimes, placedTimesRefs, descends, nextDepth, NCell.polygons, hm]
    have hpa : (c.getPaths o ops none).vals = [] := by
      rw [← seen_vals, (C92_exact o ops t none false c).2.1]
      simp [c, placedTimes, placedTimesRefs, descends, nextDepth, NCell.paths]
    rw [NCell.flatten, HCell.flatPolys, hs, hpa]
    simp [HRefs.flatPolys, PolySet.mapPts, p]
  refine ⟨e1, e2, ?_⟩
  rw [e1, e2]
  intro he
  obtain ⟨l, hl, hne⟩ := hp
  have hl' : l ∈ p ++ p := List.mem_append_left _ hl
  have h1 := (List.map_inj_left.1 he) l hl'
  cases l with
  | nil => exact hne rfl
  | cons q l =>
    simp only [List.map_cons, List.cons.injEq, Prod.mk.injEq] at h1
    obtain ⟨⟨h2, h3⟩, -⟩ := h1
    refine hv (Prod.ext ?_ ?_)
    · have : 2 * v.1 = v.1 := add_left_cancel h2
      simpa [two_mul] using this
    · have : 2 * v.2 = v.2 := add_left_cancel h3
      simpa [two_mul] using this

end C92

/-! ### Cases -/

/-- Triangles, paths (numbers here) and labels. -/
def Sample.objs : Objs ℚ Nat where
  poly n := ⟨[[(0, 0), (n, 0), (n, n)]], [1], [0]⟩
  path n := n
  label n := ⟨[], (n, 0), none, none, none, 0, some 0⟩

/-- A cell with two polygons and two labels. -/
def Sample.onceLeaf : NCell ℚ := .mk ['A'] [1, 2] [1] [1, 2] .nil

/-- The cell in a reference and, below another cell, in an array; the elements of the top are there twice. -/
def Sample.onceTop : NCell ℚ :=
  .mk ['T'] [1, 1] [1, 1] [] (.cell ⟨some (10, 0), none, some 2, none, none⟩ onceLeaf
    (.cell ⟨some (0, 5), none, none, some true, none⟩
      (.mk ['B'] [1] [] [2] (.cell ⟨none, none, none, none, some (2, 3, (7, 8))⟩ onceLeaf .nil)) .nil))

/-- The condition of the `_partial` theorems, for a cell that holds a polygon twice itself, above references and arrays. -/
example : OnceBelow NCell.polygons Sample.onceTop.references ∧ OnceBelow NCell.paths Sample.onceTop.references ∧
    OnceBelow NCell.labels Sample.onceTop.references := by
  simp [Sample.onceTop, Sample.onceLeaf, NCell.references, OnceBelow, OnceCell, NCell.polygons, NCell.paths, NCell.labels]

/-- A label that is there twice and one that is there once, seen through a reference at (10, 0). -/
example (t : Trig ℚ) :
    ((NCell.mk ['T'] [] [] [] (.cell ⟨some (10, 0), none, none, none, none⟩ (.mk ['A'] [] [] [3, 4, 3] .nil) .nil)).getLabels
      Sample.objs t none false).vals.map (·.position) = [(23, 0), (14, 0), (23, 0)] := by
  rw [C92_labels_moved]
  norm_num [Sample.objs]

/-- An array of the same cell gives every label its place. -/
example (t : Trig ℚ) :
    ((NCell.mk ['T'] [] [] [] (.cell ⟨some (10, 0), none, none, none, some (1, 1, (0, 0))⟩
      (.mk ['A'] [] [] [3, 4, 3] .nil) .nil)).getLabels Sample.objs t none false).vals.map (·.position) =
      [(13, 0), (14, 0), (13, 0)] := by
  rw [← seen_vals, (C92_exact Sample.objs (⟨fun _ => [], fun _ _ _ _ _ p => p, fun _ _ p => p⟩ : PathOps ℚ Nat) t none
    false _).2.2]
  norm_num [placedTimes, placedTimesRefs, descends, nextDepth, NCell.labels, lattice, placeLabel, arrPt, onSome, addPt,
    Sample.objs, List.range_succ]
  simp only [reduceCtorEq, if_false]
  norm_num

/-- The hypotheses of C92_copy_partial: a cell without repetition and a translation. -/
example (t : Trig ℚ) (ops : PathOps ℚ Nat) : ∃ c', Sample.onceLeaf.copy Sample.objs ops t ['C']
      ⟨some (1, 2), none, none, false⟩ = .ok c' ∧
    (Sample.onceLeaf.values Sample.objs).copy ops t ['C'] ⟨some (1, 2), none, none, false⟩ = .ok c' := by
  refine ⟨_, rfl, ?_⟩
  rw [← C92_copy_partial] <;> simp [Sample.onceLeaf, NCell.polygons, NCell.paths, NCell.labels]
  rfl

end Gdspy
