import Verif.Spec.Flatten
import Verif.Props.C33
import Verif.Props.C34

/-!
# C32: flattening preserves geometry
-/

set_option linter.unusedSectionVars false

namespace Gdspy

open Spec

variable {K P : Type} [Field K] [LinearOrder K]

/-- The polygons of a list of polygon sets, with their specification. -/
def setTags (l : List (PolySet K)) : List (SpecKey × Pgon K) :=
  l.flatMap fun ps => (List.range ps.polygons.length).map fun i =>
    (SpecKey.ld (ps.layers.getD i 0) (ps.datatypes.getD i 0), ps.polygons.getD i [])

/-- The polygons of a list of paths, with their specification. -/
def pathTags (ops : PathOps K P) (l : List P) : List (SpecKey × Pgon K) :=
  l.flatMap fun p => (ops.elems p).flatMap fun e => e.2.map fun pts => (SpecKey.ld e.1.1 e.1.2, pts)

/-- Move tagged polygons. -/
def moveTags (f : Pt K → Pt K) (l : List (SpecKey × Pgon K)) : List (SpecKey × Pgon K) :=
  l.map fun q => (q.1, q.2.map f)

theorem setTags_append (l m : List (PolySet K)) : setTags (l ++ m) = setTags l ++ setTags m := by
  simp [setTags]

theorem pathTags_append (ops : PathOps K P) (l m : List P) :
    pathTags ops (l ++ m) = pathTags ops l ++ pathTags ops m := by simp [pathTags]

theorem setTags_map (f : Pt K → Pt K) (l : List (PolySet K)) :
    setTags (l.map (PolySet.mapPts f)) = moveTags f (setTags l) := by
  unfold setTags moveTags
  rw [List.flatMap_map, List.map_flatMap]
  refine congrArg (fun g => l.flatMap g) ?_
  funext ps
  simp only [PolySet.mapPts, List.length_map, List.map_map]
  refine List.map_congr_left ?_
  intro i hi
  rw [List.mem_range] at hi
  simp [List.getD_eq_getElem?_getD, hi]

theorem setTags_flatMap {α : Type} (f : α → List (PolySet K)) (l : List α) :
    setTags (l.flatMap f) = l.flatMap fun x => setTags (f x) := by
  simp [setTags, List.flatMap_assoc]

theorem pathTags_flatMap {α : Type} (ops : PathOps K P) (f : α → List P) (l : List α) :
    pathTags ops (l.flatMap f) = l.flatMap fun x => pathTags ops (f x) := by
  simp [pathTags, List.flatMap_assoc]

theorem pathTags_map (ops : PathOps K P) (f : Pt K → Pt K) (g : P → P) (l : List P)
    (h : ∀ p ∈ l, ops.elems (g p) = mapElems f (ops.elems p)) :
    pathTags ops (l.map g) = moveTags f (pathTags ops l) := by
  unfold pathTags moveTags
  rw [List.flatMap_map, List.map_flatMap]
  refine List.flatMap_congr ?_
  intro p hp
  rw [h p hp]
  unfold mapElems
  rw [List.flatMap_map, List.map_flatMap]
  simp only [List.map_map]
  rfl

/-- The sets of a reference are those of its cell, moved by all placements. -/
theorem polysets_ref (t : Trig K) (r : RefData K) (l : List (PolySet K)) :
    setTags (match r.array with
      | none => l.map (PolySet.mapPts (refPt t r))
      | some (cols, rows, spacing) => (lattice cols rows spacing).flatMap fun spc =>
          l.map (PolySet.mapPts (arrPt t r spc)))
      = (placements t r).flatMap fun A => moveTags A.app (setTags l) := by
  unfold placements
  cases r.array with
  | none =>
    simp only [List.flatMap_cons, List.flatMap_nil, List.append_nil]
    rw [setTags_map]
    refine congrArg (fun f => moveTags f (setTags l)) ?_
    funext p
    exact refPt_eq t r p
  | some q =>
    obtain ⟨cols, rows, s⟩ := q
    simp only
    rw [setTags_flatMap]
    unfold lattice
    simp only [List.flatMap_assoc, List.flatMap_map]
    refine List.flatMap_congr ?_
    intro i _
    refine List.flatMap_congr ?_
    intro j _
    rw [setTags_map]
    refine congrArg (fun f => moveTags f (setTags l)) ?_
    funext p
    exact arrPt_eq t r _ p

theorem paths_ref {t : Trig K} {ops : PathOps K P} {w : RefData K → Prop} {q : P → Prop} (hg : GeomPaths t ops w q) (r : RefData K)
    (l : List P) (hw : w r ∨ l = []) (hl : ∀ p ∈ l, q p) :
    pathTags ops (match r.array with
      | none => l.map (ops.transform r.origin r.rotation r.magnification r.xrefl none)
      | some (cols, rows, spacing) => (lattice cols rows spacing).flatMap fun spc =>
          l.map (ops.transform r.origin r.rotation r.magnification r.xrefl (some spc)))
      = (placements t r).flatMap fun A => moveTags A.app (pathTags ops l) := by
  unfold placements
  cases r.array with
  | none =>
    simp only [List.flatMap_cons, List.flatMap_nil, List.append_nil]
    exact pathTags_map ops _ _ l fun p hp => hg.ref r p (hw.resolve_right (List.ne_nil_of_mem hp)) (hl p hp)
  | some w =>
    obtain ⟨cols, rows, s⟩ := w
    simp only
    rw [pathTags_flatMap]
    unfold lattice
    simp only [List.flatMap_assoc, List.flatMap_map]
    refine List.flatMap_congr ?_
    intro i _
    refine List.flatMap_congr ?_
    intro j _
    exact pathTags_map ops _ _ l fun p hp => hg.arr r _ p (hw.resolve_right (List.ne_nil_of_mem hp)) (hl p hp)

mutual
theorem getPaths_empty (ops : PathOps K P) : (c : HCell K P) → AllPaths (fun _ => False) c → c.getPaths ops none = []
  | .mk name polys paths labels refs, h => by
    rw [AllPaths] at h
    rw [HCell.getPaths, if_pos (by rfl), List.eq_nil_iff_forall_not_mem.2 h.1,
      show nextDepth none = none from rfl, getPathsRefs_empty ops refs h.2]
    rfl

theorem getPathsRefs_empty (ops : PathOps K P) : (c : HRefs K P) → AllPathsRefs (fun _ => False) c →
    c.getPaths ops none = []
  | .nil, _ => by rw [HRefs.getPaths]
  | .cell r c rest, h => by
    rw [AllPathsRefs] at h
    rw [HRefs.getPaths, getPaths_empty ops c h.1, getPathsRefs_empty ops rest h.2]
    cases r.array <;> simp
  | .name _ _ rest, h => by
    rw [AllPathsRefs] at h
    rw [HRefs.getPaths, getPathsRefs_empty ops rest h]
end

mutual
theorem getPaths_all {t : Trig K} {ops : PathOps K P} {w : RefData K → Prop} {q : P → Prop} (hg : GeomPaths t ops w q) :
    (c : HCell K P) → PathsOk w q c → ∀ p ∈ c.getPaths ops none, q p
  | .mk name polys paths labels refs, h => by
    rw [PathsOk] at h
    rw [HCell.getPaths, if_pos (by rfl)]
    intro p hp
    rcases List.mem_append.1 hp with hp | hp
    · exact h.1 p hp
    · exact getPathsRefs_all hg refs h.2 p hp

theorem getPathsRefs_all {t : Trig K} {ops : PathOps K P} {w : RefData K → Prop} {q : P → Prop} (hg : GeomPaths t ops w q) :
    (c : HRefs K P) → PathsOkRefs w q c → ∀ p ∈ c.getPaths ops none, q p
  | .nil, _ => by rw [HRefs.getPaths]; simp
  | .cell r c rest, h => by
    rw [PathsOkRefs] at h
    rw [HRefs.getPaths]
    intro p hp
    rcases List.mem_append.1 hp with hp | hp
    · cases ha : r.array with
      | none =>
        rw [ha] at hp
        obtain ⟨p', hp', rfl⟩ := List.mem_map.1 hp
        exact hg.closed r _ _ (h.1.resolve_right fun hc => List.ne_nil_of_mem hp' (getPaths_empty ops c hc))
          (getPaths_all hg c h.2.1 p' hp')
      | some w =>
        obtain ⟨cols, rows, s⟩ := w
        rw [ha] at hp
        obtain ⟨spc, -, hp⟩ := List.mem_flatMap.1 hp
        obtain ⟨p', hp', rfl⟩ := List.mem_map.1 hp
        exact hg.closed r _ _ (h.1.resolve_right fun hc => List.ne_nil_of_mem hp' (getPaths_empty ops c hc))
          (getPaths_all hg c h.2.1 p' hp')
    · exact getPathsRefs_all hg rest h.2.2 p hp
  | .name _ _ rest, h => by
    rw [PathsOkRefs] at h
    rw [HRefs.getPaths]
    exact getPathsRefs_all hg rest h
end

theorem flatMap_append_perm {α β : Type} (f g : α → List β) (l : List α) :
    (l.flatMap f ++ l.flatMap g).Perm (l.flatMap fun x => f x ++ g x) := by
  induction l with
  | nil => simp
  | cons x l ih =>
    simp only [List.flatMap_cons, List.append_assoc]
    refine List.Perm.append_left _ ?_
    rw [← List.append_assoc]
    refine (List.Perm.append_right _ List.perm_append_comm).trans ?_
    rw [List.append_assoc]
    exact List.Perm.append_left _ ih

theorem perm_middle4 {β : Type} (a b c d : List β) : ((a ++ c) ++ (b ++ d)).Perm ((a ++ b) ++ (c ++ d)) := by
  simp only [List.append_assoc]
  refine List.Perm.append_left _ ?_
  rw [← List.append_assoc, ← List.append_assoc]
  exact List.Perm.append_right _ List.perm_append_comm

mutual
/-- The sets and paths collected from the hierarchy have the polygons of the hierarchy. -/
theorem collected {t : Trig K} {ops : PathOps K P} {w : RefData K → Prop} {q : P → Prop} (hg : GeomPaths t ops w q) :
    (c : HCell K P) → PathsOk w q c →
    (setTags (c.polysets t none) ++ pathTags ops (c.getPaths ops none)).Perm (flat ops t none c)
  | .mk name polys paths labels refs, h => by
    rw [PathsOk] at h
    rw [HCell.polysets, HCell.getPaths, flat, if_pos (by rfl), if_pos (by rfl), if_neg (by simp),
      setTags_append, pathTags_append]
    exact (perm_middle4 _ _ _ _).trans (List.Perm.append_left _ (collectedRefs hg refs h.2))

theorem collectedRefs {t : Trig K} {ops : PathOps K P} {w : RefData K → Prop} {q : P → Prop} (hg : GeomPaths t ops w q) :
    (c : HRefs K P) → PathsOkRefs w q c →
    (setTags (c.polysets t none) ++ pathTags ops (c.getPaths ops none)).Perm (flatRefs ops t none c)
  | .nil, _ => by rw [HRefs.polysets, HRefs.getPaths, flatRefs]; exact List.Perm.refl _
  | .cell r c rest, h => by
    rw [PathsOkRefs] at h
    rw [HRefs.polysets, HRefs.getPaths, flatRefs, setTags_append, pathTags_append]
    refine (perm_middle4 _ _ _ _).trans (List.Perm.append ?_ (collectedRefs hg rest h.2.2))
    refine (List.Perm.of_eq (congrArg₂ List.append (polysets_ref t r _)
      (paths_ref hg r _ (h.1.imp id (getPaths_empty ops c)) (getPaths_all hg c h.2.1)))).trans ?_
    refine (flatMap_append_perm _ _ _).trans (List.Perm.flatMap_left _ ?_)
    intro A _
    have := (collected hg c h.2.1).map fun q => (q.1, q.2.map A.app)
    rw [List.map_append] at this
    exact this
  | .name _ _ rest, h => by
    rw [PathsOkRefs] at h
    rw [HRefs.polysets, HRefs.getPaths, flatRefs]
    exact collectedRefs hg rest h
end

theorem setTags_relabel (sl sd : Option Int) (l : List (PolySet K)) :
    setTags (l.map (PolySet.relabel sl sd)) = (setTags l).map fun q => (relabelKey sl sd q.1, q.2) := by
  unfold setTags
  rw [List.flatMap_map, List.map_flatMap]
  refine congrArg (fun g => l.flatMap g) ?_
  funext ps
  simp only [PolySet.relabel, List.map_map]
  refine List.map_congr_left ?_
  intro i hi
  rw [List.mem_range] at hi
  cases sl <;> cases sd <;>
    simp [relabelKey, List.getD_eq_getElem?_getD, hi]

theorem pathTags_relabel {ops : PathOps K P} {q : P → Prop} (hr : RelabelPaths ops q) (sl sd : Option Int) (l : List P)
    (hl : ∀ p ∈ l, q p) :
    pathTags ops (l.map (if sl.isSome || sd.isSome then ops.relabel sl sd else id))
      = (pathTags ops l).map fun q => (relabelKey sl sd q.1, q.2) := by
  have aux : ∀ p ∈ l, (ops.elems ((if sl.isSome || sd.isSome then ops.relabel sl sd else id) p))
      = (ops.elems p).map fun e => ((sl.getD e.1.1, sd.getD e.1.2), e.2) := by
    intro p hp
    split
    · exact hr sl sd p (hl p hp)
    · rename_i h
      cases sl <;> cases sd <;> simp at h ⊢
  unfold pathTags
  rw [List.flatMap_map, List.map_flatMap]
  refine List.flatMap_congr fun p hp => ?_
  rw [aux p hp, List.flatMap_map, List.map_flatMap]
  simp only [List.map_map]
  rfl

/-- **C32.** `flatten` leaves no references, and the polygons of the cell, with their layers and
datatypes, are up to order those the hierarchy had; with `single_layer`/`single_datatype` only
these change, for every polygon. The hypothesis about paths says that `transform` moves the
polygons of the paths of this hierarchy; it is empty for hierarchies without paths. -/
theorem C32_flatten_polygons {t : Trig K} {ops : PathOps K P} {w : RefData K → Prop} {q : P → Prop} (hg : GeomPaths t ops w q)
    (hr : RelabelPaths ops q) (sl sd st : Option Int) (c : HCell K P) (h : PathsOk w q c) :
    (c.flatten ops t sl sd st).references = .nil ∧
    (flat ops t none (c.flatten ops t sl sd st)).Perm
      ((flat ops t none c).map fun e => (relabelKey sl sd e.1, e.2)) := by
  refine ⟨rfl, ?_⟩
  have h1 : flat ops t none (c.flatten ops t sl sd st)
      = setTags ((c.polysets t none).map (PolySet.relabel sl sd))
        ++ pathTags ops ((c.getPaths ops none).map (if sl.isSome || sd.isSome then ops.relabel sl sd else id)) := by
    unfold HCell.flatten
    rw [flat, if_neg (by simp), flatRefs, List.append_nil]
    rfl
  rw [h1, setTags_relabel, pathTags_relabel hr sl sd _ (getPaths_all hg c h), ← List.map_append]
  exact (collected hg c h).map _

/-- **C32.** So `get_polygons()` returns the same polygons up to order, whatever the arguments. -/
theorem C32_flatten_get_polygons {t : Trig K} {ops : PathOps K P} {w : RefData K → Prop} {q : P → Prop} (hg : GeomPaths t ops w q)
    (hr : RelabelPaths ops q) (sl sd st : Option Int) (c : HCell K P) (h : PathsOk w q c) :
    ((c.flatten ops t sl sd st).polys ops t none).Perm (c.polys ops t none) := by
  refine (polys_flat ops t none _).trans ?_
  refine (((C32_flatten_polygons hg hr sl sd st c h).2).map Prod.snd).trans ?_
  rw [List.map_map]
  exact (polys_flat ops t none c).symm

/-- Polygon sets stay well formed. -/
theorem relabel_aligned {sl sd : Option Int} {ps : PolySet K} (h : Aligned ps) :
    Aligned (ps.relabel sl sd) := by
  cases sl <;> cases sd <;> simp [PolySet.relabel, Aligned, h.1, h.2]

mutual
theorem polysets_aligned (t : Trig K) : (c : HCell K P) → AllCell Aligned (fun _ => True) c →
    ∀ ps ∈ c.polysets t none, Aligned ps
  | .mk name polys paths labels refs, h => by
    rw [AllCell] at h
    rw [HCell.polysets, if_pos (by rfl)]
    intro ps hps
    rcases List.mem_append.1 hps with hps | hps
    · exact h.1 ps hps
    · exact polysetsRefs_aligned t refs h.2 ps hps

theorem polysetsRefs_aligned (t : Trig K) : (c : HRefs K P) → AllRefs Aligned (fun _ => True) c →
    ∀ ps ∈ c.polysets t none, Aligned ps
  | .nil, _ => by rw [HRefs.polysets]; simp
  | .cell r c rest, h => by
    rw [AllRefs] at h
    rw [HRefs.polysets]
    intro ps hps
    have hm : ∀ f : Pt K → Pt K, ∀ ps ∈ c.polysets t none, Aligned (ps.mapPts f) := by
      intro f ps hps
      have := polysets_aligned t c h.2.1 ps hps
      simpa [Aligned, PolySet.mapPts] using this
    rcases List.mem_append.1 hps with hps | hps
    · cases ha : r.array with
      | none =>
        rw [ha] at hps
        obtain ⟨ps', hps', rfl⟩ := List.mem_map.1 hps
        exact hm _ _ hps'
      | some w =>
        obtain ⟨cols, rows, s⟩ := w
        rw [ha] at hps
        obtain ⟨spc, -, hps⟩ := List.mem_flatMap.1 hps
        obtain ⟨ps', hps', rfl⟩ := List.mem_map.1 hps
        exact hm _ _ hps'
    · exact polysetsRefs_aligned t rest h.2.2 ps hps
  | .name _ _ rest, h => by
    rw [AllRefs] at h
    rw [HRefs.polysets]
    exact polysetsRefs_aligned t rest h.2
end

theorem flatten_aligned (t : Trig K) (ops : PathOps K P) (sl sd st : Option Int) (c : HCell K P)
    (h : AllCell Aligned (fun _ => True) c) :
    AllCell Aligned (fun _ => True) (c.flatten ops t sl sd st) := by
  unfold HCell.flatten
  rw [AllCell, AllRefs]
  refine ⟨?_, trivial⟩
  intro ps hps
  obtain ⟨ps', hps', rfl⟩ := List.mem_map.1 hps
  exact relabel_aligned (polysets_aligned t c h ps' hps')

mutual
/-- Without a limit of depth all polygons have a layer and a datatype. -/
theorem flat_keys (ops : PathOps K P) (t : Trig K) : (c : HCell K P) →
    ∀ e ∈ flat ops t none c, ∃ a b, e.1 = SpecKey.ld a b
  | .mk name polys paths labels refs => by
    rw [flat, if_neg (by simp)]
    intro e he
    rcases List.mem_append.1 he with he | he
    · rcases List.mem_append.1 he with he | he
      · obtain ⟨ps, -, he⟩ := List.mem_flatMap.1 he
        obtain ⟨i, -, rfl⟩ := List.mem_map.1 he
        exact ⟨_, _, rfl⟩
      · obtain ⟨p, -, he⟩ := List.mem_flatMap.1 he
        obtain ⟨x, -, he⟩ := List.mem_flatMap.1 he
        obtain ⟨i, -, rfl⟩ := List.mem_map.1 he
        exact ⟨_, _, rfl⟩
    · exact flatRefs_keys ops t refs e he

theorem flatRefs_keys (ops : PathOps K P) (t : Trig K) : (c : HRefs K P) →
    ∀ e ∈ flatRefs ops t none c, ∃ a b, e.1 = SpecKey.ld a b
  | .nil => by rw [flatRefs]; simp
  | .cell r c rest => by
    rw [flatRefs]
    intro e he
    rcases List.mem_append.1 he with he | he
    · obtain ⟨A, -, he⟩ := List.mem_flatMap.1 he
      obtain ⟨e', he', rfl⟩ := List.mem_map.1 he
      exact flat_keys ops t c e' he'
    · exact flatRefs_keys ops t rest e he
  | .name _ _ rest => by
    rw [flatRefs]
    exact flatRefs_keys ops t rest
end

theorem sel_perm_of_perm {κ β : Type} [DecidableEq κ] (j : κ) {l m : List (κ × β)} (h : l.Perm m) :
    (sel j l).Perm (sel j m) := (h.filter _).map _

/-- **C32.** `get_polygons((layer, datatype))` returns the same polygons up to order, when neither
layer nor datatype is overwritten. -/
theorem C32_flatten_by_spec {t : Trig K} {ops : PathOps K P} {w : RefData K → Prop} {q : P → Prop} (hg : GeomPaths t ops w q)
    (hr : RelabelPaths ops q) (st : Option Int) (c : HCell K P) (h : PathsOk w q c)
    (ha : AllCell Aligned (fun _ => True) c) (l dt : Int) :
    ((c.flatten ops t none none st).polysOf ops t none l dt).Perm (c.polysOf ops t none l dt) := by
  rw [polysOf_flat ops t none l dt _ (flatten_aligned t ops none none st c ha),
    polysOf_flat ops t none l dt c ha]
  refine sel_perm_of_perm _ ((C32_flatten_polygons hg hr none none st c h).2.trans (List.Perm.of_eq ?_))
  conv_rhs => rw [← List.map_id (flat ops t none c)]
  refine List.map_congr_left ?_
  rintro ⟨k, v⟩ _
  cases k <;> rfl

/-- **C32.** With `single_layer` and `single_datatype` all polygons are found under that
specification, and none under another. -/
theorem C32_flatten_single {t : Trig K} {ops : PathOps K P} {w : RefData K → Prop} {q : P → Prop} (hg : GeomPaths t ops w q)
    (hr : RelabelPaths ops q) (sl sd : Int) (st : Option Int) (c : HCell K P) (h : PathsOk w q c)
    (ha : AllCell Aligned (fun _ => True) c) (l dt : Int) :
    ((c.flatten ops t (some sl) (some sd) st).polysOf ops t none l dt).Perm
      (if l = sl ∧ dt = sd then c.polys ops t none else []) := by
  rw [polysOf_flat ops t none l dt _ (flatten_aligned t ops _ _ st c ha)]
  refine (sel_perm_of_perm _ (C32_flatten_polygons hg hr (some sl) (some sd) st c h).2).trans ?_
  have hk : ∀ e ∈ flat ops t none c, ∃ a b, e.1 = SpecKey.ld a b := flat_keys ops t c
  split
  · rename_i hl
    obtain ⟨rfl, rfl⟩ := hl
    refine List.Perm.trans (List.Perm.of_eq ?_) (polys_flat ops t none c).symm
    unfold sel
    rw [List.filter_eq_self.2, List.map_map]
    · rfl
    · intro e he
      obtain ⟨e', he', rfl⟩ := List.mem_map.1 he
      obtain ⟨a, b, hab⟩ := hk e' he'
      simp [hab, relabelKey]
  · rename_i hl
    refine List.Perm.of_eq ?_
    unfold sel
    rw [List.map_eq_nil_iff, List.filter_eq_nil_iff]
    intro e he
    obtain ⟨e', he', rfl⟩ := List.mem_map.1 he
    obtain ⟨a, b, hab⟩ := hk e' he'
    simp only [hab, relabelKey, Option.getD_some, decide_eq_true_eq, SpecKey.ld.injEq]
    rintro ⟨rfl, rfl⟩
    exact hl ⟨rfl, rfl⟩

/-- **C32.** The area is unchanged. -/
theorem C32_flatten_area [IsStrictOrderedRing K] {t : Trig K} (ht : ∀ a, t.cos a ^ 2 + t.sin a ^ 2 = 1)
    {ops : PathOps K P} {w : RefData K → Prop} {q : P → Prop} (hg : GeomPaths t ops w q) (hr : RelabelPaths ops q)
    (sl sd st : Option Int) (c : HCell K P) (h : PathsOk w q c) :
    (c.flatten ops t sl sd st).area ops = c.area ops := by
  rw [C33_area_is_sum ops t ht, C33_area_is_sum ops t ht]
  exact areas_perm (C32_flatten_get_polygons hg hr sl sd st c h)

/-- **C32.** The bounding box (computed afresh) is unchanged. -/
theorem C32_flatten_bbox [IsStrictOrderedRing K] {t : Trig K}
    (ht : ∀ a, t.cardinal a = true → t.cos a = 0 ∨ t.sin a = 0)
    {ops : PathOps K P} {w : RefData K → Prop} {q : P → Prop} (hg : GeomPaths t ops w q) (hr : RelabelPaths ops q)
    (sl sd st : Option Int) (c : HCell K P) (h : PathsOk w q c) :
    (c.flatten ops t sl sd st).bbox ops t = c.bbox ops t := by
  have hp := C32_flatten_get_polygons hg hr sl sd st c h
  rw [polys_none, polys_none] at hp
  cases hb : c.bbox ops t with
  | none =>
    rw [C34_none_iff_empty ops t ht] at hb ⊢
    exact fun p hm => hb p (hp.mem_iff.1 hm)
  | some b =>
    refine C34_unique ops t ht _ b ?_
    have hx := C34_bbox_is_smallest ops t ht c b hb
    have hm : ∀ x, x ∈ (c.flatPolys ops t).flatten ↔ x ∈ ((c.flatten ops t sl sd st).flatPolys ops t).flatten :=
      fun x => by
        simp only [List.mem_flatten]
        exact ⟨fun ⟨l, hl, hx⟩ => ⟨l, hp.mem_iff.2 hl, hx⟩, fun ⟨l, hl, hx⟩ => ⟨l, hp.mem_iff.1 hl, hx⟩⟩
    simpa only [IsBBox, hm] using hx

/-- **C32.** The labels are those `get_labels()` returned before, with the same text, position and
appearance; their layer is overwritten by `single_layer`. -/
theorem C32_flatten_labels (t : Trig K) (ops : PathOps K P) (sl sd st : Option Int) (c : HCell K P) :
    (c.flatten ops t sl sd st).getLabels t none false
      = (c.getLabels t none false).map fun l =>
        { l with layer := sl.getD l.layer, texttype := if sd = none then l.texttype else st } := by
  unfold HCell.flatten
  rw [HCell.getLabels, HRefs.getLabels]
  simp only [ite_self, List.append_nil]
  refine List.map_congr_left ?_
  intro l _
  unfold HLabel.relabel
  cases sd <;> rfl

/-- **C32.** The deviation for labels: with `single_datatype` alone the text type becomes None. -/
theorem C32_texttype_lost : ∃ (c : HCell ℚ IdealPath),
    (c.getLabels ratTrig none false).map HLabel.texttype = [some 4] ∧
    ((c.flatten (idealOps ratTrig) ratTrig none (some 5) none).getLabels ratTrig none false).map
      HLabel.texttype = [none] :=
  ⟨sampleLeaf, by decide +kernel, by decide +kernel⟩

/-- The hypotheses hold for paths whose transformation moves their polygons, -/
theorem idealOps_geom (t : Trig ℚ) : GeomPaths t (idealOps t) (fun _ => True) (fun _ => True) where
  ref r p _ _ := by
    simp only [idealOps, mapElems]
    refine List.map_congr_left ?_
    intro e _
    refine congrArg (Prod.mk e.1) (List.map_congr_left ?_)
    intro p _
    refine List.map_congr_left ?_
    intro v _
    exact refPt_eq t r v
  arr r s p _ _ := by
    simp only [idealOps, mapElems]
    refine List.map_congr_left ?_
    intro e _
    refine congrArg (Prod.mk e.1) (List.map_congr_left ?_)
    intro p _
    refine List.map_congr_left ?_
    intro v _
    exact arrPt_eq t r s v
  closed _ _ _ _ _ := trivial

example (t : Trig ℚ) : RelabelPaths (idealOps t) (fun _ => True) := fun _ _ _ _ => rfl

/-- and, whatever paths do, for hierarchies without paths. -/
example (t : Trig K) (ops : PathOps K P) : GeomPaths t ops (fun _ => True) (fun _ => False) :=
  ⟨fun _ _ _ h => h.elim, fun _ _ _ _ h => h.elim, fun _ _ _ _ h => h⟩

example : (sampleTop.flatten (idealOps ratTrig) ratTrig none none none).references = .nil ∧
    (sampleTop.flatten (idealOps ratTrig) ratTrig none none none).polygons.length = 7 ∧
    (sampleTop.flatten (idealOps ratTrig) ratTrig none none none).paths.length = 1 ∧
    (sampleTop.flatten (idealOps ratTrig) ratTrig none none none).labels.length = 5 := by
  exact ⟨rfl, by decide +kernel, by decide +kernel, by decide +kernel⟩

end Gdspy
