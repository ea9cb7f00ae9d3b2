import Verif.Lemmas.HierSamples

/-!
# C30: polygon queries agree; C31: depth limits; C40: arrays are grids of references
-/

set_option linter.unusedSectionVars false

namespace Gdspy

open Spec

variable {K P : Type} [Field K] [LinearOrder K]

/-! ### The flat query -/

theorem placed_snd (t : Trig K) (r : RefData K) (l : List (SpecKey × Pgon K)) :
    ((placements t r).flatMap fun A => l.map fun q => (q.1, q.2.map A.app)).map Prod.snd
      = transformPolys t r (l.map Prod.snd) := by
  rw [transformPolys_eq, List.map_flatMap]
  refine congrArg (fun f => (placements t r).flatMap f) ?_
  funext A
  simp only [List.map_map]
  rfl

theorem placed_sel (t : Trig K) (r : RefData K) (l : List (SpecKey × Pgon K)) (j : SpecKey) :
    sel j ((placements t r).flatMap fun A => l.map fun q => (q.1, q.2.map A.app))
      = transformPolys t r (sel j l) := by
  rw [transformPolys_eq, sel_flatMap]
  refine congrArg (fun f => (placements t r).flatMap f) ?_
  funext A
  exact sel_map_snd j (fun p : Pgon K => p.map A.app) l

theorem transformPolys_perm (t : Trig K) (r : RefData K) {l m : List (Pgon K)} (h : l.Perm m) :
    (transformPolys t r l).Perm (transformPolys t r m) := by
  rw [transformPolys_eq, transformPolys_eq]
  exact List.Perm.flatMap_left _ (fun A _ => h.map _)

theorem ownPolys_snd (polys : List (PolySet K)) :
    (polys.flatMap fun ps => (List.range ps.polygons.length).map fun i =>
        (SpecKey.ld (ps.layers.getD i 0) (ps.datatypes.getD i 0), ps.polygons.getD i [])).map Prod.snd
      = polys.flatMap PolySet.polygons := by
  rw [List.map_flatMap]
  exact congrArg (fun f => polys.flatMap f) (funext indexed_snd)

theorem ownPaths_snd (ops : PathOps K P) (paths : List P) :
    (paths.flatMap ops.polys).Perm
      ((paths.flatMap fun p => (ops.elems p).flatMap fun e =>
        e.2.map fun pts => (SpecKey.ld e.1.1 e.1.2, pts)).map Prod.snd) := by
  rw [List.map_flatMap]
  refine List.Perm.flatMap_left _ ?_
  intro p _
  refine (pathPolys_perm ops p).trans (List.Perm.of_eq ?_)
  rw [List.map_flatMap]
  refine congrArg (fun f => (ops.elems p).flatMap f) ?_
  funext e
  simp only [List.map_map]
  exact (List.map_id _).symm

theorem below_eq (depth : Option Int) : below depth = depth.any fun d => decide (d < 0) := rfl

mutual
theorem polys_flat (ops : PathOps K P) (t : Trig K) (depth : Option Int) : (c : HCell K P) →
    (c.polys ops t depth).Perm ((flat ops t depth c).map Prod.snd)
  | .mk name polys paths labels refs => by
    rw [HCell.polys, flat, ← below_eq]
    by_cases hb : below depth = true
    · rw [if_pos hb, if_pos hb]
      cases (HCell.mk name polys paths labels refs).bbox ops t <;> simp
    · rw [if_neg hb, if_neg hb, List.map_append, List.map_append, ownPolys_snd]
      exact ((List.Perm.refl _).append (ownPaths_snd ops paths)).append
        (polysRefs_flat ops t (nextDepth depth) refs)

theorem polysRefs_flat (ops : PathOps K P) (t : Trig K) (depth : Option Int) : (c : HRefs K P) →
    (c.polys ops t depth).Perm ((flatRefs ops t depth c).map Prod.snd)
  | .nil => by rw [HRefs.polys, flatRefs]; exact List.Perm.refl _
  | .cell r c rest => by
    rw [HRefs.polys, flatRefs, List.map_append, placed_snd]
    exact (transformPolys_perm t r (polys_flat ops t depth c)).append (polysRefs_flat ops t depth rest)
  | .name _ _ rest => by
    rw [HRefs.polys, flatRefs]
    exact polysRefs_flat ops t depth rest
end

/-! ### The query for one specification -/

theorem sel_tagged {ps : PolySet K} (h : Aligned ps) (l dt : Int) :
    (ps.tagged.filter fun p => p.1.1 = l ∧ p.1.2 = dt).map Prod.snd
      = sel (SpecKey.ld l dt) ((List.range ps.polygons.length).map fun i =>
        (SpecKey.ld (ps.layers.getD i 0) (ps.datatypes.getD i 0), ps.polygons.getD i [])) := by
  rw [← tagged_eq h]
  unfold sel
  rw [List.filter_map, List.map_map]
  refine congrArg₂ List.map rfl (List.filter_congr ?_)
  intro q _
  simp [Function.comp]

theorem sel_tagged_flatMap {polys : List (PolySet K)} (h : ∀ ps ∈ polys, Aligned ps) (l dt : Int) :
    ((polys.flatMap PolySet.tagged).filter fun p => p.1.1 = l ∧ p.1.2 = dt).map Prod.snd
      = sel (SpecKey.ld l dt) (polys.flatMap fun ps => (List.range ps.polygons.length).map fun i =>
        (SpecKey.ld (ps.layers.getD i 0) (ps.datatypes.getD i 0), ps.polygons.getD i [])) := by
  induction polys with
  | nil => rfl
  | cons ps polys ih =>
    rw [List.flatMap_cons, List.flatMap_cons, sel_append, List.filter_append, List.map_append,
      ih (fun q hq => h q (List.mem_cons_of_mem _ hq)), sel_tagged (h ps List.mem_cons_self)]

theorem sel_elems (elems : List ((Int × Int) × List (Pgon K))) (l dt : Int) :
    sel (SpecKey.ld l dt) (elems.flatMap fun e => e.2.map fun pts => (SpecKey.ld e.1.1 e.1.2, pts))
      = (sel (l, dt) elems).flatten := by
  induction elems with
  | nil => rfl
  | cons e elems ih =>
    obtain ⟨⟨a, b⟩, v⟩ := e
    rw [List.flatMap_cons, sel_append, ih, sel_map_key, sel_cons]
    by_cases h : (l, dt) = (a, b)
    · obtain ⟨rfl, rfl⟩ := Prod.mk.inj h
      simp
    · have : SpecKey.ld l dt ≠ SpecKey.ld a b := by
        rintro ⟨⟩
        exact h rfl
      simp [h, this]

theorem sel_elems_none {elems : List ((Int × Int) × List (Pgon K))} {l dt : Int}
    (h : ¬ (elems.any fun e => e.1 = (l, dt)) = true) : sel (l, dt) elems = [] := by
  unfold sel
  rw [List.map_eq_nil_iff, List.filter_eq_nil_iff]
  intro q hq
  simp only [decide_eq_true_eq]
  intro he
  exact h (List.any_eq_true.2 ⟨q, hq, by simp [he]⟩)

theorem sel_paths (ops : PathOps K P) (paths : List P) (l dt : Int) :
    (paths.flatMap fun p =>
        if (ops.elems p).any (fun e => e.1 = (l, dt)) then ((ops.dict p).lookup (l, dt)).getD [] else [])
      = sel (SpecKey.ld l dt) (paths.flatMap fun p => (ops.elems p).flatMap fun e =>
        e.2.map fun pts => (SpecKey.ld e.1.1 e.1.2, pts)) := by
  rw [sel_flatMap]
  refine congrArg (fun f => paths.flatMap f) ?_
  funext p
  rw [sel_elems]
  split
  · exact pathDict_getD ops p (l, dt)
  · rename_i h
    rw [sel_elems_none h]
    rfl

theorem sel_ld_toList (name : Str) (l dt : Int) (o : Option (Pt K × Pt K)) :
    sel (SpecKey.ld l dt) (o.map fun b => (SpecKey.cell name, boxRect b)).toList = [] := by
  cases o with
  | none => rfl
  | some b => simp [sel]

mutual
theorem polysOf_flat (ops : PathOps K P) (t : Trig K) (depth : Option Int) (l dt : Int) :
    (c : HCell K P) → AllCell Aligned (fun _ => True) c →
    c.polysOf ops t depth l dt = sel (.ld l dt) (flat ops t depth c)
  | .mk name polys paths labels refs, h => by
    rw [AllCell] at h
    rw [HCell.polysOf, flat, ← below_eq]
    by_cases hb : below depth = true
    · rw [if_pos hb, if_pos hb, sel_ld_toList]
    · rw [if_neg hb, if_neg hb, sel_append, sel_append, sel_tagged_flatMap h.1, sel_paths,
        polysOfRefs_flat ops t (nextDepth depth) l dt refs h.2]
      rfl

theorem polysOfRefs_flat (ops : PathOps K P) (t : Trig K) (depth : Option Int) (l dt : Int) :
    (c : HRefs K P) → AllRefs Aligned (fun _ => True) c →
    c.polysOf ops t depth l dt = sel (.ld l dt) (flatRefs ops t depth c)
  | .nil, _ => by rw [HRefs.polysOf, flatRefs]; rfl
  | .cell r c rest, h => by
    rw [AllRefs] at h
    rw [HRefs.polysOf, flatRefs, sel_append, placed_sel, polysOf_flat ops t depth l dt c h.2.1,
      polysOfRefs_flat ops t depth l dt rest h.2.2]
  | .name _ _ rest, h => by
    rw [AllRefs] at h
    rw [HRefs.polysOf, flatRefs]
    exact polysOfRefs_flat ops t depth l dt rest h.2
end

/-! ### The dictionary -/

theorem foldl_extend_map {α κ γ : Type} [DecidableEq κ] (f : γ → κ × List α) (l : List γ)
    (d : List (κ × List α)) :
    l.foldl (fun d x => dictExtend (f x).1 (f x).2 d) d
      = (l.map f).foldl (fun d p => dictExtend p.1 p.2 d) d := by
  rw [List.foldl_map]

theorem own_dict {polys : List (PolySet K)} (h : ∀ ps ∈ polys, Aligned ps) (j : SpecKey) :
    (((polys.flatMap PolySet.tagged).foldl
      (fun d p => dictExtend (SpecKey.ld p.1.1 p.1.2) [p.2] d) []).lookup j).getD []
      = sel j (polys.flatMap fun ps => (List.range ps.polygons.length).map fun i =>
        (SpecKey.ld (ps.layers.getD i 0) (ps.datatypes.getD i 0), ps.polygons.getD i [])) := by
  rw [foldl_extend_map (fun p : (Int × Int) × Pgon K => (SpecKey.ld p.1.1 p.1.2, [p.2])),
    foldl_extend_getD]
  simp only [List.lookup_nil, Option.getD_none, List.nil_append]
  induction polys with
  | nil => rfl
  | cons ps polys ih =>
    rw [List.flatMap_cons, List.flatMap_cons, sel_append, List.map_append, sel_append,
      List.flatten_append, ih (fun q hq => h q (List.mem_cons_of_mem _ hq)),
      ← tagged_eq (h ps List.mem_cons_self)]
    refine congrArg₂ List.append ?_ rfl
    induction ps.tagged with
    | nil => rfl
    | cons q l ih' =>
      rw [List.map_cons, List.map_cons, sel_cons, sel_cons, List.flatten_append, ih']
      split <;> simp

theorem flatten_flatMap' {α β : Type} (f : α → List (List β)) (l : List α) :
    (l.flatMap f).flatten = l.flatMap fun x => (f x).flatten := by
  induction l with
  | nil => rfl
  | cons x l ih => rw [List.flatMap_cons, List.flatMap_cons, List.flatten_append, ih]

theorem path_dict (ops : PathOps K P) (paths : List P) (d : List (SpecKey × List (Pgon K))) (j : SpecKey) :
    (((paths.flatMap ops.dict).foldl
      (fun d p => dictExtend (SpecKey.ld p.1.1 p.1.2) p.2 d) d).lookup j).getD []
      = (d.lookup j).getD [] ++ sel j (paths.flatMap fun p => (ops.elems p).flatMap fun e =>
        e.2.map fun pts => (SpecKey.ld e.1.1 e.1.2, pts)) := by
  rw [foldl_extend_map (fun p : (Int × Int) × List (Pgon K) => (SpecKey.ld p.1.1 p.1.2, p.2)),
    foldl_extend_getD]
  refine congrArg₂ List.append rfl ?_
  cases j with
  | cell n =>
    have h1 : ∀ l : List ((Int × Int) × List (Pgon K)),
        sel (SpecKey.cell n) (l.map fun p => (SpecKey.ld p.1.1 p.1.2, p.2)) = [] := by
      intro l
      induction l with
      | nil => rfl
      | cons q l ih => rw [List.map_cons, sel_cons, ih]; simp
    rw [h1, sel_flatMap]
    symm
    simp only [List.flatten_nil, List.flatMap_eq_nil_iff]
    intro p _
    rw [sel_flatMap]
    simp only [List.flatMap_eq_nil_iff]
    intro e _
    rw [sel_map_key]
    simp
  | ld l dt =>
    have h1 : ∀ m : List ((Int × Int) × List (Pgon K)),
        sel (SpecKey.ld l dt) (m.map fun p => (SpecKey.ld p.1.1 p.1.2, p.2)) = sel (l, dt) m := by
      intro m
      induction m with
      | nil => rfl
      | cons q m ih =>
        obtain ⟨⟨a, b⟩, v⟩ := q
        rw [List.map_cons, sel_cons, sel_cons, ih]
        simp
    rw [h1, sel_flatMap, sel_flatMap, flatten_flatMap']
    refine congrArg (fun f => paths.flatMap f) ?_
    funext p
    rw [sel_elems, sel_flatten_of_nodup (pathDict_nodup ops p), pathDict_getD]

mutual
theorem polyDict_nodup (ops : PathOps K P) (t : Trig K) (depth : Option Int) : (c : HCell K P) →
    ((c.polyDict ops t depth).map Prod.fst).Nodup
  | .mk name polys paths labels refs => by
    rw [HCell.polyDict]
    by_cases hb : below depth = true
    · rw [if_pos hb]
      cases (HCell.mk name polys paths labels refs).bbox ops t <;> simp
    · rw [if_neg hb]
      refine polyDictRefs_nodup ops t (nextDepth depth) refs _ ?_
      rw [foldl_extend_map (fun p : (Int × Int) × List (Pgon K) => (SpecKey.ld p.1.1 p.1.2, p.2)),
        foldl_extend_map (fun p : (Int × Int) × Pgon K => (SpecKey.ld p.1.1 p.1.2, [p.2]))]
      exact foldl_extend_nodup _ _ (foldl_extend_nodup _ _ (by simp))

theorem polyDictRefs_nodup (ops : PathOps K P) (t : Trig K) (depth : Option Int) : (c : HRefs K P) →
    ∀ d : List (SpecKey × List (Pgon K)), (d.map Prod.fst).Nodup →
    ((c.polyDict ops t depth d).map Prod.fst).Nodup
  | .nil, d, h => by rw [HRefs.polyDict]; exact h
  | .cell r c rest, d, h => by
    rw [HRefs.polyDict]
    exact polyDictRefs_nodup ops t depth rest _ (foldl_extend_nodup _ _ h)
  | .name _ _ rest, d, h => by
    rw [HRefs.polyDict]
    exact polyDictRefs_nodup ops t depth rest d h
end

mutual
theorem polyDict_flat (ops : PathOps K P) (t : Trig K) (depth : Option Int) (j : SpecKey) :
    (c : HCell K P) → AllCell Aligned NoZeroMag c →
    ((c.polyDict ops t depth).lookup j).getD [] = sel j (flat ops t depth c)
  | .mk name polys paths labels refs, h => by
    rw [AllCell] at h
    rw [HCell.polyDict, flat, ← below_eq]
    by_cases hb : below depth = true
    · rw [if_pos hb, if_pos hb]
      cases (HCell.mk name polys paths labels refs).bbox ops t with
      | none => rfl
      | some b =>
        simp only [Option.map_some, Option.toList_some]
        rw [lookup_cons_ite, sel_cons]
        split <;> simp [sel]
    · rw [if_neg hb, if_neg hb, sel_append, sel_append,
        polyDictRefs_flat ops t (nextDepth depth) j refs h.2, path_dict, own_dict h.1]
      rfl

theorem polyDictRefs_flat (ops : PathOps K P) (t : Trig K) (depth : Option Int) (j : SpecKey) :
    (c : HRefs K P) → AllRefs Aligned NoZeroMag c → ∀ d : List (SpecKey × List (Pgon K)),
    ((c.polyDict ops t depth d).lookup j).getD [] = (d.lookup j).getD [] ++ sel j (flatRefs ops t depth c)
  | .nil, _, d => by rw [HRefs.polyDict, flatRefs]; simp [sel]
  | .cell r c rest, h, d => by
    rw [AllRefs] at h
    rw [HRefs.polyDict, flatRefs, polyDictRefs_flat ops t depth j rest h.2.2, sel_append, placed_sel,
      ← polyDict_flat ops t depth j c h.2.1, ← List.append_assoc]
    refine congrArg₂ List.append ?_ rfl
    unfold dictMerge
    rw [foldl_extend_getD, sel_flatten_of_nodup, lookup_map_snd]
    · refine congrArg₂ List.append rfl ?_
      cases (c.polyDict ops t depth).lookup j with
      | none => simp [transformPolys_nil]
      | some v => simp [transformDictVal_eq t r h.1]
    · rw [List.map_map]
      exact polyDict_nodup ops t depth c
  | .name _ _ rest, h, d => by
    rw [AllRefs] at h
    rw [HRefs.polyDict, flatRefs]
    exact polyDictRefs_flat ops t depth j rest h.2 d
end

/-! ### C30 -/

/-- A list of pairs is, up to order, the concatenation of its parts by key. -/
theorem sel_perm {κ α : Type} [DecidableEq κ] : ∀ (ks : List κ), ks.Nodup → ∀ (l : List (κ × α)),
    (∀ q ∈ l, q.1 ∈ ks) → (ks.flatMap fun k => sel k l).Perm (l.map Prod.snd) := by
  intro ks
  induction ks with
  | nil =>
    intro _ l h
    cases l with
    | nil => simp
    | cons q l => exact absurd (h q List.mem_cons_self) (by simp)
  | cons k ks ih =>
    intro hn l h
    rw [List.nodup_cons] at hn
    rw [List.flatMap_cons]
    have h1 := ih hn.2 (l.filter fun q => ¬ q.1 = k) (by
      intro q hq
      rw [List.mem_filter] at hq
      rcases List.mem_cons.1 (h q hq.1) with he | he
      · exact absurd he (by simpa using hq.2)
      · exact he)
    have h2 : ks.flatMap (fun j => sel j l) = ks.flatMap fun j => sel j (l.filter fun q => ¬ q.1 = k) := by
      refine List.flatMap_congr ?_
      intro j hj
      unfold sel
      rw [List.filter_filter]
      refine congrArg _ (List.filter_congr ?_)
      intro q _
      have : j ≠ k := fun he => hn.1 (he ▸ hj)
      by_cases hq : q.1 = j
      · simp [hq, this]
      · simp [hq]
    rw [h2]
    refine (List.Perm.append_left _ h1).trans ?_
    unfold sel
    rw [← List.map_append]
    refine List.Perm.map _ ?_
    have := List.filter_append_perm (fun q : κ × α => decide (q.1 = k)) l
    simpa using this

/-- **C30.** In every hierarchy, at every depth: the entry of `get_polygons(by_spec=True)` for a layer
and datatype (nothing, if there is no entry) is the list returned by
`get_polygons((layer, datatype))`, in the same order. Polygon sets must have a layer and a datatype
for every polygon, and there must be no array with magnification 0. -/
theorem C30_entry_equals_tuple_query (ops : PathOps K P) (t : Trig K) (depth : Option Int) (l dt : Int)
    (c : HCell K P) (h : AllCell Aligned NoZeroMag c) :
    ((c.polyDict ops t depth).lookup (.ld l dt)).getD [] = c.polysOf ops t depth l dt := by
  have h' : AllCell Aligned (fun _ => True) c := allCell_mono (fun _ h => h) (fun _ _ => trivial) c h
  rw [polyDict_flat ops t depth _ c h, polysOf_flat ops t depth l dt c h']

/-- **C30.** The flat list of `get_polygons()` is a permutation of all the entries of
`get_polygons(by_spec=True)`, at every depth. -/
theorem C30_flat_is_union (ops : PathOps K P) (t : Trig K) (depth : Option Int) (c : HCell K P)
    (h : AllCell Aligned NoZeroMag c) :
    (c.polys ops t depth).Perm ((c.polyDict ops t depth).flatMap Prod.snd) := by
  refine (polys_flat ops t depth c).trans ?_
  have hn := polyDict_nodup ops t depth c
  have hk : ∀ q ∈ flat ops t depth c, q.1 ∈ (c.polyDict ops t depth).map Prod.fst := by
    intro q hq
    by_contra hne
    have : (c.polyDict ops t depth).lookup q.1 = none := by
      rw [List.lookup_eq_none_iff]
      intro p hp
      rw [bne_iff_ne]
      intro he
      exact hne (List.mem_map.2 ⟨p, hp, he.symm⟩)
    have h1 := polyDict_flat ops t depth q.1 c h
    rw [this, Option.getD_none] at h1
    have : q.2 ∈ sel q.1 (flat ops t depth c) :=
      List.mem_map.2 ⟨q, List.mem_filter.2 ⟨hq, by simp⟩, rfl⟩
    rw [← h1] at this
    simp at this
  refine (sel_perm _ hn _ hk).symm.trans (List.Perm.of_eq ?_)
  rw [List.flatMap_map]
  refine List.flatMap_congr ?_
  intro p hp
  rw [← polyDict_flat ops t depth p.1 c h]
  have : (c.polyDict ops t depth).lookup p.1 = some p.2 := by
    have aux : ∀ (d : List (SpecKey × List (Pgon K))), (d.map Prod.fst).Nodup → p ∈ d →
        d.lookup p.1 = some p.2 := by
      intro d
      induction d with
      | nil => intro _ h; simp at h
      | cons q d ih =>
        intro hn hp
        obtain ⟨k, v⟩ := q
        rw [List.map_cons, List.nodup_cons] at hn
        rw [lookup_cons_ite]
        rcases List.mem_cons.1 hp with rfl | hp'
        · simp
        · rw [if_neg, ih hn.2 hp']
          intro he
          exact hn.1 (List.mem_map.2 ⟨p, hp', he⟩)
    exact aux _ hn hp
  rw [this]
  rfl

/-- **C30.** Without a limit of depth, the queries return exactly the polygons of the elements of the
hierarchy, each mapped by all the placements of the references above it. -/
theorem C30_flat_is_complete (ops : PathOps K P) (t : Trig K) (depth : Option Int) (c : HCell K P) :
    (c.polys ops t depth).Perm ((flat ops t depth c).map Prod.snd) :=
  polys_flat ops t depth c

/-- All hypotheses hold for a hierarchy with a path, an array, a reference, a name and two layers. -/
example : AllCell Aligned NoZeroMag sampleTop := by
  simp [sampleTop, sampleMid, sampleLeaf, AllCell, AllRefs, Aligned, NoZeroMag, sampleArray, sampleRef]

example : (sampleTop.polys (idealOps ratTrig) ratTrig none).length = 11 ∧
    (sampleTop.polysOf (idealOps ratTrig) ratTrig none 1 0).length = 6 := by decide +kernel

/-- **C30.** With an array of magnification 0 the claim fails: the dictionary ignores the
magnification and the list does not. -/
theorem C30_zero_magnification : ∃ (c : HCell ℚ IdealPath),
    ((c.polyDict (idealOps ratTrig) ratTrig none).lookup (.ld 1 0)).getD []
      ≠ c.polysOf (idealOps ratTrig) ratTrig none 1 0 := by
  refine ⟨.mk [] [] [] [] (.cell ⟨none, none, some 0, none, some (1, 1, (0, 0))⟩ sampleLeaf .nil), ?_⟩
  decide +kernel

/-! ### C31 -/

mutual
theorem polys_none (ops : PathOps K P) (t : Trig K) : (c : HCell K P) →
    c.polys ops t none = c.flatPolys ops t
  | .mk name polys paths labels refs => by
    rw [HCell.polys, HCell.flatPolys, if_neg (by simp [below])]
    exact congrArg₂ List.append rfl (polysRefs_none ops t refs)

theorem polysRefs_none (ops : PathOps K P) (t : Trig K) : (c : HRefs K P) →
    c.polys ops t none = c.flatPolys ops t
  | .nil => by rw [HRefs.polys, HRefs.flatPolys]
  | .cell r c rest => by
    rw [HRefs.polys, HRefs.flatPolys, polys_none ops t c, polysRefs_none ops t rest]
  | .name _ _ rest => by rw [HRefs.polys, HRefs.flatPolys, polysRefs_none ops t rest]
end

mutual
theorem deep_enough (ops : PathOps K P) (t : Trig K) (d : Int) : (c : HCell K P) →
    (height c : Int) ≤ d → c.polys ops t (some d) = c.polys ops t none ∧
      c.polyDict ops t (some d) = c.polyDict ops t none ∧
      ∀ l dt, c.polysOf ops t (some d) l dt = c.polysOf ops t none l dt
  | .mk name polys paths labels refs, h => by
    have hb : ¬ below (some d) = true := by
      simp only [below, Option.any_some, decide_eq_true_eq]
      omega
    have hb' : ¬ below none = true := by simp [below]
    rw [height] at h
    obtain ⟨h1, h2, h3⟩ := deep_enoughRefs ops t (d - 1) refs (by omega)
    refine ⟨?_, ?_, ?_⟩
    · rw [HCell.polys, HCell.polys, if_neg hb, if_neg hb']
      exact congrArg₂ List.append rfl h1
    · rw [HCell.polyDict, HCell.polyDict, if_neg hb, if_neg hb']
      exact h2 _
    · intro l dt
      rw [HCell.polysOf, HCell.polysOf, if_neg hb, if_neg hb']
      exact congrArg₂ List.append rfl (h3 l dt)

theorem deep_enoughRefs (ops : PathOps K P) (t : Trig K) (d : Int) : (c : HRefs K P) →
    (heightRefs c : Int) ≤ d + 1 → c.polys ops t (some d) = c.polys ops t none ∧
      (∀ e, c.polyDict ops t (some d) e = c.polyDict ops t none e) ∧
      ∀ l dt, c.polysOf ops t (some d) l dt = c.polysOf ops t none l dt
  | .nil, _ => ⟨by rw [HRefs.polys, HRefs.polys], fun e => by rw [HRefs.polyDict, HRefs.polyDict],
      fun l dt => by rw [HRefs.polysOf, HRefs.polysOf]⟩
  | .cell r c rest, h => by
    rw [heightRefs] at h
    obtain ⟨a1, a2, a3⟩ := deep_enough ops t d c (by omega)
    obtain ⟨b1, b2, b3⟩ := deep_enoughRefs ops t d rest (by omega)
    refine ⟨?_, ?_, ?_⟩
    · rw [HRefs.polys, HRefs.polys, a1, b1]
    · intro e
      rw [HRefs.polyDict, HRefs.polyDict, a2, b2]
    · intro l dt
      rw [HRefs.polysOf, HRefs.polysOf, a3, b3]
  | .name _ _ rest, h => by
    rw [heightRefs] at h
    obtain ⟨b1, b2, b3⟩ := deep_enoughRefs ops t d rest h
    refine ⟨?_, ?_, ?_⟩
    · rw [HRefs.polys, HRefs.polys, b1]
    · intro e
      rw [HRefs.polyDict, HRefs.polyDict, b2]
    · intro l dt
      rw [HRefs.polysOf, HRefs.polysOf, b3]
end

/-- **C31.** With a depth of at least the number of levels of references, all three forms of
`get_polygons` return the same as without a limit. -/
theorem C31_deep_enough (ops : PathOps K P) (t : Trig K) (d : Int) (c : HCell K P)
    (h : (height c : Int) ≤ d) :
    c.polys ops t (some d) = c.polys ops t none ∧
      c.polyDict ops t (some d) = c.polyDict ops t none ∧
      ∀ l dt, c.polysOf ops t (some d) l dt = c.polysOf ops t none l dt :=
  deep_enough ops t d c h

mutual
theorem cut_polys (ops : PathOps K P) (t : Trig K) (d : Nat) : (c : HCell K P) →
    c.polys ops t (some d) = (cut ops t d c).polys ops t none
  | .mk name polys paths labels refs => by
    have hb : ¬ below (some (d : Int)) = true := by
      simp only [below, Option.any_some, decide_eq_true_eq]
      omega
    rw [HCell.polys, cut, HCell.polys, if_neg hb, if_neg (by simp [below])]
    exact congrArg₂ List.append rfl (cutRefs_polys ops t d refs)

theorem cutRefs_polys (ops : PathOps K P) (t : Trig K) (d : Nat) : (c : HRefs K P) →
    c.polys ops t (nextDepth (some (d : Int))) = (cutRefs ops t d c).polys ops t none
  | .nil => by rw [cutRefs, HRefs.polys, HRefs.polys]
  | .cell r c rest => by
    unfold cutRefs
    rw [HRefs.polys, HRefs.polys, cutRefs_polys ops t d rest]
    refine congrArg₂ List.append (congrArg _ ?_) rfl
    cases d with
    | zero =>
      simp only
      cases c with
      | mk name polys paths labels refs =>
        have hb : below (nextDepth (some ((0 : Nat) : Int))) = true := by decide
        rw [HCell.polys, if_pos hb, leaf, HCell.polys, if_neg (by simp [below])]
        cases (HCell.mk name polys paths labels refs).bbox ops t <;> simp [HRefs.polys]
    | succ d =>
      have : nextDepth (some ((d + 1 : Nat) : Int)) = some (d : Int) := by
        simp [nextDepth]
      rw [this]
      exact cut_polys ops t d c
  | .name _ _ rest => by
    rw [cutRefs, HRefs.polys, HRefs.polys, cutRefs_polys ops t d rest]
end

/-- **C31.** With depth `d ≥ 0`, the result is what `get_polygons()` gives for the hierarchy in which
every cell more than `d` references below has been replaced by the rectangle of its bounding box
(by nothing if it is empty). -/
theorem C31_cut (ops : PathOps K P) (t : Trig K) (d : Nat) (c : HCell K P) :
    c.polys ops t (some d) = (cut ops t d c).polys ops t none :=
  cut_polys ops t d c

/-- **C31.** With a negative depth only the rectangle of the bounding box is returned. -/
theorem C31_negative (ops : PathOps K P) (t : Trig K) (d : Int) (hd : d < 0) (c : HCell K P) :
    c.polys ops t (some d) = ((c.bbox ops t).map boxRect).toList ∧
    c.polyDict ops t (some d) = ((c.bbox ops t).map fun b => (SpecKey.cell c.name, [boxRect b])).toList ∧
    ∀ l dt, c.polysOf ops t (some d) l dt = [] := by
  cases c with
  | mk name polys paths labels refs =>
    have hb : below (some d) = true := by simp [below, hd]
    refine ⟨?_, ?_, ?_⟩
    · rw [HCell.polys, if_pos hb]
      cases (HCell.mk name polys paths labels refs).bbox ops t <;> rfl
    · rw [HCell.polyDict, if_pos hb]
      cases (HCell.mk name polys paths labels refs).bbox ops t <;> rfl
    · intro l dt
      rw [HCell.polysOf, if_pos hb]

example : height sampleTop = 2 ∧ (sampleTop.polys (idealOps ratTrig) ratTrig (some 0)).length = 4 ∧
    (sampleTop.polys (idealOps ratTrig) ratTrig (some 1)).length = 11 := by decide +kernel

/-! ### C40 -/

/-- **C40.** An array yields, in the order of the columns and rows, the polygons of the references
that have its attributes and are placed at the points of the reflected and rotated lattice. -/
theorem C40_array_is_grid (t : Trig K) (r : RefData K) (cols rows : Nat) (s : Pt K)
    (ha : r.array = some (cols, rows, s)) (l : List (Pgon K)) :
    transformPolys t r l = (List.range cols).flatMap fun i => (List.range rows).flatMap fun j =>
      transformPolys t (gridRef t r s i j) l := by
  rw [transformPolys_eq]
  unfold placements
  rw [ha]
  simp only [List.flatMap_assoc, List.flatMap_map]
  refine List.flatMap_congr ?_
  intro i _
  refine List.flatMap_congr ?_
  intro j _
  rw [transformPolys_eq]
  unfold placements gridRef
  simp only [List.flatMap_cons, List.flatMap_nil, List.append_nil]
  refine List.map_congr_left ?_
  intro p _
  refine List.map_congr_left ?_
  intro q _
  simp only [Aff_app_comp, app_shift, Aff_app_opt]
  rw [onSome_congr (o := r.magnification) (g := scalePt) q (fun a => app_scale _ _)]
  generalize onSome r.magnification scalePt q = z
  simp only [app_mirror, app_place, onSome]
  generalize (s.1 * (i : K), s.2 * (j : K)) = v
  cases r.origin <;> cases r.rotation <;>
    (simp only; split <;> simp only [addPt, rotPt, xreflPt, Prod.mk.injEq] <;>
      constructor <;> ring)

/-- **C40.** The same for the entries of the dictionary, when the magnification is not 0. -/
theorem C40_array_is_grid_by_spec (t : Trig K) (r : RefData K) (cols rows : Nat) (s : Pt K)
    (ha : r.array = some (cols, rows, s)) (hm : r.magnification ≠ some 0) (l : List (Pgon K)) :
    transformDictVal t r l = (List.range cols).flatMap fun i => (List.range rows).flatMap fun j =>
      transformDictVal t (gridRef t r s i j) l := by
  rw [transformDictVal_eq t r (Or.inr hm), C40_array_is_grid t r cols rows s ha]
  refine List.flatMap_congr ?_
  intro i _
  refine List.flatMap_congr ?_
  intro j _
  rw [transformDictVal_eq _ _ (Or.inl rfl)]

/-- **C40.** With a magnification of 0 the dictionary form differs from the list form. -/
theorem C40_zero_magnification : ∃ (r : RefData ℚ) (l : List (Pgon ℚ)),
    transformDictVal ratTrig r l ≠ transformPolys ratTrig r l :=
  ⟨⟨none, none, some 0, none, some (1, 1, (0, 0))⟩, [[(1, 1)]], by decide +kernel⟩

example : (transformPolys ratTrig sampleArray [[(1, 0), (2, 0)]])
    = [[(10, 22), (10, 24)], [(16, 22), (16, 24)], [(10, 27), (10, 29)], [(16, 27), (16, 29)]] := by
  norm_num [transformPolys, sampleArray, lattice, arrPt, onSome, addPt, scalePt, xreflPt, rotPt, ratTrig,
    List.range, List.range.loop]

end Gdspy
