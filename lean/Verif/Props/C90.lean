import Verif.Model.Arrays
import Verif.Lemmas.Hier

/-!
# C90: the arrays returned by `get_polygons` and those of the cell
-/

namespace Gdspy

variable {K : Type}

/-! ### Specification -/

mutual
/-- The arrays in which a cell and the cells below keep their geometry. -/
def Spec.ACell.addrs : ACell K → List AId
  | .mk _ polys paths refs => polys.flatMap ASet.polygons ++ (paths.flatMap fun p => p.flatMap Prod.snd) ++ Spec.ARefs.addrs refs

def Spec.ARefs.addrs : ARefs K → List AId
  | .nil => []
  | .cell _ c rest => Spec.ACell.addrs c ++ Spec.ARefs.addrs rest
  | .name _ _ rest => Spec.ARefs.addrs rest
end

mutual
/-- The arrays of the paths of a cell, and of the cells below that are only reached through plain references that have
neither origin nor transformation. -/
def Spec.ACell.exposed : ACell K → List AId
  | .mk _ _ paths refs => (paths.flatMap fun p => p.flatMap Prod.snd) ++ Spec.ARefs.exposed refs

def Spec.ARefs.exposed : ARefs K → List AId
  | .nil => []
  | .cell r c rest =>
    (if r.array = none ∧ r.origin = none ∧ r.rotation = none ∧ r.magnification = none ∧ r.xrefl ≠ some true then Spec.ACell.exposed c else [])
      ++ Spec.ARefs.exposed rest
  | .name _ _ rest => Spec.ARefs.exposed rest
end

mutual
/-- The caches of the paths are dictionaries: no key occurs twice. -/
def Spec.ACell.Dicts : ACell K → Prop
  | .mk _ _ paths refs => (∀ p ∈ paths, (p.map Prod.fst).Nodup) ∧ Spec.ARefs.Dicts refs

def Spec.ARefs.Dicts : ARefs K → Prop
  | .nil => True
  | .cell _ c rest => Spec.ACell.Dicts c ∧ Spec.ARefs.Dicts rest
  | .name _ _ rest => Spec.ARefs.Dicts rest
end

/-- The arrays exist. -/
def Spec.InHeap (ids : List AId) (h : AHeap K) : Prop := ∀ a ∈ ids, a < h.length

/-! ### Heaps -/

theorem AHeap.look_append {h l : AHeap K} {a : AId} (ha : a < h.length) : AHeap.look (h ++ l) a = h.look a := by
  rw [AHeap.look, AHeap.look, List.getElem?_append_left ha]

theorem AHeap.look_prefix {h h' : AHeap K} (hp : h <+: h') {a : AId} (ha : a < h.length) : AHeap.look h' a = h.look a := by
  obtain ⟨l, rfl⟩ := hp
  exact look_append ha

theorem Spec.InHeap.mono {ids : List AId} {h h' : AHeap K} (hi : Spec.InHeap ids h) (hp : h <+: h') : Spec.InHeap ids h' :=
  fun a ha => Nat.lt_of_lt_of_le (hi a ha) hp.length_le

theorem Spec.InHeap.map_look {ids : List AId} {h h' : AHeap K} (hi : Spec.InHeap ids h) (hp : h <+: h') :
    ids.map (AHeap.look h') = ids.map h.look :=
  List.map_congr_left fun _ ha => AHeap.look_prefix hp (hi _ ha)

theorem allocAll_prefix (l : List (Pgon K)) (h : AHeap K) : h <+: (allocAll l h).2 := List.prefix_append _ _

theorem allocAll_values (l : List (Pgon K)) (h : AHeap K) : (allocAll l h).1.map (allocAll l h).2.look = l := by
  apply List.ext_getElem
  · simp [allocAll]
  · intro i h1 h2
    simp [allocAll, AHeap.look, h2]

theorem allocAll_new {l : List (Pgon K)} {h : AHeap K} {a : AId} (ha : a ∈ (allocAll l h).1) :
    h.length ≤ a ∧ a < (allocAll l h).2.length := by
  simp only [allocAll, List.mem_range'_1, List.length_append] at ha ⊢
  exact ha

variable [Field K]

/-- What is known about a list of arrays that a query returns. -/
structure Spec.Returned (h : AHeap K) (old : List AId) (vals : List (Pgon K)) (r : List AId × AHeap K) : Prop where
  keeps : h <+: r.2
  inHeap : Spec.InHeap r.1 r.2
  values : r.1.map (AHeap.look r.2) = vals
  fresh : ∀ a ∈ r.1, h.length ≤ a ∨ a ∈ old
  given : ∀ a ∈ old, a ∈ r.1

omit [Field K] in
theorem returned_alloc (l : List (Pgon K)) (h : AHeap K) : Spec.Returned h [] l (allocAll l h) :=
  ⟨allocAll_prefix l h, fun _ ha => (allocAll_new ha).2, allocAll_values l h, fun _ ha => Or.inl (allocAll_new ha).1, by simp⟩

omit [Field K] in
/-- One query after another. -/
theorem returned_append {h : AHeap K} {o₁ o₂ : List AId} {v₁ v₂ : List (Pgon K)} {r₁ r₂ : List AId × AHeap K}
    (h₁ : Spec.Returned h o₁ v₁ r₁) (h₂ : Spec.Returned r₁.2 o₂ v₂ r₂) :
    Spec.Returned h (o₁ ++ o₂) (v₁ ++ v₂) (r₁.1 ++ r₂.1, r₂.2) := by
  refine ⟨h₁.keeps.trans h₂.keeps, ?_, ?_, ?_, ?_⟩
  · intro a ha
    rcases List.mem_append.1 ha with ha | ha
    · exact h₁.inHeap.mono h₂.keeps a ha
    · exact h₂.inHeap a ha
  · simp only [List.map_append]
    rw [h₁.inHeap.map_look h₂.keeps, h₁.values, h₂.values]
  · intro a ha
    rcases List.mem_append.1 ha with ha | ha
    · exact (h₁.fresh a ha).imp_right (List.mem_append_left _)
    · rcases h₂.fresh a ha with h' | h'
      · exact Or.inl (Nat.le_trans h₁.keeps.length_le h')
      · exact Or.inr (List.mem_append_right _ h')
  · intro a ha
    rcases List.mem_append.1 ha with ha | ha
    · exact List.mem_append_left _ (h₁.given a ha)
    · exact List.mem_append_right _ (h₂.given a ha)

omit [Field K] in
/-- Arrays that exist already. -/
theorem returned_old {h : AHeap K} {ids : List AId} (hi : Spec.InHeap ids h) :
    Spec.Returned h ids (ids.map h.look) (ids, h) :=
  ⟨List.prefix_refl _, hi, rfl, fun _ ha => Or.inr ha, fun _ ha => ha⟩

theorem returned_transform (t : Trig K) (r : RefData K) {h : AHeap K} {old : List AId} {vals : List (Pgon K)}
    {q : List AId × AHeap K} (hq : Spec.Returned h old vals q) :
    Spec.Returned h
      (if r.array = none ∧ r.origin = none ∧ r.rotation = none ∧ r.magnification = none ∧ r.xrefl ≠ some true then old else [])
      (transformPolys t r vals) (transformIds t r q.1 q.2) := by
  have hn : ∀ (l : List (Pgon K)), Spec.Returned h [] l (allocAll l q.2) := by
    intro l
    refine ⟨hq.keeps.trans (allocAll_prefix _ _), fun _ ha => (allocAll_new ha).2, allocAll_values _ _, ?_, by simp⟩
    intro a ha
    exact Or.inl (Nat.le_trans hq.keeps.length_le (allocAll_new ha).1)
  unfold transformIds transformPolys
  cases ha : r.array with
  | none =>
    by_cases ht : r.touches = true
    · have : ¬ (r.origin = none ∧ r.rotation = none ∧ r.magnification = none ∧ r.xrefl ≠ some true) := by
        rintro ⟨h1, h2, h3, h4⟩
        simp [RefData.touches, h1, h2, h3, h4] at ht
      simp only [true_and, this, if_false, ht, if_true]
      have := hn (q.1.map fun a => (q.2.look a).map (refPt t r))
      rw [← hq.values, List.map_map]
      exact this
    · have ho : r.origin = none ∧ r.rotation = none ∧ r.magnification = none ∧ r.xrefl ≠ some true := by
        simp only [RefData.touches] at ht
        simp at ht
        tauto
      have hid : refPt t r = id := by
        funext p
        simp [refPt, onSome, ho]
      have hf : r.touches = false := by simpa using ht
      rw [if_pos ⟨rfl, ho⟩]
      simp only [hf, Bool.false_eq_true, if_false, hid, List.map_id_fun, id]
      simpa using hq
  | some a =>
    obtain ⟨cols, rows, spacing⟩ := a
    simp only [reduceCtorEq, false_and, if_false]
    rw [← hq.values]
    simp only [List.map_map]
    exact hn _

/-! ### Values -/

theorem dictExtend_absent {κ α : Type} [DecidableEq κ] {k : κ} {v : List α} {d : List (κ × List α)}
    (h : k ∉ d.map Prod.fst) : dictExtend k v d = d ++ [(k, v)] := by
  induction d with
  | nil => rfl
  | cons p d ih =>
    obtain ⟨k', v'⟩ := p
    simp only [List.map_cons, List.mem_cons, not_or] at h
    rw [dictExtend, if_neg (fun e => h.1 e.symm), ih h.2, List.cons_append]

theorem foldl_dictExtend_nodup {κ α : Type} [DecidableEq κ] (l : List (κ × List α)) : ∀ (d : List (κ × List α)),
    ((d ++ l).map Prod.fst).Nodup → l.foldl (fun d e => dictExtend e.1 e.2 d) d = d ++ l := by
  induction l with
  | nil => simp
  | cons p l ih =>
    intro d hd
    have : p.1 ∉ d.map Prod.fst := by
      intro hm
      rw [List.map_append, List.nodup_append] at hd
      exact hd.2.2 _ hm _ (by simp) rfl
    rw [List.foldl_cons, dictExtend_absent this, ih]
    · simp
    · simpa using hd

omit [Field K] in
theorem fixedPaths_dict {h : AHeap K} {p : APath} (hp : (p.map Prod.fst).Nodup) :
    (fixedPaths : PathOps K _).dict (p.view h) = p.view h := by
  have := foldl_dictExtend_nodup (p.view h) [] (by simpa [APath.view, Function.comp_def] using hp)
  simpa [PathOps.dict, fixedPaths] using this

omit [Field K] in
theorem fixedPaths_polys {h : AHeap K} {p : APath} (hp : (p.map Prod.fst).Nodup) :
    (fixedPaths : PathOps K _).polys (p.view h) = p.polys.map h.look := by
  rw [PathOps.polys, fixedPaths_dict hp]
  simp [APath.view, APath.polys, List.flatMap_map, List.map_flatMap]

omit [Field K] in
theorem APath.view_congr {h h' : AHeap K} {p : APath} (hi : ∀ a ∈ p.flatMap Prod.snd, AHeap.look h' a = h.look a) :
    p.view h' = p.view h := by
  apply List.map_congr_left
  intro e he
  simp only [Prod.mk.injEq, true_and]
  exact List.map_congr_left fun a ha => hi a (List.mem_flatMap.2 ⟨e, he, ha⟩)

set_option linter.unusedSectionVars false in
mutual
/-- The value of a cell only depends on its own arrays. -/
theorem ACell.view_congr {h h' : AHeap K} : (c : ACell K) → (∀ a ∈ Spec.ACell.addrs c, AHeap.look h' a = h.look a) →
    c.view h' = c.view h
  | .mk n polys paths refs, hi => by
    simp only [Spec.ACell.addrs, List.mem_append] at hi
    rw [ACell.view, ACell.view, ARefs.view_congr refs fun a ha => hi a (Or.inr ha)]
    congr 1
    · apply List.map_congr_left
      intro s hs
      simp only [ASet.view, PolySet.mk.injEq, and_true]
      exact List.map_congr_left fun a ha => hi a (Or.inl (Or.inl (List.mem_flatMap.2 ⟨s, hs, ha⟩)))
    · apply List.map_congr_left
      intro p hp
      exact APath.view_congr fun a ha => hi a (Or.inl (Or.inr (List.mem_flatMap.2 ⟨p, hp, ha⟩)))

theorem ARefs.view_congr {h h' : AHeap K} : (c : ARefs K) → (∀ a ∈ Spec.ARefs.addrs c, AHeap.look h' a = h.look a) →
    c.view h' = c.view h
  | .nil, _ => rfl
  | .cell r c rest, hi => by
    simp only [Spec.ARefs.addrs, List.mem_append] at hi
    rw [ARefs.view, ARefs.view, ACell.view_congr c fun a ha => hi a (Or.inl ha),
      ARefs.view_congr rest fun a ha => hi a (Or.inr ha)]
  | .name r s rest, hi => by
    rw [ARefs.view, ARefs.view, ARefs.view_congr rest hi]
end

mutual
theorem ACell.polys_returned (t : Trig K) : (c : ACell K) → (h : AHeap K) → Spec.InHeap (Spec.ACell.addrs c) h →
    Spec.ACell.Dicts c → Spec.Returned h (Spec.ACell.exposed c) ((c.view h).flatPolys fixedPaths t) (c.polys t h)
  | .mk n polys paths refs, h, hi, hd => by
    simp only [Spec.ACell.addrs, Spec.InHeap, List.mem_append] at hi
    have h1 : Spec.Returned h [] ((polys.flatMap ASet.polygons).map h.look) (copyIds (polys.flatMap ASet.polygons) h) :=
      returned_alloc _ _
    have hp : Spec.InHeap (paths.flatMap APath.polys) h := fun a ha => hi a (Or.inl (Or.inr ha))
    have h2 := returned_old (hp.mono h1.keeps)
    have hr : Spec.InHeap (Spec.ARefs.addrs refs) h := fun a ha => hi a (Or.inr ha)
    have h3 := ARefs.polys_returned t refs _ (hr.mono h1.keeps) hd.2
    have := returned_append (returned_append h1 h2) h3
    rw [hp.map_look h1.keeps, ARefs.view_congr refs fun a ha => AHeap.look_prefix h1.keeps (hr a ha)] at this
    simp only [List.nil_append] at this
    have hv : ((ACell.mk n polys paths refs).view h).flatPolys fixedPaths t =
        (polys.flatMap ASet.polygons).map h.look ++ (paths.flatMap APath.polys).map h.look ++
          (refs.view h).flatPolys fixedPaths t := by
      rw [ACell.view, HCell.flatPolys]
      congr 2
      · simp [List.flatMap_map, List.map_flatMap, ASet.view]
      · rw [List.flatMap_map, List.map_flatMap]
        apply List.flatMap_congr
        intro p hpm
        exact fixedPaths_polys (hd.1 p hpm)
    rw [hv]
    exact this

theorem ARefs.polys_returned (t : Trig K) : (c : ARefs K) → (h : AHeap K) → Spec.InHeap (Spec.ARefs.addrs c) h →
    Spec.ARefs.Dicts c → Spec.Returned h (Spec.ARefs.exposed c) ((c.view h).flatPolys fixedPaths t) (c.polys t h)
  | .nil, h, _, _ => returned_old (ids := []) (by simp [Spec.InHeap])
  | .cell r c rest, h, hi, hd => by
    simp only [Spec.ARefs.addrs, Spec.InHeap, List.mem_append] at hi
    have hc : Spec.InHeap (Spec.ACell.addrs c) h := fun a ha => hi a (Or.inl ha)
    have hr : Spec.InHeap (Spec.ARefs.addrs rest) h := fun a ha => hi a (Or.inr ha)
    have h1 := returned_transform t r (ACell.polys_returned t c h hc hd.1)
    have h2 := ARefs.polys_returned t rest _ (hr.mono h1.keeps) hd.2
    rw [ARefs.view_congr rest fun a ha => AHeap.look_prefix h1.keeps (hr a ha)] at h2
    exact returned_append h1 h2
  | .name r s rest, h, hi, hd => ARefs.polys_returned t rest h hi hd
end

/-! ### One layer and datatype -/

omit [Field K] in
theorem idsOf_values {h : AHeap K} (l dt : Int) (polys : List ASet) :
    (polys.flatMap (ASet.idsOf l dt)).map h.look =
      ((((polys.map (ASet.view h)).flatMap PolySet.tagged).filter fun p => p.1.1 = l ∧ p.1.2 = dt).map Prod.snd) := by
  rw [List.flatMap_map, List.map_flatMap, List.filter_flatMap, List.map_flatMap]
  congr 1
  funext s
  simp only [ASet.idsOf, PolySet.tagged, ASet.view, List.zip_map_right, List.filter_map, List.map_map, Function.comp_def]
  rfl

omit [Field K] in
theorem polysOf_values {h : AHeap K} (l dt : Int) {p : APath} (hp : (p.map Prod.fst).Nodup) :
    ((p.lookup (l, dt)).getD []).map h.look =
      if ((fixedPaths : PathOps K _).elems (p.view h)).any (fun e => e.1 = (l, dt)) then
        (((fixedPaths : PathOps K _).dict (p.view h)).lookup (l, dt)).getD [] else [] := by
  rw [fixedPaths_dict hp]
  have hl : ∀ p : APath, (p.view h).lookup (l, dt) = (p.lookup (l, dt)).map (List.map h.look) := by
    intro p
    induction p with
    | nil => rfl
    | cons e p ih =>
      obtain ⟨k, v⟩ := e
      simp only [APath.view, List.map_cons] at ih ⊢
      rw [lookup_cons_ite, lookup_cons_ite, ih]
      split <;> rfl
  rw [hl]
  split
  · cases p.lookup (l, dt) <;> rfl
  · rename_i hn
    have : p.lookup (l, dt) = none := by
      rw [List.lookup_eq_none_iff]
      intro e he
      simp only [fixedPaths, id, List.any_eq_true, decide_eq_true_eq, not_exists, not_and] at hn
      have := hn (e.1, e.2.map h.look) (List.mem_map.2 ⟨e, he, rfl⟩)
      simpa using fun hh => this hh.symm
    rw [this]
    rfl

omit [Field K] in
theorem lookup_mem_values {p : APath} {k : Int × Int} {a : AId} (ha : a ∈ (p.lookup k).getD []) :
    a ∈ p.flatMap Prod.snd := by
  induction p with
  | nil => simp at ha
  | cons e p ih =>
    obtain ⟨j, v⟩ := e
    rw [lookup_cons_ite] at ha
    rw [List.flatMap_cons]
    split at ha
    · exact List.mem_append_left _ ha
    · exact List.mem_append_right _ (ih ha)

omit [Field K] in
theorem pathsOf_returned (l dt : Int) : (paths : List APath) → (h : AHeap K) →
    Spec.InHeap (paths.flatMap fun p => p.flatMap Prod.snd) h →
    Spec.Returned h [] (paths.flatMap fun p => ((p.lookup (l, dt)).getD []).map h.look) (pathsOf l dt paths h)
  | [], h, _ => returned_old (ids := []) (by simp [Spec.InHeap])
  | p :: ps, h, hi => by
    have h1 : Spec.Returned h [] (((p.lookup (l, dt)).getD []).map h.look) (APath.polysOf l dt p h) := returned_alloc _ _
    simp only [List.flatMap_cons, Spec.InHeap, List.mem_append] at hi
    have hr : Spec.InHeap (ps.flatMap fun p => p.flatMap Prod.snd) h := fun a ha => hi a (Or.inr ha)
    have h2 := pathsOf_returned l dt ps _ (hr.mono h1.keeps)
    have he : (ps.flatMap fun q => ((q.lookup (l, dt)).getD []).map (AHeap.look (APath.polysOf l dt p h).2)) =
        ps.flatMap fun q => ((q.lookup (l, dt)).getD []).map h.look := by
      apply List.flatMap_congr
      intro q hq
      exact Spec.InHeap.map_look (fun a ha => hr a (List.mem_flatMap.2 ⟨q, hq, lookup_mem_values ha⟩)) h1.keeps
    rw [he] at h2
    exact returned_append h1 h2

mutual
theorem ACell.polysOf_returned (t : Trig K) (l dt : Int) : (c : ACell K) → (h : AHeap K) →
    Spec.InHeap (Spec.ACell.addrs c) h → Spec.ACell.Dicts c →
    Spec.Returned h [] ((c.view h).polysOf fixedPaths t none l dt) (c.polysOf t l dt h)
  | .mk n polys paths refs, h, hi, hd => by
    simp only [Spec.ACell.addrs, Spec.InHeap, List.mem_append] at hi
    have h1 : Spec.Returned h [] ((polys.flatMap (ASet.idsOf l dt)).map h.look)
        (copyIds (polys.flatMap (ASet.idsOf l dt)) h) := returned_alloc _ _
    have hp : Spec.InHeap (paths.flatMap fun p => p.flatMap Prod.snd) h := fun a ha => hi a (Or.inl (Or.inr ha))
    have h2 := pathsOf_returned l dt paths _ (hp.mono h1.keeps)
    have hr : Spec.InHeap (Spec.ARefs.addrs refs) h := fun a ha => hi a (Or.inr ha)
    have h12 := returned_append h1 h2
    have h3 := ARefs.polysOf_returned t l dt refs _ (hr.mono h12.keeps) hd.2
    have := returned_append h12 h3
    rw [ARefs.view_congr refs fun a ha => AHeap.look_prefix h12.keeps (hr a ha)] at this
    have hv : ((ACell.mk n polys paths refs).view h).polysOf fixedPaths t none l dt =
        (polys.flatMap (ASet.idsOf l dt)).map h.look ++
          (paths.flatMap fun p => ((p.lookup (l, dt)).getD []).map
            (AHeap.look (copyIds (polys.flatMap (ASet.idsOf l dt)) h).2)) ++
          (refs.view h).polysOf fixedPaths t none l dt := by
      rw [ACell.view, HCell.polysOf]
      simp only [below, Option.any_none, Bool.false_eq_true, if_false, nextDepth, Option.map_none]
      rw [idsOf_values]
      congr 2
      rw [List.flatMap_map]
      apply List.flatMap_congr
      intro p hpm
      rw [← polysOf_values l dt (hd.1 p hpm)]
      exact (Spec.InHeap.map_look (fun a ha => hp a (List.mem_flatMap.2 ⟨p, hpm, lookup_mem_values ha⟩)) h1.keeps).symm
    rw [hv]
    exact this

theorem ARefs.polysOf_returned (t : Trig K) (l dt : Int) : (c : ARefs K) → (h : AHeap K) →
    Spec.InHeap (Spec.ARefs.addrs c) h → Spec.ARefs.Dicts c →
    Spec.Returned h [] ((c.view h).polysOf fixedPaths t none l dt) (c.polysOf t l dt h)
  | .nil, h, _, _ => returned_old (ids := []) (by simp [Spec.InHeap])
  | .cell r c rest, h, hi, hd => by
    simp only [Spec.ARefs.addrs, Spec.InHeap, List.mem_append] at hi
    have hc : Spec.InHeap (Spec.ACell.addrs c) h := fun a ha => hi a (Or.inl ha)
    have hr : Spec.InHeap (Spec.ARefs.addrs rest) h := fun a ha => hi a (Or.inr ha)
    have h1 := returned_transform t r (ACell.polysOf_returned t l dt c h hc hd.1)
    rw [ite_self] at h1
    have h2 := ARefs.polysOf_returned t l dt rest _ (hr.mono h1.keeps) hd.2
    rw [ARefs.view_congr rest fun a ha => AHeap.look_prefix h1.keeps (hr a ha)] at h2
    exact returned_append h1 h2
  | .name r s rest, h, hi, hd => ARefs.polysOf_returned t l dt rest h hi hd
end

/-! ### The property -/

/-- **C90.** `get_polygons()`: the arrays returned have the polygons of the cell (C30, C31) as contents; no array that existed
has changed. -/
theorem C90_values (t : Trig K) (c : ACell K) (h : AHeap K) (hi : Spec.InHeap (Spec.ACell.addrs c) h)
    (hd : Spec.ACell.Dicts c) :
    (c.polys t h).1.map (AHeap.look (c.polys t h).2) = (c.view h).flatPolys fixedPaths t ∧ h <+: (c.polys t h).2 :=
  ⟨(c.polys_returned t h hi hd).values, (c.polys_returned t h hi hd).keeps⟩

/-- The arrays returned that are not new are exactly those in the caches of the paths, of the cell itself and of cells below
plain references without origin and transformation. -/
theorem C90_shared (t : Trig K) (c : ACell K) (h : AHeap K) (hi : Spec.InHeap (Spec.ACell.addrs c) h)
    (hd : Spec.ACell.Dicts c) {a : AId} (ha : a < h.length) : a ∈ (c.polys t h).1 ↔ a ∈ Spec.ACell.exposed c :=
  ⟨fun h' => ((c.polys_returned t h hi hd).fresh a h').resolve_left (Nat.not_le_of_lt ha), (c.polys_returned t h hi hd).given a⟩

/-- `get_polygons((layer, datatype))`: the arrays returned have the polygons of the layer and datatype as contents (C30); all
of them are new and no array that existed has changed. -/
theorem C90_spec (t : Trig K) (l dt : Int) (c : ACell K) (h : AHeap K) (hi : Spec.InHeap (Spec.ACell.addrs c) h)
    (hd : Spec.ACell.Dicts c) :
    (c.polysOf t l dt h).1.map (AHeap.look (c.polysOf t l dt h).2) = (c.view h).polysOf fixedPaths t none l dt ∧
      h <+: (c.polysOf t l dt h).2 ∧ ∀ a ∈ (c.polysOf t l dt h).1, h.length ≤ a :=
  ⟨(c.polysOf_returned t l dt h hi hd).values, (c.polysOf_returned t l dt h hi hd).keeps, fun a ha =>
    ((c.polysOf_returned t l dt h hi hd).fresh a ha).resolve_right (by simp)⟩

omit [Field K] in
theorem writeArrs_look (a : AId) : (w : List (AId × Pgon K)) → (h : AHeap K) → (∀ e ∈ w, e.1 ≠ a) →
    AHeap.look (writeArrs w h) a = h.look a
  | [], _, _ => rfl
  | e :: w, h, hw => by
    rw [writeArrs, List.foldl_cons]
    refine (writeArrs_look a w _ fun e' he' => hw e' (List.mem_cons_of_mem _ he')).trans ?_
    rw [writeArr, AHeap.look, AHeap.look, List.getElem?_set_ne (hw e (List.mem_cons_self ..))]

/-- **C90.** Without paths (in the cell and below untransformed references), whatever is written into the arrays that
`get_polygons()` returned, every cell `d` is as before. -/
theorem C90_independent (t : Trig K) (c : ACell K) (h : AHeap K) (hi : Spec.InHeap (Spec.ACell.addrs c) h)
    (hd : Spec.ACell.Dicts c) (he : Spec.ACell.exposed c = []) (w : List (AId × Pgon K))
    (hw : ∀ e ∈ w, e.1 ∈ (c.polys t h).1) (d : ACell K) (hid : Spec.InHeap (Spec.ACell.addrs d) h) :
    d.view (writeArrs w (c.polys t h).2) = d.view h := by
  apply ACell.view_congr
  intro a ha
  have hr := c.polys_returned t h hi hd
  rw [writeArrs_look, AHeap.look_prefix hr.keeps (hid a ha)]
  intro e hem heq
  have := hr.fresh e.1 (hw e hem)
  rw [he] at this
  exact absurd (this.resolve_right (by simp)) (Nat.not_le_of_lt (heq ▸ hid a ha))

/-- The same for `get_polygons((layer, datatype))`, with paths as well. -/
theorem C90_spec_independent (t : Trig K) (l dt : Int) (c : ACell K) (h : AHeap K)
    (hi : Spec.InHeap (Spec.ACell.addrs c) h) (hd : Spec.ACell.Dicts c) (w : List (AId × Pgon K))
    (hw : ∀ e ∈ w, e.1 ∈ (c.polysOf t l dt h).1) (d : ACell K) (hid : Spec.InHeap (Spec.ACell.addrs d) h) :
    d.view (writeArrs w (c.polysOf t l dt h).2) = d.view h := by
  apply ACell.view_congr
  intro a ha
  have hr := C90_spec t l dt c h hi hd
  rw [writeArrs_look, AHeap.look_prefix hr.2.1 (hid a ha)]
  intro e hem heq
  exact absurd (hr.2.2 e.1 (hw e hem)) (Nat.not_le_of_lt (heq ▸ hid a ha))

/-- **C90 fails for paths.** Take any cell with a path, and any array of the path: `get_polygons()` returns the array itself,
and after `points[:] = v` the cell has a path with the polygon `v`. -/
theorem C90_paths_shared (t : Trig K) (n : Str) (polys : List ASet) (paths : List APath) (refs : ARefs K) (h : AHeap K)
    (hi : Spec.InHeap (Spec.ACell.addrs (.mk n polys paths refs)) h) (hd : Spec.ACell.Dicts (.mk n polys paths refs))
    (p : APath) (hp : p ∈ paths) (a : AId) (ha : a ∈ p.polys) (v : Pgon K) :
    a ∈ ((ACell.mk n polys paths refs).polys t h).1 ∧
      ∃ q ∈ ((ACell.mk n polys paths refs).view (writeArr a v ((ACell.mk n polys paths refs).polys t h).2)).paths,
        v ∈ (fixedPaths : PathOps K _).polys q := by
  have hr := (ACell.mk n polys paths refs).polys_returned t h hi hd
  have hin : a ∈ Spec.ACell.exposed (ACell.mk n polys paths refs) :=
    List.mem_append_left _ (List.mem_flatMap.2 ⟨p, hp, ha⟩)
  have hal : a < ((ACell.mk n polys paths refs).polys t h).2.length := hr.inHeap a (hr.given a hin)
  refine ⟨hr.given a hin, p.view (writeArr a v ((ACell.mk n polys paths refs).polys t h).2), ?_, ?_⟩
  · rw [ACell.view]
    exact List.mem_map.2 ⟨p, hp, rfl⟩
  · rw [fixedPaths_polys (hd.1 p hp)]
    refine List.mem_map.2 ⟨a, ha, ?_⟩
    rw [AHeap.look, writeArr, List.getElem?_set_self hal]
    rfl

/-! ### Cases -/

section Cases

/-- Angles of 0 only. -/
private def t0 : Trig ℚ := ⟨fun _ => 1, fun _ => 0, fun _ => true⟩

/-- Three arrays: a polygon of a set and two of a path. -/
private def h0 : AHeap ℚ := [[(0, 0), (1, 0), (0, 1)], [(0, 0), (2, 0), (2, 1)], [(5, 5), (6, 5), (6, 6)]]

private def low : ACell ℚ := .mk ['A'] [⟨[0], [1], [2]⟩] [[((1, 2), [1]), ((3, 4), [2])]] .nil

/-- The cell above: a reference with an origin, an array, and a reference without anything. -/
private def top : ACell ℚ := .mk ['B'] [] [] (.cell ⟨some (1, 1), none, none, none, none⟩ low
  (.cell ⟨none, none, none, none, some (2, 1, (10, 0))⟩ low (.cell ⟨none, none, none, none, none⟩ low .nil)))

example : Spec.InHeap (Spec.ACell.addrs low) h0 ∧ Spec.ACell.Dicts low ∧ Spec.InHeap (Spec.ACell.addrs top) h0 ∧
    Spec.ACell.Dicts top := by
  refine ⟨by unfold Spec.InHeap; decide, ?_, by unfold Spec.InHeap; decide, ?_⟩ <;>
    simp [Spec.ACell.Dicts, Spec.ARefs.Dicts, low, top]

/-- The arrays: a copy, then the two arrays of the path. -/
example : (low.polys t0 h0).1 = [3, 1, 2] ∧ Spec.ACell.exposed low = [1, 2] := by decide +kernel

/-- Below references: new arrays for the first two, the arrays of the path for the last. -/
example : (top.polys t0 h0).1 = [4, 5, 6, 8, 9, 10, 11, 12, 13, 14, 1, 2] ∧ Spec.ACell.exposed top = [1, 2] := by
  decide +kernel

example : (top.polysOf t0 1 2 h0).1.length = 8 ∧ Spec.ACell.exposed top ≠ [] := by decide +kernel

/-- A cell whose paths are only below references with an origin, the default. -/
example : Spec.ACell.exposed (.mk ['C'] [⟨[0], [1], [2]⟩] [] (.cell ⟨some (0, 0), none, none, none, none⟩ low .nil)) = [] := by
  decide +kernel

/-- **C90 fails.** `for p in cell.get_polygons(): p += 1`, and the same query gives other polygons. -/
theorem C90_write_changes_cell :
    let r := low.polys t0 h0
    let h' := writeArrs (r.1.map fun a => (a, (r.2.look a).map fun q => (q.1 + 1, q.2 + 1))) r.2
    r.1.map r.2.look = [[(0, 0), (1, 0), (0, 1)], [(0, 0), (2, 0), (2, 1)], [(5, 5), (6, 5), (6, 6)]] ∧
      (low.polys t0 h').1.map (AHeap.look (low.polys t0 h').2) =
        [[(0, 0), (1, 0), (0, 1)], [(1, 1), (3, 1), (3, 2)], [(6, 6), (7, 6), (7, 7)]] := by
  decide +kernel

end Cases

end Gdspy
