import Verif.Model.Removed

/-!
# C89: what `remove_polygons` does to the elements it keeps and to other cells
-/

namespace Gdspy

variable {K P : Type}

/-! ### Specification -/

/-- A set whose items cannot be assigned to: a tuple that is not empty. -/
def Spec.SetObj.Stuck (s : SetObj K) : Prop := ∃ l, s.polygons = .tuple l ∧ l ≠ []

mutual
/-- The polygon sets of the cells below a cell: those that are reached through at least one reference, at most `depth`
levels down (`none`: all). -/
def Spec.OCell.below (depth : Option Int) : OCell K P → List (SetObj K)
  | .mk _ _ _ _ refs => if depth.all (fun d => 0 < d) then Spec.ORefs.within (depth.map fun d => d - 1) refs else []

def Spec.ORefs.within (depth : Option Int) : ORefs K P → List (SetObj K)
  | .nil => []
  | .cell _ c rest => c.polygons ++ Spec.OCell.below depth c ++ Spec.ORefs.within depth rest
  | .name _ _ rest => Spec.ORefs.within depth rest
end

mutual
/-- All references have an origin (the default is (0, 0)) and no array is empty. -/
def Spec.OCell.Proper : OCell K P → Prop
  | .mk _ _ _ _ refs => Spec.ORefs.Proper refs

def Spec.ORefs.Proper : ORefs K P → Prop
  | .nil => True
  | .cell r c rest => (r.origin.isSome ∧ ∀ a, r.array = some a → a.1 ≠ 0 ∧ a.2.1 ≠ 0) ∧ Spec.OCell.Proper c ∧
      Spec.ORefs.Proper rest
  | .name _ _ rest => Spec.ORefs.Proper rest
end

/-! ### The elements that stay -/

/-- **C89.** What `remove_polygons` leaves is what C38 says, up to the kind of the sequences: the same cell as in the model
with lists. -/
theorem C89_removed_view [DecidableEq K] (test : Pgon K → Int → Int → Bool) (c : OCell K P) :
    (c.removePolygons test).view = c.view.removePolygons test := by
  obtain ⟨n, polys, paths, labels, refs⟩ := c
  simp only [OCell.removePolygons, OCell.view, HCell.removePolygons, HCell.name, HCell.polygons, HCell.paths, HCell.labels,
    HCell.references]
  congr 1
  induction polys with
  | nil => rfl
  | cons s l ih =>
    simp only [List.filterMap_cons, List.map_cons]
    by_cases h : s.kept test = []
    · have h' : (s.view.polygons.zip (s.view.layers.zip s.view.datatypes)).filter
          (fun q => !test q.1 q.2.1 q.2.2) = [] := h
      simp only [h, h', if_true]
      exact ih
    · have h' : ¬ (s.view.polygons.zip (s.view.layers.zip s.view.datatypes)).filter
          (fun q => !test q.1 q.2.1 q.2.2) = [] := h
      simp only [h, h', if_false, List.map_cons]
      rw [ih]
      rfl

/-- **C89.** All elements that stay cannot be assigned to, even if nothing is removed. -/
theorem C89_removed_stuck [DecidableEq K] (test : Pgon K → Int → Int → Bool) (c : OCell K P) :
    ∀ s ∈ (c.removePolygons test).polygons, Spec.SetObj.Stuck s := by
  obtain ⟨n, polys, paths, labels, refs⟩ := c
  intro s hs
  simp only [OCell.removePolygons, OCell.polygons, List.mem_filterMap] at hs
  obtain ⟨s', _, h⟩ := hs
  split at h
  · simp at h
  · rename_i hk
    simp only [Option.some.injEq] at h
    subst h
    exact ⟨_, rfl, by simpa using hk⟩

/-! ### Shared elements -/

/-- The exact effect on the heap: an element of the cell that keeps a polygon loses the others; an element that keeps none
is not changed. -/
theorem removeLoop_eq [DecidableEq K] (test : Pgon K → Int → Int → Bool) : ∀ (ids : List Nat) (h : SetHeap K),
    (∀ i, (removeLoop test ids h).1 i = if i ∈ ids ∧ (h i).kept test ≠ [] then SetObj.ofKept ((h i).kept test) else h i) ∧
    (removeLoop test ids h).2 = ids.filter fun i => (h i).kept test ≠ [] := by
  have hidem : ∀ s : SetObj K, (SetObj.ofKept (s.kept test)).kept test = s.kept test := by
    intro s
    have hz : ∀ l : List (Pgon K × Int × Int),
        (l.map Prod.fst).zip ((l.map fun q => q.2.1).zip (l.map fun q => q.2.2)) = l := by
      intro l
      induction l with
      | nil => rfl
      | cons a l ih => simp only [List.map_cons, List.zip_cons_cons, ih]
    unfold SetObj.kept SetObj.ofKept PySeq.items
    simp only
    rw [hz, List.filter_filter]
    simp
  intro ids
  induction ids with
  | nil => intro h; exact ⟨fun i => by simp [removeLoop], rfl⟩
  | cons j ids ih =>
    intro h
    by_cases hj : (h j).kept test = []
    · rw [removeLoop]
      simp only [hj, if_true]
      obtain ⟨h1, h2⟩ := ih h
      refine ⟨fun i => ?_, ?_⟩
      · rw [h1 i]
        by_cases hij : i = j
        · subst hij; simp [hj]
        · simp [hij]
      · rw [h2, List.filter_cons]
        simp [hj]
    · rw [removeLoop]
      simp only [hj, if_false]
      obtain ⟨h1, h2⟩ := ih (Function.update h j (SetObj.ofKept ((h j).kept test)))
      refine ⟨fun i => ?_, ?_⟩
      · rw [h1 i]
        by_cases hij : i = j
        · subst hij
          simp [hj, hidem]
        · simp [hij]
      · rw [h2, List.filter_cons]
        simp only [hj, ne_eq, not_false_eq_true, decide_true, if_true, List.cons.injEq, true_and]
        apply List.filter_congr
        intro i _
        by_cases hij : i = j
        · subst hij; simp [hidem]
        · simp [hij]

/-- **C89.** A cell that shares no element with the cell is not changed by `remove_polygons`. -/
theorem C89_unshared [DecidableEq K] (test : Pgon K → Int → Int → Bool) (ids other : List Nat) (h : SetHeap K)
    (hd : ∀ i ∈ other, i ∉ ids) : other.map (removeLoop test ids h).1 = other.map h := by
  apply List.map_congr_left
  intro i hi
  rw [(removeLoop_eq test ids h).1 i, if_neg fun hc => hd i hi hc.1]

/-- **C89.** What a shallow copy (`Cell.copy(deep_copy=False)`), or any other cell with the same elements, has after
`remove_polygons` on the cell: elements of which a polygon stays lose the removed polygons in both cells; elements of
which none stays are whole in the other cell. -/
theorem C89_shared [DecidableEq K] (test : Pgon K → Int → Int → Bool) (ids : List Nat) (h : SetHeap K) :
    (shallowCopy ids).map (removeLoop test ids h).1 =
      ids.map fun i => if (h i).kept test = [] then h i else SetObj.ofKept ((h i).kept test) := by
  apply List.map_congr_left
  intro i hi
  rw [(removeLoop_eq test ids h).1 i]
  by_cases hk : (h i).kept test = []
  · simp [hk]
  · rw [if_pos ⟨hi, hk⟩, if_neg hk]

/-- **C89, violated.** Removing layer 1 from a shallow copy changes the original, and not even consistently: of two
polygons in layer 1 one disappears from the original and one stays. -/
theorem C89_shared_changed : ∃ (h : SetHeap ℚ) (ids : List Nat),
    let after := (removeLoop (fun _ l _ => l = 1) (shallowCopy ids) h).1
    (ids.map fun i => (h i).view.layers) = [[1, 2], [1]] ∧ (ids.map fun i => (after i).view.layers) = [[2], [1]] := by
  refine ⟨fun i => if i = 0 then SetObj.ofPolySet ⟨[[(0, 0), (1, 0), (0, 1)], [(2, 2), (3, 2), (2, 3)]], [1, 2], [0, 0]⟩
    else SetObj.ofPolySet ⟨[[(5, 5), (6, 5), (5, 6)]], [1], [0]⟩, [0, 1], ?_⟩
  decide +kernel

/-! ### Methods of the elements -/

section Methods

variable [Field K]

/-- **C89.** `translate`, `rotate`, `scale` and `mirror` do the same to tuples as to lists, and make a list of `polygons`
(but not of the layers and datatypes). -/
theorem C89_moves (s : SetObj K) (t : Trig K) (dx dy a sx : K) (sy : Option K) (c p q : Pt K) :
    ((s.translate dx dy).view = s.view.translate dx dy ∧ ¬ Spec.SetObj.Stuck (s.translate dx dy)) ∧
    ((s.rotate t a c).view = s.view.rotate t a c ∧ ¬ Spec.SetObj.Stuck (s.rotate t a c)) ∧
    ((s.scale sx sy c).view = s.view.scale sx sy c ∧ ¬ Spec.SetObj.Stuck (s.scale sx sy c)) ∧
    ((s.mirror p q).view = s.view.mirror p q ∧ ¬ Spec.SetObj.Stuck (s.mirror p q)) := by
  refine ⟨⟨rfl, ?_⟩, ⟨rfl, ?_⟩, ⟨rfl, ?_⟩, ⟨rfl, ?_⟩⟩ <;> (rintro ⟨l, h, _⟩; simp [SetObj.translate, SetObj.rotate,
    SetObj.scale, SetObj.mirror] at h)

omit [Field K] in
theorem assignLoop_list (f : Pgon K → Pgon K) : ∀ (n : Nat) (pre l : List (Pgon K)), l.length = n →
    assignLoop f n pre.length (.list (pre ++ l)) = .ok (.list (pre ++ l.map f)) := by
  intro n
  induction n with
  | zero =>
    intro pre l hl
    rw [List.length_eq_zero_iff.1 hl]
    rfl
  | succ n ih =>
    intro pre l hl
    obtain ⟨p, l, rfl⟩ : ∃ p l', l = p :: l' := by cases l with | nil => simp at hl | cons p l => exact ⟨p, l, rfl⟩
    rw [assignLoop]
    simp only [PySeq.items, List.getElem?_append_right le_rfl, Nat.sub_self, List.getElem?_cons_zero]
    simp only [PySeq.setItem]
    rw [if_pos (by simp)]
    have hset : (pre ++ p :: l).set pre.length (f p) = (pre ++ [f p]) ++ l := by simp
    have := ih (pre ++ [f p]) l (by simpa using hl)
    simp only [List.length_append, List.length_cons, List.length_nil, zero_add] at this
    rw [show (do let s ← (Except.ok (PySeq.list ((pre ++ p :: l).set pre.length (f p))) : Py _); assignLoop f n (pre.length + 1) s)
      = assignLoop f n (pre.length + 1) (.list ((pre ++ p :: l).set pre.length (f p))) from rfl, hset, this]
    simp

omit [Field K] in
/-- What the loop of a reference does to a set. -/
theorem assign_stuck (f : Pt K → Pt K) {s : SetObj K} (h : Spec.SetObj.Stuck s) : s.assign f = .error .typeError := by
  obtain ⟨l, hl, hne⟩ := h
  obtain ⟨p, l, rfl⟩ : ∃ p l', l = p :: l' := by cases l with | nil => exact absurd rfl hne | cons p l => exact ⟨p, l, rfl⟩
  unfold SetObj.assign
  rw [hl]
  rfl

omit [Field K] in
theorem assign_free (f : Pt K → Pt K) {s : SetObj K} (h : ¬ Spec.SetObj.Stuck s) :
    ∃ s', s.assign f = .ok s' ∧ s'.view = s.view.mapPts f ∧ ¬ Spec.SetObj.Stuck s' := by
  obtain ⟨ps, ls, ds⟩ := s
  cases ps with
  | list l =>
    refine ⟨⟨.list (l.map (List.map f)), ls, ds⟩, ?_, rfl, by rintro ⟨_, h, _⟩; simp at h⟩
    unfold SetObj.assign
    have := assignLoop_list (List.map f) l.length [] l rfl
    simp only [List.length_nil, List.nil_append] at this
    simp only [PySeq.items]
    rw [this]
    rfl
  | tuple l =>
    cases l with
    | nil => exact ⟨⟨.tuple [], ls, ds⟩, rfl, rfl, by rintro ⟨_, h, hn⟩; simp at h; exact hn h⟩
    | cons p l => exact absurd ⟨_, rfl, by simp⟩ h

/-! ### References -/

omit [Field K] in
theorem mapM_assign_free (f : Pt K → Pt K) : ∀ (l : List (SetObj K)), (∀ s ∈ l, ¬ Spec.SetObj.Stuck s) →
    ∃ l', l.mapM (SetObj.assign f) = .ok l' ∧ l'.map SetObj.view = (l.map SetObj.view).map (PolySet.mapPts f) ∧
      ∀ s ∈ l', ¬ Spec.SetObj.Stuck s := by
  intro l
  induction l with
  | nil => intro _; exact ⟨[], rfl, rfl, by simp⟩
  | cons s l ih =>
    intro h
    obtain ⟨s', e1, v1, n1⟩ := assign_free f (h s (by simp))
    obtain ⟨l', e2, v2, n2⟩ := ih fun x hx => h x (by simp [hx])
    refine ⟨s' :: l', ?_, by simp [v1, v2], by simpa using ⟨n1, n2⟩⟩
    rw [List.mapM_cons, e1, e2]
    rfl

omit [Field K] in
theorem mapM_assign_error (f : Pt K → Pt K) (l : List (SetObj K)) :
    (∃ l', l.mapM (SetObj.assign f) = .ok l' ∧ ∀ s ∈ l, ¬ Spec.SetObj.Stuck s) ∨
    l.mapM (SetObj.assign f) = .error .typeError := by
  induction l with
  | nil => exact .inl ⟨[], rfl, by simp⟩
  | cons s l ih =>
    by_cases hs : Spec.SetObj.Stuck s
    · right
      rw [List.mapM_cons, assign_stuck f hs]
      rfl
    · obtain ⟨s', e1, -, -⟩ := assign_free f hs
      rcases ih with ⟨l', e2, h2⟩ | e2
      · exact .inl ⟨s' :: l', by rw [List.mapM_cons, e1, e2]; rfl, by simpa using ⟨hs, h2⟩⟩
      · right
        rw [List.mapM_cons, e1, e2]
        rfl

/-- The polygon sets of one reference. -/
theorem refSets_free (t : Trig K) (r : RefData K) (l : List (SetObj K)) (h : ∀ s ∈ l, ¬ Spec.SetObj.Stuck s) :
    ∃ l', refSets t r l = .ok l' ∧ (∀ s ∈ l', ¬ Spec.SetObj.Stuck s) ∧ l'.map SetObj.view =
      match r.array with
      | none => (l.map SetObj.view).map (PolySet.mapPts (refPt t r))
      | some (cols, rows, spacing) => (lattice cols rows spacing).flatMap fun spc =>
          (l.map SetObj.view).map (PolySet.mapPts (arrPt t r spc)) := by
  unfold refSets
  cases ha : r.array with
  | none =>
    simp only
    by_cases ht : r.touches
    · rw [if_pos ht]
      obtain ⟨l', e, v, n⟩ := mapM_assign_free (refPt t r) l h
      exact ⟨l', e, n, v⟩
    · rw [if_neg ht]
      refine ⟨l, rfl, h, ?_⟩
      have hid : refPt t r = id := by
        funext p
        simp only [RefData.touches, Bool.not_eq_true, Bool.or_eq_false_iff, decide_eq_false_iff_not, Option.isSome_eq_false_iff,
          Option.isNone_iff_eq_none] at ht
        obtain ⟨⟨⟨h1, h2⟩, h3⟩, h4⟩ := ht
        simp [refPt, h1, h2, h3, h4, onSome]
      rw [hid]
      simp [PolySet.mapPts]
  | some a =>
    obtain ⟨cols, rows, spacing⟩ := a
    simp only
    generalize lattice cols rows spacing = lat
    induction lat with
    | nil => exact ⟨[], rfl, by simp, rfl⟩
    | cons spc lat ih =>
      obtain ⟨l1, e1, v1, n1⟩ := mapM_assign_free (arrPt t r spc) l h
      obtain ⟨l2, e2, n2, v2⟩ := ih
      cases hm : lat.mapM fun spc => l.mapM (SetObj.assign (arrPt t r spc)) with
      | error e => rw [hm] at e2; simp [bind, Except.bind] at e2
      | ok m =>
        rw [hm] at e2
        have e2' : m.flatten = l2 := by simpa [bind, Except.bind] using e2
        refine ⟨l1 ++ l2, ?_, ?_, ?_⟩
        · rw [List.mapM_cons, e1, hm, ← e2']
          rfl
        · intro s hs
          rcases List.mem_append.1 hs with hs | hs
          · exact n1 s hs
          · exact n2 s hs
        · rw [List.map_append, v1, v2, List.flatMap_cons]

theorem refSets_error (t : Trig K) (r : RefData K) (l : List (SetObj K)) (ho : r.origin.isSome)
    (ha : ∀ a, r.array = some a → a.1 ≠ 0 ∧ a.2.1 ≠ 0) :
    (∃ l', refSets t r l = .ok l' ∧ ∀ s ∈ l, ¬ Spec.SetObj.Stuck s) ∨ refSets t r l = .error .typeError := by
  unfold refSets
  cases hr : r.array with
  | none =>
    simp only
    rw [if_pos (by simp [RefData.touches, ho])]
    exact mapM_assign_error _ l
  | some a =>
    obtain ⟨cols, rows, spacing⟩ := a
    obtain ⟨h1, h2⟩ := ha _ hr
    simp only
    have hne : lattice cols rows spacing ≠ [] := by
      obtain ⟨c, rfl⟩ : ∃ c, cols = c + 1 := ⟨cols - 1, by simp only at h1; omega⟩
      obtain ⟨q, rfl⟩ : ∃ q, rows = q + 1 := ⟨rows - 1, by simp only at h2; omega⟩
      simp [lattice, List.range_succ]
    obtain ⟨spc, lat, hl⟩ := List.exists_cons_of_ne_nil hne
    rw [hl]
    by_cases hs : ∀ s ∈ l, ¬ Spec.SetObj.Stuck s
    · left
      have hall : ∀ lat : List (Pt K), ∃ m, (lat.mapM fun spc => l.mapM (SetObj.assign (arrPt t r spc))) = .ok m := by
        intro lat
        induction lat with
        | nil => exact ⟨[], rfl⟩
        | cons spc lat ih =>
          obtain ⟨l1, e1, -, -⟩ := mapM_assign_free (arrPt t r spc) l hs
          obtain ⟨m, hm⟩ := ih
          exact ⟨l1 :: m, by rw [List.mapM_cons, e1, hm]; rfl⟩
      obtain ⟨m, hm⟩ := hall (spc :: lat)
      exact ⟨m.flatten, by rw [hm]; rfl, hs⟩
    · right
      rcases mapM_assign_error (arrPt t r spc) l with ⟨_, _, h⟩ | e
      · exact absurd h hs
      · rw [List.mapM_cons, e]
        rfl

/-! ### Hierarchies -/

mutual
theorem ocell_polysets_free (t : Trig K) (depth : Option Int) : ∀ c : OCell K P,
    (∀ s ∈ Spec.OCell.below depth c, ¬ Spec.SetObj.Stuck s) →
    ∃ l, c.polysets t depth = .ok (c.polygons ++ l) ∧ (∀ s ∈ l, ¬ Spec.SetObj.Stuck s) ∧
      (c.polygons ++ l).map SetObj.view = c.view.polysets t depth
  | .mk n polys paths labels refs => by
    intro h
    rw [Spec.OCell.below] at h
    rw [OCell.polysets, OCell.view, HCell.polysets]
    simp only [OCell.polygons]
    unfold descends nextDepth
    split
    · rename_i hd
      rw [if_pos hd] at h
      obtain ⟨l, e, n1, v⟩ := orefs_polysets_free t _ refs h
      refine ⟨l, by rw [e]; rfl, n1, ?_⟩
      rw [List.map_append, v]
    · exact ⟨[], by simp, by simp, by simp⟩

theorem orefs_polysets_free (t : Trig K) (depth : Option Int) : ∀ refs : ORefs K P,
    (∀ s ∈ Spec.ORefs.within depth refs, ¬ Spec.SetObj.Stuck s) →
    ∃ l, refs.polysets t depth = .ok l ∧ (∀ s ∈ l, ¬ Spec.SetObj.Stuck s) ∧ l.map SetObj.view = refs.view.polysets t depth
  | .nil => fun _ => ⟨[], rfl, by simp, rfl⟩
  | .name _ _ rest => by
    intro h
    rw [Spec.ORefs.within] at h
    obtain ⟨l, e, n, v⟩ := orefs_polysets_free t depth rest h
    exact ⟨l, by rw [ORefs.polysets, e], n, by rw [v, ORefs.view, HRefs.polysets]⟩
  | .cell r c rest => by
    intro h
    rw [Spec.ORefs.within] at h
    obtain ⟨l1, e1, n1, v1⟩ := ocell_polysets_free t depth c fun s hs => h s (by simp [hs])
    obtain ⟨l2, e2, n2, v2⟩ := orefs_polysets_free t depth rest fun s hs => h s (by simp [hs])
    obtain ⟨l3, e3, n3, v3⟩ := refSets_free t r (c.polygons ++ l1) fun s hs => by
      rcases List.mem_append.1 hs with hs | hs
      · exact h s (by simp [hs])
      · exact n1 s hs
    refine ⟨l3 ++ l2, ?_, ?_, ?_⟩
    · rw [ORefs.polysets, e1]
      simp only [bind, Except.bind]
      rw [e3]
      simp only
      rw [e2]
    · intro s hs
      rcases List.mem_append.1 hs with hs | hs
      · exact n3 s hs
      · exact n2 s hs
    · rw [List.map_append, v3, v2, v1, ORefs.view, HRefs.polysets]
      cases r.array <;> rfl
end

mutual
theorem ocell_polysets_error (t : Trig K) (depth : Option Int) : ∀ c : OCell K P, Spec.OCell.Proper c →
    (∃ l, c.polysets t depth = .ok (c.polygons ++ l) ∧ ∀ s ∈ Spec.OCell.below depth c, ¬ Spec.SetObj.Stuck s) ∨
    c.polysets t depth = .error .typeError
  | .mk n polys paths labels refs => by
    intro h
    rw [Spec.OCell.Proper] at h
    rw [Spec.OCell.below, OCell.polysets]
    simp only [OCell.polygons]
    unfold descends nextDepth
    split
    · rcases orefs_polysets_error t (depth.map fun d => d - 1) refs h with ⟨l, e, n⟩ | e
      · exact .inl ⟨l, by rw [e]; rfl, n⟩
      · exact .inr (by rw [e]; rfl)
    · exact .inl ⟨[], by simp, by simp⟩

theorem orefs_polysets_error (t : Trig K) (depth : Option Int) : ∀ refs : ORefs K P, Spec.ORefs.Proper refs →
    (∃ l, refs.polysets t depth = .ok l ∧ ∀ s ∈ Spec.ORefs.within depth refs, ¬ Spec.SetObj.Stuck s) ∨
    refs.polysets t depth = .error .typeError
  | .nil => fun _ => .inl ⟨[], rfl, by simp [Spec.ORefs.within]⟩
  | .name _ _ rest => by
    intro h
    rw [Spec.ORefs.Proper] at h
    rw [Spec.ORefs.within, ORefs.polysets]
    exact orefs_polysets_error t depth rest h
  | .cell r c rest => by
    intro h
    rw [Spec.ORefs.Proper] at h
    obtain ⟨⟨ho, ha⟩, hc, hr⟩ := h
    rw [Spec.ORefs.within, ORefs.polysets]
    rcases ocell_polysets_error t depth c hc with ⟨l1, e1, n1⟩ | e1
    · rcases refSets_error t r (c.polygons ++ l1) ho ha with ⟨l3, e3, n3⟩ | e3
      · rcases orefs_polysets_error t depth rest hr with ⟨l2, e2, n2⟩ | e2
        · refine .inl ⟨l3 ++ l2, by rw [e1]; simp only [bind, Except.bind]; rw [e3]; simp only; rw [e2], ?_⟩
          intro s hs
          simp only [List.mem_append] at hs
          rcases hs with (hs | hs) | hs
          · exact n3 s (by simp [hs])
          · exact n1 s hs
          · exact n2 s hs
        · exact .inr (by rw [e1]; simp only [bind, Except.bind]; rw [e3]; simp only; rw [e2])
      · exact .inr (by rw [e1]; simp only [bind, Except.bind]; rw [e3])
    · exact .inr (by rw [e1]; rfl)
end

/-- **C89.** `get_polygonsets` of a cell with references: it returns what it returns with lists, unless a cell below has an
element whose items cannot be assigned to. -/
theorem C89_polysets_partial (t : Trig K) (depth : Option Int) (c : OCell K P)
    (h : ∀ s ∈ Spec.OCell.below depth c, ¬ Spec.SetObj.Stuck s) :
    ∃ l, c.polysets t depth = .ok l ∧ l.map SetObj.view = c.view.polysets t depth := by
  obtain ⟨l, e, -, v⟩ := ocell_polysets_free t depth c h
  exact ⟨_, e, v⟩

/-- **C89, violated.** If a cell below has an element that went through `remove_polygons`, `get_polygonsets` raises
TypeError. -/
theorem C89_polysets_raises (t : Trig K) (depth : Option Int) (c : OCell K P) (hp : Spec.OCell.Proper c) {s : SetObj K}
    (hs : s ∈ Spec.OCell.below depth c) (hst : Spec.SetObj.Stuck s) : c.polysets t depth = .error .typeError := by
  rcases ocell_polysets_error t depth c hp with ⟨_, _, h⟩ | h
  · exact absurd hst (h s hs)
  · exact h

/-- **C89.** `flatten` when no cell below went through `remove_polygons`: the same as with lists. -/
theorem C89_flatten_partial (ops : PathOps K P) (t : Trig K) (sl sd st : Option Int) (c : OCell K P)
    (h : ∀ s ∈ Spec.OCell.below none c, ¬ Spec.SetObj.Stuck s) :
    (c.flatten ops t sl sd st).2 = none ∧ (c.flatten ops t sl sd st).1.view = c.view.flatten ops t sl sd st := by
  obtain ⟨l, e, v⟩ := C89_polysets_partial t none c h
  obtain ⟨n, polys, paths, labels, refs⟩ := c
  rw [OCell.flatten, e]
  refine ⟨rfl, ?_⟩
  simp only [OCell.view, HCell.flatten, HCell.name, ORefs.view]
  congr 1
  rw [OCell.view] at v
  rw [← v, List.map_map, List.map_map]
  apply List.map_congr_left
  intro s _
  simp only [Function.comp, SetObj.relabel, SetObj.view, PolySet.relabel]
  congr 1
  · cases sl <;> rfl
  · cases sd <;> rfl

/-- **C89, violated.** Otherwise `flatten` raises TypeError, when it has already put the labels of all references into the
cell: they are there twice then. -/
theorem C89_flatten_raises (ops : PathOps K P) (t : Trig K) (sl sd st : Option Int) (c : OCell K P)
    (hp : Spec.OCell.Proper c) {s : SetObj K} (hs : s ∈ Spec.OCell.below none c) (hst : Spec.SetObj.Stuck s) :
    (c.flatten ops t sl sd st).2 = some .typeError ∧
    (c.flatten ops t sl sd st).1.polygons = c.polygons ∧ (c.flatten ops t sl sd st).1.references = c.references ∧
    (c.flatten ops t sl sd st).1.view.getLabels t none false =
      (c.view.getLabels t none false).map (HLabel.relabel sl sd st) ++ c.references.view.getLabels t none false := by
  have e := C89_polysets_raises t none c hp hs hst
  obtain ⟨n, polys, paths, labels, refs⟩ := c
  rw [OCell.flatten, e]
  refine ⟨rfl, rfl, rfl, ?_⟩
  simp only [OCell.references]
  rw [OCell.view, HCell.getLabels]
  rfl

/-- **C89, violated.** After `remove_polygons` on a cell in which a polygon stays, whatever the test, the cells with a
reference to it cannot be flattened. -/
theorem C89_remove_then_flatten [DecidableEq K] (ops : PathOps K P) (t : Trig K) (sl sd st : Option Int) (name : Str)
    (polys : List (SetObj K)) (paths : List P) (labels : List (HLabel K)) (r : RefData K) (c : OCell K P) (rest : ORefs K P)
    (test : Pgon K → Int → Int → Bool) (hstay : (c.removePolygons test).polygons ≠ [])
    (hp : Spec.OCell.Proper (.mk name polys paths labels (.cell r (c.removePolygons test) rest))) :
    ((OCell.mk name polys paths labels (.cell r (c.removePolygons test) rest)).flatten ops t sl sd st).2 =
      some .typeError := by
  obtain ⟨s, l, hl⟩ := List.exists_cons_of_ne_nil hstay
  refine (C89_flatten_raises ops t sl sd st _ hp (s := s) ?_ (C89_removed_stuck test c s (by rw [hl]; simp))).1
  rw [Spec.OCell.below, if_pos (by simp), Spec.ORefs.within, hl]
  simp

end Methods

/-! ### fracture and fillet -/

section Fracture

variable [Field K] [LinearOrder K]

/-- The polygons before the first long one are passed over. -/
theorem fracLoop_pass (chop : Slicer K) (m : Nat) : ∀ (k : Nat) (s : SetObj K) (ii fuel : Nat),
    ii + k ≤ s.polygons.items.length → (∀ j (hj : j < s.polygons.items.length), ii ≤ j → j < ii + k →
      (s.polygons.items[j]).length ≤ m) →
    SetObj.fracLoop chop m (fuel + k) ii s = SetObj.fracLoop chop m fuel (ii + k) s := by
  intro k
  induction k with
  | zero => intro s ii fuel _ _; rfl
  | succ k ih =>
    intro s ii fuel hl h
    rw [← Nat.add_assoc, SetObj.fracLoop]
    rw [List.getElem?_eq_getElem (by omega)]
    simp only
    rw [if_neg (by have := h ii (by omega) le_rfl (by omega); omega), ih s (ii + 1) fuel (by omega)
      fun j hj h1 h2 => h j hj (by omega) (by omega)]
    congr 1
    omega

/-- **C89.** With lists `fracture` does what the model with lists does (C44). -/
theorem C89_fracture_lists (chop : Slicer K) (fuel m : Nat) (ps : PolySet K) :
    match ps.fracture chop fuel m with
    | .ok (some ps') => (SetObj.ofPolySet ps).fracture chop fuel m = some (SetObj.ofPolySet ps', none)
    | .ok none => (SetObj.ofPolySet ps).fracture chop fuel m = none
    | .error e => ∃ s, (SetObj.ofPolySet ps).fracture chop fuel m = some (s, some e) := by
  have key : ∀ (fuel ii : Nat) (ps : PolySet K), match fracLoop chop m fuel ii ps with
      | .ok (some ps') => SetObj.fracLoop chop m fuel ii (SetObj.ofPolySet ps) = some (SetObj.ofPolySet ps', none)
      | .ok none => SetObj.fracLoop chop m fuel ii (SetObj.ofPolySet ps) = none
      | .error e => ∃ s, SetObj.fracLoop chop m fuel ii (SetObj.ofPolySet ps) = some (s, some e) := by
    intro fuel
    induction fuel with
    | zero => intro ii ps; rfl
    | succ fuel ih =>
      intro ii ps
      rw [fracLoop, fracStep, SetObj.fracLoop]
      simp only [SetObj.ofPolySet, PySeq.items]
      cases hp : ps.polygons[ii]? with
      | none => rfl
      | some p =>
        simp only
        by_cases hl : p.length > m
        · simp only [if_pos hl]
          cases hc : fracCut chop m p with
          | error e => exact ⟨_, rfl⟩
          | ok chopped =>
            simp only [PySeq.pop, pyPop, hp, bind, Except.bind]
            cases h1 : ps.layers[ii]? with
            | none => exact ⟨_, rfl⟩
            | some layer =>
              simp only
              cases h2 : ps.datatypes[ii]? with
              | none => exact ⟨_, rfl⟩
              | some datatype =>
                simp only [PySeq.extend]
                exact ih ii ⟨ps.polygons.eraseIdx ii ++ chopped.flatten, _, _⟩
        · simp only [if_neg hl]
          exact ih (ii + 1) ps
  unfold PolySet.fracture SetObj.fracture
  by_cases hm : m > 4
  · simp only [if_pos hm]
    exact key fuel 0 ps
  · simp only [if_neg hm]

/-- **C89, violated.** `fracture` of an element that went through `remove_polygons` raises AttributeError as soon as a polygon has to be cut;
the element is not changed. -/
theorem C89_fracture_raises (chop : Slicer K) (m : Nat) (hm : 4 < m) (s : SetObj K) {l : List (Pgon K)}
    (hs : s.polygons = .tuple l) (i : Nat) (hi : i < l.length) (hlong : m < l[i].length)
    (hfirst : ∀ j (hj : j < i), (l[j]).length ≤ m) {cut : List (List (Pgon K))} (hcut : fracCut chop m l[i] = .ok cut)
    (fuel : Nat) (hf : i < fuel) : s.fracture chop fuel m = some (s, some .attributeError) := by
  unfold SetObj.fracture
  rw [if_pos hm]
  obtain ⟨f, rfl⟩ : ∃ f, fuel = (f + 1) + i := ⟨fuel - i - 1, by omega⟩
  have hit : s.polygons.items = l := by rw [hs]; rfl
  rw [fracLoop_pass chop m i s 0 (f + 1) (by rw [hit]; omega) (by
    intro j hj _ h2
    have := hfirst j (by omega)
    simpa [hit] using this), Nat.zero_add, SetObj.fracLoop]
  rw [hit, List.getElem?_eq_getElem hi]
  simp only
  rw [if_pos hlong, hcut]
  simp only
  rw [hs]
  rfl

/-- **C89, violated.** After `remove_polygons` and a move (`translate`, for example) only the layers are a tuple: then
`fracture` removes the first polygon that has to be cut and raises AttributeError. The polygon is lost. -/
theorem C89_fracture_loses (chop : Slicer K) (m : Nat) (hm : 4 < m) (s : SetObj K) {l : List (Pgon K)} {ls : List Int}
    (hs : s.polygons = .list l) (hls : s.layers = .tuple ls) (i : Nat) (hi : i < l.length) (hlong : m < l[i].length)
    (hfirst : ∀ j (hj : j < i), (l[j]).length ≤ m) {cut : List (List (Pgon K))} (hcut : fracCut chop m l[i] = .ok cut)
    (fuel : Nat) (hf : i < fuel) :
    s.fracture chop fuel m = some ({ s with polygons := .list (l.eraseIdx i) }, some .attributeError) := by
  unfold SetObj.fracture
  rw [if_pos hm]
  obtain ⟨f, rfl⟩ : ∃ f, fuel = (f + 1) + i := ⟨fuel - i - 1, by omega⟩
  have hit : s.polygons.items = l := by rw [hs]; rfl
  rw [fracLoop_pass chop m i s 0 (f + 1) (by rw [hit]; omega) (by
    intro j hj _ h2
    have := hfirst j (by omega)
    simpa [hit] using this), Nat.zero_add, SetObj.fracLoop]
  rw [hit, List.getElem?_eq_getElem hi]
  simp only
  rw [if_pos hlong, hcut]
  simp only
  rw [hs]
  simp only [PySeq.pop, List.getElem?_eq_getElem hi]
  rw [hls]

variable [FloorRing K]

omit [Field K] [LinearOrder K] [FloorRing K] in
theorem filletRadii_len {radius : FilletArg K} {l : List (Pgon K)} {radii : List (List K)}
    (h : filletRadii radius l = .ok radii) : radii.length = l.length := by
  have h1 : ∀ (rs : List (RadItem K)) (l : List (Pgon K)) (radii : List (List K)), rs.length = l.length →
      filletPerPolygon rs l = .ok radii → radii.length = l.length := by
    intro rs
    induction rs with
    | nil =>
      intro l radii hl h
      simp only [filletPerPolygon, Except.ok.injEq] at h
      rw [← h, ← hl]
      rfl
    | cons r rs ih =>
      intro l radii hl h
      obtain ⟨p, l, rfl⟩ : ∃ p l', l = p :: l' := by cases l with | nil => simp at hl | cons p l => exact ⟨p, l, rfl⟩
      cases r with
      | one r =>
        rw [filletPerPolygon] at h
        cases hq : filletPerPolygon rs l with
        | error e => rw [hq] at h; simp [bind, Except.bind] at h
        | ok q =>
          rw [hq] at h
          simp only [bind, Except.bind, Except.ok.injEq] at h
          rw [← h, List.length_cons, List.length_cons, ih l q (by simpa using hl) hq]
      | many r =>
        rw [filletPerPolygon] at h
        split at h
        · simp at h
        · cases hq : filletPerPolygon rs l with
          | error e => rw [hq] at h; simp [bind, Except.bind] at h
          | ok q =>
            rw [hq] at h
            simp only [bind, Except.bind, Except.ok.injEq] at h
            rw [← h, List.length_cons, List.length_cons, ih l q (by simpa using hl) hq]
  have h2 : ∀ (l : List (Pgon K)) (rs : List K), (filletSlices rs l).length = l.length := by
    intro l
    induction l with
    | nil => intro rs; rfl
    | cons p l ih => intro rs; rw [filletSlices, List.length_cons, ih, List.length_cons]
  unfold filletRadii at h
  split at h
  · simp only [Except.ok.injEq] at h
    rw [← h, List.length_map]
  · split at h
    · rename_i hl
      exact h1 _ _ _ hl h
    · split at h
      · simp at h
      · rename_i rs _ _
        cases hq : radNumbers rs with
        | error e => rw [hq] at h; simp [bind, Except.bind] at h
        | ok q =>
          rw [hq] at h
          simp only [bind, Except.bind, Except.ok.injEq] at h
          rw [← h, h2]

/-- **C89, violated.** `fillet` of an element that went through `remove_polygons` never returns: it raises, TypeError when
the radii are well-formed and the first polygon can be computed. The element is not changed. -/
theorem C89_fillet_raises (t : Num K) (chop : Slicer K) (fuel : Nat) (radius : FilletArg K) (pp : K) (m : Nat)
    (s : SetObj K) (hs : Spec.SetObj.Stuck s) :
    ∃ e, s.fillet t chop fuel radius pp m = some (s, some e) ∧
      ∀ rs radii p l, filletRadii radius s.polygons.items = .ok (rs :: radii) → s.polygons.items = p :: l →
        (∃ p', filletPolygon t pp p rs = .ok p') → e = .typeError := by
  obtain ⟨l, hl, hne⟩ := hs
  obtain ⟨p, l, rfl⟩ := List.exists_cons_of_ne_nil hne
  have hit : s.polygons.items = p :: l := by rw [hl]; rfl
  unfold SetObj.fillet
  cases hr : filletRadii radius s.polygons.items with
  | error e => exact ⟨e, rfl, fun rs radii p l h => by simp at h⟩
  | ok radii =>
    obtain ⟨rs, radii, rfl⟩ := List.exists_cons_of_ne_nil (l := radii) (by
      rintro rfl
      have := filletRadii_len hr
      rw [hit] at this
      simp at this)
    simp only
    rw [SetObj.filletLoop, hit]
    simp only [List.getElem?_cons_zero]
    cases hp : filletPolygon t pp p rs with
    | error e =>
      refine ⟨e, rfl, ?_⟩
      rintro rs' radii' p' l' h h' ⟨q, hq⟩
      simp only [Except.ok.injEq, List.cons.injEq] at h h'
      rw [← h.1, ← h'.1, hp] at hq
      simp at hq
    | ok p' =>
      simp only
      rw [hl]
      exact ⟨_, rfl, fun _ _ _ _ _ _ _ => rfl⟩

/-- **C89.** With lists `fillet` does what the model with lists does (C67). -/
theorem C89_fillet_lists (t : Num K) (chop : Slicer K) (fuel : Nat) (radius : FilletArg K) (pp : K) (m : Nat)
    (ps : PolySet K) :
    match ps.fillet t chop fuel radius pp m with
    | .ok (some ps') => (SetObj.ofPolySet ps).fillet t chop fuel radius pp m = some (SetObj.ofPolySet ps', none)
    | .ok none => (SetObj.ofPolySet ps).fillet t chop fuel radius pp m = none
    | .error e => ∃ s, (SetObj.ofPolySet ps).fillet t chop fuel radius pp m = some (s, some e) := by
  have key : ∀ (l : List (Pgon K)) (radii : List (List K)) (pre : List (Pgon K)) (ls ds : PySeq Int),
      radii.length = l.length →
      match (l.zip radii).mapM fun x => filletPolygon t pp x.1 x.2 with
      | .ok r => SetObj.filletLoop t pp radii pre.length ⟨.list (pre ++ l), ls, ds⟩ = (⟨.list (pre ++ r), ls, ds⟩, none)
      | .error e => ∃ s, SetObj.filletLoop t pp radii pre.length ⟨.list (pre ++ l), ls, ds⟩ = (s, some e) := by
    intro l
    induction l with
    | nil =>
      intro radii pre ls ds hr
      rw [List.length_eq_zero_iff.1 hr]
      rfl
    | cons p l ih =>
      intro radii pre ls ds hr
      obtain ⟨rs, radii, rfl⟩ : ∃ rs l', radii = rs :: l' := by
        cases radii with | nil => simp at hr | cons a b => exact ⟨a, b, rfl⟩
      have hget : (pre ++ p :: l)[pre.length]? = some p := by
        rw [List.getElem?_append_right le_rfl, Nat.sub_self, List.getElem?_cons_zero]
      rw [List.zip_cons_cons, List.mapM_cons, SetObj.filletLoop]
      simp only [PySeq.items, hget]
      cases hp : filletPolygon t pp p rs with
      | error e => exact ⟨_, rfl⟩
      | ok p' =>
        have hset : (pre ++ p :: l).set pre.length p' = (pre ++ [p']) ++ l := by simp
        simp only [PySeq.setItem, bind, Except.bind]
        rw [if_pos (by simp)]
        simp only [hset]
        have hi := ih radii (pre ++ [p']) ls ds (by simpa using hr)
        rw [List.length_append, List.length_singleton] at hi
        cases hm : (l.zip radii).mapM fun x => filletPolygon t pp x.1 x.2 with
        | error e => rw [hm] at hi; exact hi
        | ok r =>
          rw [hm] at hi
          simp only at hi ⊢
          simp only [pure, Except.pure]
          rw [hi]
          simp
  unfold PolySet.fillet SetObj.fillet
  simp only [SetObj.ofPolySet, PySeq.items]
  cases hr : filletRadii radius ps.polygons with
  | error e => exact ⟨_, rfl⟩
  | ok radii =>
    simp only [bind, Except.bind]
    have hk := key ps.polygons radii [] (.list ps.layers) (.list ps.datatypes) (filletRadii_len hr)
    simp only [List.length_nil, List.nil_append] at hk
    cases hm : (ps.polygons.zip radii).mapM fun x => filletPolygon t pp x.1 x.2 with
    | error e =>
      rw [hm] at hk
      obtain ⟨s, hs⟩ := hk
      simp only
      rw [hs]
      exact ⟨s, rfl⟩
    | ok r =>
      rw [hm] at hk
      simp only at hk ⊢
      rw [hk]
      simp only
      by_cases ha : (r.any fun p => decide (p.length > m)) = true
      · simp only [ha, if_true]
        exact C89_fracture_lists chop fuel m ⟨r, ps.layers, ps.datatypes⟩
      · simp [ha]

/-! ### Examples -/

/-- A cell with two polygons and a label, and a cell with a reference to it turned by a quarter. -/
private def exChild : OCell ℚ Unit :=
  .mk ['A'] [SetObj.ofPolySet ⟨[[(0, 0), (1, 0), (0, 1)], [(2, 2), (3, 2), (2, 3)]], [1, 2], [0, 0]⟩] []
    [⟨['x'], (1, 1), none, none, none, 3, some 0⟩] .nil

private def exRef : RefData ℚ := ⟨some (5, 5), some 90, none, none, none⟩

private def exParent (c : OCell ℚ Unit) : OCell ℚ Unit := .mk ['B'] [] [] [] (.cell exRef c .nil)

/-- The hypotheses of `C89_flatten_partial` are met before `remove_polygons`, those of `C89_flatten_raises` after it, though
the test is never true. -/
example : (∀ s ∈ Spec.OCell.below none (exParent exChild), ¬ Spec.SetObj.Stuck s) ∧
    Spec.OCell.Proper (exParent (exChild.removePolygons fun _ _ _ => false)) ∧
    ∃ s ∈ Spec.OCell.below none (exParent (exChild.removePolygons fun _ _ _ => false)), Spec.SetObj.Stuck s := by
  refine ⟨?_, ?_, ?_⟩
  · intro s hs
    simp only [exParent, exChild, Spec.OCell.below, Spec.ORefs.within, OCell.polygons, SetObj.ofPolySet] at hs
    simp at hs
    subst hs
    rintro ⟨l, h, _⟩
    simp at h
  · simp [exParent, exChild, OCell.removePolygons, Spec.OCell.Proper, Spec.ORefs.Proper, exRef]
  · have hm : ∀ s, s ∈ (exChild.removePolygons fun _ _ _ => false).polygons →
        s ∈ Spec.OCell.below none (exParent (exChild.removePolygons fun _ _ _ => false)) := by
      intro s hs
      simp only [exParent, Spec.OCell.below, Spec.ORefs.within]
      simp [hs]
    have hne : (exChild.removePolygons fun _ _ _ => false).polygons ≠ [] := by decide +kernel
    obtain ⟨s, l, hl⟩ := List.exists_cons_of_ne_nil hne
    exact ⟨s, hm s (by rw [hl]; simp), C89_removed_stuck _ _ s (by rw [hl]; simp)⟩

/-- The hypotheses of `C89_fracture_raises` and `C89_fracture_loses` can be met: the second polygon has six vertices, the limit is five. -/
example : ∃ (s : SetObj ℚ) (l : List (Pgon ℚ)) (i : Nat) (hi : i < l.length) (chop : Slicer ℚ) (cut : List (List (Pgon ℚ))),
    s.polygons = .tuple l ∧ 5 < l[i].length ∧ (∀ j (hj : j < i), (l[j]).length ≤ 5) ∧ fracCut chop 5 l[i] = .ok cut ∧
      (s.translate 1 1).layers = .tuple [1, 2] :=
  ⟨SetObj.ofKept [([(0, 0), (1, 0), (0, 1)], 1, 0), ([(0, 0), (1, 0), (2, 0), (2, 2), (1, 2), (0, 2)], 2, 0)],
    [[(0, 0), (1, 0), (0, 1)], [(0, 0), (1, 0), (2, 0), (2, 2), (1, 2), (0, 2)]], 1, by decide, fun p _ _ => .ok [[p]],
    [[[(0, 0), (1, 0), (2, 0), (2, 2), (1, 2), (0, 2)]]], rfl, by decide, by decide, by decide +kernel, rfl⟩

end Fracture

end Gdspy
