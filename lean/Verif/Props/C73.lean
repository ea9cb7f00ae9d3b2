import Verif.Props.C22

/-!
# C73: reading a file adds its cells and links their references

At the level of objects with identity: what `read_gds` does to a library that already has cells, and to the cells that
other libraries hold.
-/

namespace Gdspy

namespace Spec

/-- The number of references in a file. -/
def refCount (cells : List (Str × List Str)) : Nat := (cells.map fun x => x.2.length).sum

/-- `g` is `st` with the cells of a file, each given by its name and the names that its references give. Cell `i`
becomes a new object, filed under its name after those already there, with one new reference object for each name, which
refers to `link name`. No object that existed before is changed. -/
structure Imported (st g : LState) (cells : List (Str × List Str)) (link : Str → Tgt) : Prop where
  dict : g.cells = st.cells ++ (cells.map Prod.fst).zip (List.range' st.heap.ncells cells.length)
  ncells : g.heap.ncells = st.heap.ncells + cells.length
  nrefs : g.heap.nrefs = st.heap.nrefs + refCount cells
  oldCells : ∀ c, c < st.heap.ncells → g.heap.name c = st.heap.name c ∧ g.heap.refs c = st.heap.refs c
  oldRefs : ∀ r, r < st.heap.nrefs → g.heap.target r = st.heap.target r
  newCells : ∀ i name names, cells[i]? = some (name, names) → g.heap.name (st.heap.ncells + i) = name ∧
    g.heap.refs (st.heap.ncells + i) = List.range' (st.heap.nrefs + refCount (cells.take i)) names.length
  newRefs : ∀ i name names j s, cells[i]? = some (name, names) → names[j]? = some s →
    g.heap.target (st.heap.nrefs + refCount (cells.take i) + j) = link s

/-- What a name stands for in a library: the cell filed under it, or the name if there is none. -/
def StandsFor (d : CellDict) (s : Str) (t : Tgt) : Prop :=
  (∀ c, (s, c) ∈ d → t = .obj c) ∧ ((∀ c, (s, c) ∉ d) → t = .str s)

end Spec

open Spec

theorem newRefs_spec (c : Nat) : ∀ (names : List Str) (h : Heap),
    let h' := names.foldl (fun h s => h.newRef c (.str s)) h
    h'.name = h.name ∧ h'.ncells = h.ncells ∧ h'.nrefs = h.nrefs + names.length ∧
    (∀ d, d ≠ c → h'.refs d = h.refs d) ∧ h'.refs c = h.refs c ++ List.range' h.nrefs names.length ∧
    (∀ r, r < h.nrefs → h'.target r = h.target r) ∧
    ∀ j s, names[j]? = some s → h'.target (h.nrefs + j) = .str s := by
  intro names
  induction names with
  | nil => intro h; simp
  | cons s names ih =>
    intro h
    obtain ⟨a1, a2, a3, a4, a5, a6, a7⟩ := ih (h.newRef c (.str s))
    have e1 : (h.newRef c (.str s)).nrefs = h.nrefs + 1 := rfl
    have e2 : (h.newRef c (.str s)).target = Function.update h.target h.nrefs (.str s) := rfl
    have e3 : (h.newRef c (.str s)).refs = Function.update h.refs c (h.refs c ++ [h.nrefs]) := rfl
    simp only [List.foldl_cons]
    refine ⟨a1, a2, ?_, ?_, ?_, ?_, ?_⟩
    · rw [a3, e1, List.length_cons]; omega
    · intro d hd
      rw [a4 d hd, e3, Function.update_of_ne hd]
    · rw [a5, e3, e1, Function.update_self, List.length_cons, List.range'_succ]
      simp
    · intro r hr
      rw [a6 r (by omega), e2, Function.update_of_ne (by omega)]
    · intro j s' hj
      cases j with
      | zero =>
        simp only [List.getElem?_cons_zero, Option.some.injEq] at hj
        subst hj
        rw [Nat.add_zero, a6 _ (by omega), e2, Function.update_self]
      | succ j =>
        rw [List.getElem?_cons_succ] at hj
        have := a7 j s' hj
        rw [e1] at this
        rw [← this]
        congr 1
        omega

theorem dictPut_new : ∀ {d : CellDict} {k : Str} (v : Nat), d.lookup k = none → dictPut d k v = d ++ [(k, v)] := by
  intro d
  induction d with
  | nil => intro k v _; rfl
  | cons x d ih =>
    intro k v h
    obtain ⟨k', v'⟩ := x
    rw [List.lookup_cons] at h
    unfold dictPut
    by_cases hk : k' = k
    · subst hk
      simp at h
    · rw [if_neg hk]
      have hb : (k == k') = false := by simpa using fun h : k = k' => hk h.symm
      rw [hb] at h
      rw [ih v h]
      rfl

theorem lookup_append_none {d e : CellDict} {k : Str} : (d ++ e).lookup k = none ↔ d.lookup k = none ∧ e.lookup k = none := by
  rw [List.lookup_append]
  cases d.lookup k <;> simp

theorem refCount_cons (x : Str × List Str) (l : List (Str × List Str)) : refCount (x :: l) = x.2.length + refCount l := rfl

theorem importCells_spec : ∀ (cells : List (Str × List Str)) {st g : LState} {made made' : List Nat},
    importCells st cells made = (g, made', none) →
    Imported st g cells .str ∧ made' = made ++ List.range' st.heap.nrefs (refCount cells) ∧
      (cells.map Prod.fst).Nodup ∧ ∀ x ∈ cells, st.cells.lookup x.1 = none := by
  intro cells
  induction cells with
  | nil =>
    intro st g made made' h
    simp only [importCells, Prod.mk.injEq, and_true] at h
    obtain ⟨rfl, rfl⟩ := h
    exact ⟨⟨by simp, rfl, rfl, fun _ _ => ⟨rfl, rfl⟩, fun _ _ => rfl, by simp, by simp⟩, by simp [refCount], by simp, by simp⟩
  | cons x cells ih =>
    intro st g made made' h
    obtain ⟨name, names⟩ := x
    unfold importCells at h
    split at h
    · cases h
    · rename_i hl
      have hnone : st.cells.lookup name = none := by
        cases hc : st.cells.lookup name with
        | none => rfl
        | some c => rw [hc] at hl; simp at hl
      simp only at h
      obtain ⟨a1, a2, a3, a4, a5, a6, a7⟩ := newRefs_spec st.heap.ncells names (st.heap.newCell name).1
      have b1 : (st.heap.newCell name).2 = st.heap.ncells := rfl
      have b2 : (st.heap.newCell name).1.name = Function.update st.heap.name st.heap.ncells name := rfl
      have b3 : (st.heap.newCell name).1.refs = Function.update st.heap.refs st.heap.ncells [] := rfl
      have b4 : (st.heap.newCell name).1.target = st.heap.target := rfl
      have b5 : (st.heap.newCell name).1.nrefs = st.heap.nrefs := rfl
      have b6 : (st.heap.newCell name).1.ncells = st.heap.ncells + 1 := rfl
      rw [b1, dictPut_new _ hnone] at h
      obtain ⟨i1, i2, i3, i4⟩ := ih h
      simp only at i1 i2 i3 i4
      generalize hh : names.foldl (fun h s => h.newRef st.heap.ncells (.str s)) (st.heap.newCell name).1 = h1 at *
      rw [b6] at a2
      rw [b5] at a3 a5 a6 a7
      refine ⟨⟨?_, ?_, ?_, ?_, ?_, ?_, ?_⟩, ?_, ?_, ?_⟩
      · rw [i1.dict]
        simp only [List.map_cons, List.length_cons, List.range'_succ, List.zip_cons_cons, List.append_assoc, List.cons_append,
          List.nil_append, a2]
      · rw [i1.ncells, List.length_cons]; simp only [a2]; omega
      · rw [i1.nrefs, refCount_cons]; simp only [a3]; omega
      · intro c hc
        obtain ⟨j1, j2⟩ := i1.oldCells c (by simp only [a2]; omega)
        simp only at j1 j2
        rw [j1, j2, a1, a4 c (by omega), b2, b3, Function.update_of_ne (by omega), Function.update_of_ne (by omega)]
        exact ⟨rfl, rfl⟩
      · intro r hr
        rw [i1.oldRefs r (by simp only [a3]; omega)]
        simp only
        rw [a6 r hr, b4]
      · intro i n ns hi
        cases i with
        | zero =>
          simp only [List.getElem?_cons_zero, Option.some.injEq, Prod.mk.injEq] at hi
          obtain ⟨rfl, rfl⟩ := hi
          obtain ⟨j1, j2⟩ := i1.oldCells st.heap.ncells (by simp only [a2]; omega)
          simp only at j1 j2
          rw [Nat.add_zero, j1, j2, a1, a5, b2, b3, Function.update_self, Function.update_self]
          exact ⟨rfl, rfl⟩
        | succ i =>
          rw [List.getElem?_cons_succ] at hi
          obtain ⟨j1, j2⟩ := i1.newCells i n ns hi
          simp only [a2, a3] at j1 j2
          rw [List.take_succ_cons, refCount_cons, show st.heap.ncells + (i + 1) = st.heap.ncells + 1 + i by omega, j1, j2,
            ← Nat.add_assoc]
          exact ⟨rfl, rfl⟩
      · intro i n ns j s hi hj
        cases i with
        | zero =>
          simp only [List.getElem?_cons_zero, Option.some.injEq, Prod.mk.injEq] at hi
          obtain ⟨rfl, rfl⟩ := hi
          have hlt : j < names.length := (List.getElem?_eq_some_iff.1 hj).1
          have e0 : refCount (((name, names) :: cells).take 0) = 0 := rfl
          rw [e0, Nat.add_zero, i1.oldRefs _ (by simp only [a3]; omega)]
          exact a7 j s hj
        | succ i =>
          rw [List.getElem?_cons_succ] at hi
          have := i1.newRefs i n ns j s hi hj
          simp only [a3] at this
          rw [List.take_succ_cons, refCount_cons, ← this]
          congr 1
          simp only
          omega
      · rw [i2, List.append_assoc, refCount_cons, b5]
        congr 1
        rw [a3, List.range'_append_1 |>.symm]
        congr 1
        exact List.range'_eq_map_range.symm
      · rw [List.map_cons, List.nodup_cons]
        refine ⟨?_, i3⟩
        intro hm
        obtain ⟨y, hy, e⟩ := List.mem_map.1 hm
        have := (lookup_append_none.1 (i4 y hy)).2
        rw [e] at this
        simp at this
      · intro y hy
        rcases List.mem_cons.1 hy with rfl | hy
        · exact hnone
        · exact (lookup_append_none.1 (i4 y hy)).1

/-- The cell under a name, or the name. -/
def linkIn (d : CellDict) (s : Str) : Tgt :=
  match d.lookup s with
  | some c => .obj c
  | none => .str s

theorem resolveFold_spec (d : CellDict) : ∀ (made : List Nat) (h : Heap),
    let h' := made.foldl (resolveStep d) h
    h'.name = h.name ∧ h'.refs = h.refs ∧ h'.ncells = h.ncells ∧ h'.nrefs = h.nrefs ∧
    (∀ r, r ∉ made → h'.target r = h.target r) ∧
    ∀ r ∈ made, ∀ s, h.target r = .str s → h'.target r = linkIn d s := by
  intro made
  induction made with
  | nil => intro h; simp
  | cons r made ih =>
    intro h
    obtain ⟨a1, a2, a3, a4, a5, a6⟩ := ih (resolveStep d h r)
    have hstep : (resolveStep d h r).name = h.name ∧ (resolveStep d h r).refs = h.refs ∧ (resolveStep d h r).ncells = h.ncells ∧
        (resolveStep d h r).nrefs = h.nrefs ∧ (∀ r', r' ≠ r → (resolveStep d h r).target r' = h.target r') ∧
        (∀ s, h.target r = .str s → (resolveStep d h r).target r = linkIn d s) ∧
        (∀ c, h.target r = .obj c → (resolveStep d h r).target r = .obj c) := by
      unfold resolveStep linkIn
      cases ht : h.target r with
      | obj c => refine ⟨rfl, rfl, rfl, rfl, fun _ _ => rfl, by simp, fun c' e => by rw [← e]; exact ht⟩
      | str s =>
        simp only [Tgt.str.injEq, forall_eq', reduceCtorEq, false_implies, implies_true, and_true]
        cases hl : d.lookup s with
        | none => exact ⟨rfl, rfl, rfl, rfl, fun _ _ => rfl, ht⟩
        | some c =>
          refine ⟨rfl, rfl, rfl, rfl, fun r' hr => ?_, ?_⟩
          · exact Function.update_of_ne hr _ _
          · exact Function.update_self _ _ _
    obtain ⟨b1, b2, b3, b4, b5, b6, b7⟩ := hstep
    simp only [List.foldl_cons]
    refine ⟨a1.trans b1, a2.trans b2, a3.trans b3, a4.trans b4, ?_, ?_⟩
    · intro r' hr
      simp only [List.mem_cons, not_or] at hr
      rw [a5 r' hr.2, b5 r' hr.1]
    · intro r' hr s hs
      by_cases e : r' = r
      · subst e
        have h1 := b6 s hs
        by_cases hm : r' ∈ made
        · unfold linkIn at h1 ⊢
          cases hl : d.lookup s with
          | none =>
            rw [hl] at h1
            have := a6 r' hm s h1
            unfold linkIn at this
            rw [hl] at this
            exact this
          | some c =>
            rw [hl] at h1
            have key : ∀ (l : List Nat) (h : Heap), h.target r' = .obj c → (l.foldl (resolveStep d) h).target r' = .obj c := by
              intro l
              induction l with
              | nil => intro h e; exact e
              | cons q l ihl =>
                intro h e
                refine ihl _ ?_
                unfold resolveStep
                cases hq : h.target q with
                | obj _ => exact e
                | str z =>
                  simp only
                  cases d.lookup z with
                  | none => exact e
                  | some c' =>
                    have hne : r' ≠ q := by
                      rintro rfl
                      rw [e] at hq
                      cases hq
                    show Function.update h.target q _ r' = _
                    rw [Function.update_of_ne hne]
                    exact e
            exact key made _ h1
        · rw [a5 r' hm, h1]
      · rcases List.mem_cons.1 hr with rfl | hm
        · exact absurd rfl e
        · exact a6 r' hm s (by rw [b5 r' e]; exact hs)

theorem linkIn_standsFor {d : CellDict} (hd : (d.map Prod.fst).Nodup) (s : Str) : StandsFor d s (linkIn d s) := by
  unfold linkIn
  constructor
  · intro c hc
    rw [lookup_of_mem hd hc]
  · intro hn
    cases hl : d.lookup s with
    | none => rfl
    | some c => exact absurd (mem_of_lookup hl) (hn c)

theorem imported_keys {st g : LState} {cells : List (Str × List Str)} {link : Str → Tgt} (hk : KeysMatch st)
    (hal : ∀ p ∈ st.cells, p.2 < st.heap.ncells) (hi : Imported st g cells link) (hn : (cells.map Prod.fst).Nodup)
    (hnew : ∀ x ∈ cells, st.cells.lookup x.1 = none) : KeysMatch g := by
  constructor
  · rw [hi.dict, List.map_append, List.map_fst_zip (by simp), List.nodup_append]
    refine ⟨hk.1, hn, ?_⟩
    rintro a ha b hb rfl
    obtain ⟨x, hx, rfl⟩ := List.mem_map.1 hb
    obtain ⟨p, hp, e⟩ := List.mem_map.1 ha
    have h1 := lookup_of_mem hk.1 (show (p.1, p.2) ∈ st.cells from hp)
    rw [e, hnew x hx] at h1
    cases h1
  · intro p hp
    rw [hi.dict, List.mem_append] at hp
    rcases hp with hp | hp
    · rw [(hi.oldCells p.2 (hal p hp)).1]
      exact hk.2 p hp
    · obtain ⟨i, hlt, e⟩ := List.getElem_of_mem hp
      rw [List.getElem_zip] at e
      have hlt' : i < cells.length := by
        rw [List.length_zip, List.length_map, List.length_range', Nat.min_self] at hlt
        exact hlt
      have := (hi.newCells i cells[i].1 cells[i].2 (List.getElem?_eq_getElem hlt')).1
      rw [← e]
      simp only [List.getElem_range', List.getElem_map, Nat.one_mul]
      exact this

/-- **C73.** `read_gds` of a file with an ENDLIB record adds the cells of the file to the library, under names that were
free, after those that were there. Every reference of the new cells refers to the cell which the library has under its name, whether
it comes from the file or was there before; it keeps the name if there is no such cell. Cells and references that existed
before, in this library or in others, are not changed. -/
theorem C73_import {st g : LState} {cells : List (Str × List Str)} (hk : KeysMatch st)
    (hal : ∀ p ∈ st.cells, p.2 < st.heap.ncells) (h : st.importFile cells true = (g, none)) :
    ∃ link, Imported st g cells link ∧ (∀ s, StandsFor g.cells s (link s)) ∧
      KeysMatch g ∧ ∀ x ∈ cells, ∀ c, (x.1, c) ∉ st.cells := by
  unfold LState.importFile at h
  cases hr : importCells st cells [] with
  | mk st' q =>
    obtain ⟨made, e⟩ := q
    rw [hr] at h
    cases e with
    | some e => cases h
    | none =>
      obtain ⟨i1, i2, i3, i4⟩ := importCells_spec cells hr
      simp only [if_true, Prod.mk.injEq, and_true] at h
      subst h
      obtain ⟨b1, b2, b3, b4, b5, b6⟩ := resolveFold_spec st'.cells made st'.heap
      have hkeys := imported_keys hk hal i1 i3 i4
      have hI : Imported st ⟨made.foldl (resolveStep st'.cells) st'.heap, st'.cells⟩ cells (linkIn st'.cells) := by
        refine ⟨i1.dict, b3.trans i1.ncells, b4.trans i1.nrefs, ?_, ?_, ?_, ?_⟩
        · intro c hc
          simp only [b1, b2]
          exact i1.oldCells c hc
        · intro r hr'
          simp only
          rw [b5 r, i1.oldRefs r hr']
          rw [i2, List.nil_append, List.mem_range'_1]
          omega
        · intro i name names hi
          simp only [b1, b2]
          exact i1.newCells i name names hi
        · intro i name names j s hi hj
          refine b6 _ ?_ s (i1.newRefs i name names j s hi hj)
          rw [i2, List.nil_append, List.mem_range'_1]
          have h1 : j < names.length := (List.getElem?_eq_some_iff.1 hj).1
          have h2 : refCount (cells.take i) + names.length ≤ refCount cells := by
            have hi' := (List.getElem?_eq_some_iff.1 hi)
            obtain ⟨hlt, he⟩ := hi'
            conv_rhs => rw [← List.take_append_drop i cells, List.drop_eq_getElem_cons hlt, he]
            unfold refCount
            rw [List.map_append, List.sum_append, List.map_cons, List.sum_cons]
            simp only
            omega
          omega
      refine ⟨_, hI, linkIn_standsFor hkeys.1, imported_keys hk hal hI i3 i4, ?_⟩
      intro x hx c hc
      have := lookup_of_mem hk.1 hc
      rw [i4 x hx] at this
      cases this

/-- **C73.** Without ENDLIB the references keep their names. -/
theorem C73_no_endlib {st g : LState} {cells : List (Str × List Str)} (h : st.importFile cells false = (g, none)) :
    Imported st g cells .str := by
  unfold LState.importFile at h
  cases hr : importCells st cells [] with
  | mk st' q =>
    obtain ⟨made, e⟩ := q
    rw [hr] at h
    cases e with
    | some e => cases h
    | none =>
      simp only [Bool.false_eq_true, if_false, Prod.mk.injEq, and_true] at h
      subst h
      exact (importCells_spec cells hr).1

theorem importCells_clash : ∀ (cells : List (Str × List Str)) (st : LState) (made : List Nat),
    (cells.map Prod.fst).Nodup → (∀ x ∈ cells, st.cells.lookup x.1 = none) →
    ∃ g made', importCells st cells made = (g, made', none) := by
  intro cells
  induction cells with
  | nil => intro st made _ _; exact ⟨_, _, rfl⟩
  | cons x cells ih =>
    intro st made hn hnew
    obtain ⟨name, names⟩ := x
    rw [List.map_cons, List.nodup_cons] at hn
    have h0 : st.cells.lookup name = none := hnew _ List.mem_cons_self
    unfold importCells
    rw [if_neg (by simp [h0])]
    refine ih _ _ hn.2 ?_
    intro y hy
    simp only
    rw [dictPut_new _ h0, lookup_append_none]
    refine ⟨hnew y (List.mem_cons_of_mem _ hy), ?_⟩
    have : (y.1 == name) = false := by
      simp only [beq_eq_false_iff_ne]
      rintro rfl
      exact hn.1 (List.mem_map.2 ⟨y, hy, rfl⟩)
    rw [List.lookup_cons, this]
    rfl

theorem importCells_append : ∀ (a b : List (Str × List Str)) (st : LState) (made : List Nat) {g : LState} {made' : List Nat},
    importCells st a made = (g, made', none) → importCells st (a ++ b) made = importCells g b made' := by
  intro a
  induction a with
  | nil =>
    intro b st made g made' h
    simp only [importCells, Prod.mk.injEq, and_true] at h
    obtain ⟨rfl, rfl⟩ := h
    rfl
  | cons x a ih =>
    intro b st made g made' h
    obtain ⟨name, names⟩ := x
    rw [List.cons_append]
    unfold importCells at h
    conv_lhs => unfold importCells
    split at h
    · cases h
    · rename_i hl
      rw [if_neg hl]
      exact ih b _ _ h

/-- **C73.** If a name is taken, by a cell of the library or by an earlier one of the file, `ValueError` is raised, and the cells of
the file before it stay in the library, with references by name. -/
theorem C73_clash {st : LState} (before after : List (Str × List Str)) (name : Str) (names : List Str) (endlib : Bool)
    (hn : (before.map Prod.fst).Nodup) (hnew : ∀ x ∈ before, ∀ c, (x.1, c) ∉ st.cells)
    (hclash : (∃ c, (name, c) ∈ st.cells) ∨ name ∈ before.map Prod.fst) :
    ∃ g, st.importFile (before ++ (name, names) :: after) endlib = (g, some .valueError) ∧ Imported st g before .str := by
  have hlook : ∀ {d : CellDict} {k : Str}, (∀ c, (k, c) ∉ d) → d.lookup k = none := by
    intro d k h
    cases hl : d.lookup k with
    | none => rfl
    | some c => exact absurd (mem_of_lookup hl) (h c)
  obtain ⟨g, made, hg⟩ := importCells_clash before st [] hn (fun x hx => hlook (hnew x hx))
  obtain ⟨i1, _, _, _⟩ := importCells_spec before hg
  refine ⟨g, ?_, i1⟩
  unfold LState.importFile
  rw [importCells_append before _ st [] hg]
  have htaken : (g.cells.lookup name).isSome = true := by
    cases hl : g.cells.lookup name with
    | some c => rfl
    | none =>
      exfalso
      rw [i1.dict, List.lookup_eq_none_iff] at hl
      simp only [List.mem_append] at hl
      rcases hclash with ⟨c, hc⟩ | hm
      · exact (by simpa using hl (name, c) (.inl hc))
      · obtain ⟨x, hx, e⟩ := List.mem_map.1 hm
        obtain ⟨i, hi, hxe⟩ := List.getElem_of_mem hx
        have : ((before.map Prod.fst).zip (List.range' st.heap.ncells before.length))[i]'(by simpa using hi) ∈
          (before.map Prod.fst).zip (List.range' st.heap.ncells before.length) := List.getElem_mem _
        have h2 := hl _ (.inr this)
        rw [List.getElem_zip, List.getElem_map, hxe, e] at h2
        simp at h2
  simp only [importCells, htaken, if_true]

/-- A library with one cell, which has a reference to a name that is not there. -/
def oneCell : LState := ⟨⟨1, 1, fun _ => "A".toList, fun c => if c = 0 then [0] else [], fun _ => .str "B".toList⟩, [("A".toList, 0)]⟩

/-- A file with two cells: `B` refers to `A`, `C` and `D`, `C` to nothing. -/
def twoCells : List (Str × List Str) := [("B".toList, ["A".toList, "C".toList, "D".toList]), ("C".toList, [])]

example : KeysMatch oneCell ∧ (∀ p ∈ oneCell.cells, p.2 < oneCell.heap.ncells) ∧ ∃ g, oneCell.importFile twoCells true = (g, none) ∧
    g.cells = [("A".toList, 0), ("B".toList, 1), ("C".toList, 2)] ∧ (g.heap.refs 1).map g.heap.target =
      [.obj 0, .obj 2, .str "D".toList] ∧ g.heap.target 0 = .str "B".toList := by
  refine ⟨⟨by decide, ?_⟩, by decide, _, rfl, by decide, by decide, by decide⟩
  intro p hp
  simp only [oneCell, List.mem_cons, List.not_mem_nil, or_false] at hp
  subst hp
  rfl

/-- The second cell of the file is called like that of the library: the first stays. -/
example : ∃ g, oneCell.importFile [("B".toList, ["A".toList]), ("A".toList, [])] true = (g, some .valueError) ∧
    g.cells = [("A".toList, 0), ("B".toList, 1)] ∧ (g.heap.refs 1).map g.heap.target = [.str "A".toList] :=
  ⟨_, rfl, by decide, by decide⟩

end Gdspy
