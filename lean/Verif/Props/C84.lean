import Verif.Model.Global
import Verif.Props.C23

/-!
# C84: creating cells in several libraries

What a user expects from `lib.new_cell(name)` is that only `lib` matters. This holds when
`use_current_library` is false. With the default, every cell is also registered in the global
library, which refuses a name that any library has used before.
-/

namespace Gdspy

open Spec

/-- No cell of library `i` is filed under this name. -/
def Spec.NameFree (w : World) (i : Nat) (name : Str) : Prop := ∀ p ∈ w.libs i, p.1 ≠ name

/-- The cells in the libraries exist. -/
def Spec.WorldOk (w : World) : Prop := ∀ i, ∀ p ∈ w.libs i, p.2 < w.heap.ncells

/-- The start of a program: no cells, all libraries empty. -/
def Spec.emptyWorld : World := ⟨⟨0, 0, fun _ => [], fun _ => [], fun _ => .str []⟩, fun _ => []⟩

theorem nameFree_iff {w : World} {i : Nat} {name : Str} :
    NameFree w i name ↔ (w.libs i).lookup name = none := by
  unfold NameFree
  rw [List.lookup_eq_none_iff]
  constructor
  · intro h p hp
    simpa using fun e => h p hp e.symm
  · intro h p hp e
    have := h p hp
    simp [e] at this

/-- Adding one cell to a library. -/
theorem addLoop_one (ow upd : Bool) (st : LState) (c : Nat) :
    addLoop ow upd st [c] = addStep ow upd st c := by
  unfold addLoop
  rcases addStep ow upd st c with ⟨s, _ | e⟩ <;> rfl

theorem createCell_off (w : World) (name : Str) (ex : Bool) (use : Bool) (h : (use && !ex) = false) :
    w.createCell use name ex = ({ w with heap := (w.heap.newCell name).1 }, .ok w.heap.ncells) := by
  unfold World.createCell
  simp [h, Heap.newCell]

theorem clash_new {h : Heap} {d : CellDict} {name : Str} (hd : ∀ p ∈ d, p.2 < h.ncells) :
    Clash ⟨(h.newCell name).1, d⟩ h.ncells ↔ ∃ c, d.lookup name = some c := by
  unfold Clash
  have e : (h.newCell name).1.name h.ncells = name := by simp [Heap.newCell]
  simp only [e]
  constructor
  · rintro ⟨c, hc, -⟩
    exact ⟨c, hc⟩
  · rintro ⟨c, hc⟩
    have := hd _ (mem_of_lookup hc)
    exact ⟨c, hc, by simp only at this; omega⟩

theorem clash_same {h : Heap} {d : CellDict} {name : Str} :
    ¬ Clash ⟨(h.newCell name).1, dictPut d name h.ncells⟩ h.ncells := by
  unfold Clash
  have e : (h.newCell name).1.name h.ncells = name := by simp [Heap.newCell]
  simp only [e, dictPut_lookup, if_true]
  rintro ⟨c, hc, hne⟩
  exact hne (by simpa using hc.symm)

/-- Registration of a new cell succeeds when the name is free. -/
theorem createCell_on_ok (w : World) (hw : WorldOk w) (name : Str) (h : NameFree w 0 name) :
    w.createCell true name false
      = (⟨(w.heap.newCell name).1, Function.update w.libs 0 (dictPut (w.libs 0) name w.heap.ncells)⟩,
          .ok w.heap.ncells) := by
  have hc : ¬ Clash ⟨(w.heap.newCell name).1, w.libs 0⟩ w.heap.ncells := by
    rw [clash_new (hw 0)]
    rintro ⟨c, hc⟩
    rw [nameFree_iff.1 h] at hc
    simp at hc
  have hf : LState.clashes ⟨(w.heap.newCell name).1, w.libs 0⟩ w.heap.ncells = false := by
    rw [← Bool.not_eq_true, clashes_iff]
    exact hc
  have e : (w.heap.newCell name).1.name w.heap.ncells = name := by simp [Heap.newCell]
  have hs : addStep false true ⟨(w.heap.newCell name).1, w.libs 0⟩ w.heap.ncells
      = (⟨(w.heap.newCell name).1, dictPut (w.libs 0) name w.heap.ncells⟩, none) := by
    unfold addStep
    simp [hf, e]
  have hl : addLoop false true ⟨(w.heap.newCell name).1, w.libs 0⟩ [w.heap.ncells]
      = (⟨(w.heap.newCell name).1, dictPut (w.libs 0) name w.heap.ncells⟩, none) := by
    rw [addLoop_one, hs]
  unfold World.createCell
  simp only [Bool.not_false, Bool.and_self, if_true, World.view]
  show (match addLoop false true ⟨(w.heap.newCell name).1, w.libs 0⟩ [w.heap.ncells] with
    | (st, none) => _ | (st, some e) => _) = _
  rw [hl]
  rfl

/-- Registration of a new cell is refused when the name is taken. -/
theorem createCell_on_taken (w : World) (hw : WorldOk w) (name : Str) (h : ¬ NameFree w 0 name) :
    w.createCell true name false = ({ w with heap := (w.heap.newCell name).1 }, .error .valueError) := by
  have hc : Clash ⟨(w.heap.newCell name).1, w.libs 0⟩ w.heap.ncells := by
    rw [clash_new (hw 0)]
    rw [nameFree_iff] at h
    exact Option.ne_none_iff_exists'.1 h
  have hf := clashes_iff.2 hc
  have hs : addStep false true ⟨(w.heap.newCell name).1, w.libs 0⟩ w.heap.ncells
      = (⟨(w.heap.newCell name).1, w.libs 0⟩, some .valueError) := by
    unfold addStep
    simp [hf]
  have hl : addLoop false true ⟨(w.heap.newCell name).1, w.libs 0⟩ [w.heap.ncells]
      = (⟨(w.heap.newCell name).1, w.libs 0⟩, some .valueError) := by
    rw [addLoop_one, hs]
  unfold World.createCell
  simp only [Bool.not_false, Bool.and_self, if_true, World.view]
  show (match addLoop false true ⟨(w.heap.newCell name).1, w.libs 0⟩ [w.heap.ncells] with
    | (st, none) => _ | (st, some e) => _) = _
  rw [hl]
  simp [World.put]

/-- **C84.** `Cell(name)` with `use_current_library` true raises `ValueError` exactly when the global
library has a cell of this name, and then no library changes; otherwise the new cell is filed in
the global library under its name, and nothing else changes in any library. -/
theorem C84_create (w : World) (hw : WorldOk w) (name : Str) :
    (¬ NameFree w 0 name → (w.createCell true name false).2 = .error .valueError ∧
      (w.createCell true name false).1.libs = w.libs) ∧
    (NameFree w 0 name → (w.createCell true name false).2 = .ok w.heap.ncells ∧
      ∀ i k, ((w.createCell true name false).1.libs i).lookup k =
        if i = 0 ∧ k = name then some w.heap.ncells else (w.libs i).lookup k) := by
  constructor
  · intro h
    rw [createCell_on_taken w hw name h]
    exact ⟨rfl, rfl⟩
  · intro h
    rw [createCell_on_ok w hw name h]
    refine ⟨rfl, fun i k => ?_⟩
    by_cases hi : i = 0
    · subst hi
      simp [dictPut_lookup]
    · simp [hi]

/-- **C84.** `Cell(name, exclude_from_current=True)`, or with `use_current_library` false: never
raises, and no library changes. -/
theorem C84_create_excluded (w : World) (name : Str) (use ex : Bool) (h : use = false ∨ ex = true) :
    (w.createCell use name ex).2 = .ok w.heap.ncells ∧ (w.createCell use name ex).1.libs = w.libs := by
  rw [createCell_off w name ex use (by rcases h with h | h <;> simp [h])]
  exact ⟨rfl, rfl⟩

theorem addLoop_one_cells (ow upd : Bool) (st : LState) (c : Nat) :
    ((addLoop ow upd st [c]).2 = none ↔ ow = true ∨ ¬ Clash st c) ∧
    ((addLoop ow upd st [c]).2 ≠ none → (addLoop ow upd st [c]) = (st, some .valueError)) ∧
    ((addLoop ow upd st [c]).2 = none →
      (addLoop ow upd st [c]).1.cells = dictPut st.cells (st.heap.name c) c) ∧
    (addLoop ow upd st [c]).1.heap.ncells = st.heap.ncells ∧
    (addLoop ow upd st [c]).1.heap.refs = st.heap.refs := by
  rw [addLoop_one]
  have hr : ∀ (l : List Nat) (old : Str) (t : Tgt) (s : Heap × Nat),
      (l.foldl (replaceStep old t) s).1.ncells = s.1.ncells ∧
        (l.foldl (replaceStep old t) s).1.refs = s.1.refs := by
    intro l old t
    induction l with
    | nil => intro s; exact ⟨rfl, rfl⟩
    | cons a l ih =>
      intro s
      rw [List.foldl_cons]
      obtain ⟨h1, h2⟩ := ih (replaceStep old t s a)
      rw [h1, h2]
      unfold replaceStep
      split <;> exact ⟨rfl, rfl⟩
  unfold addStep
  by_cases hc : Clash st c
  · have hf := clashes_iff.2 hc
    cases ow
    · simp [hf, hc]
    · cases upd
      · simp [hf, hc]
      · simp [hf, hc, LState.replaceReferences, hr]
  · have hf : st.clashes c = false := by rw [← Bool.not_eq_true, clashes_iff]; exact hc
    simp [hf, hc]

theorem newCell_view (use : Bool) (w w1 : World) (i c : Nat) (name : Str) (ow upd : Bool)
    (h : w.createCell use name false = (w1, .ok c)) :
    w.newCell use i name ow upd = match addLoop ow upd ⟨w1.heap, w1.libs i⟩ [c] with
      | (st, none) => (w1.put i st, .ok c)
      | (st, some e) => (w1.put i st, .error e) := by
  unfold World.newCell
  rw [h]
  rfl

/-- **C84.** With `use_current_library` false, `lib.new_cell(name, overwrite_duplicate)` depends on
and changes only `lib`: it raises `ValueError` exactly when the name is taken in `lib` and
`overwrite_duplicate` is false, and then no library changes; otherwise the new cell is filed
in `lib` under its name, and nothing else changes in any library. -/
theorem C84_new_cell_local (w : World) (hw : WorldOk w) (i : Nat) (name : Str) (ow upd : Bool) :
    (ow = false ∧ ¬ NameFree w i name →
      (w.newCell false i name ow upd).2 = .error .valueError ∧
      (w.newCell false i name ow upd).1.libs = w.libs) ∧
    (ow = true ∨ NameFree w i name →
      (w.newCell false i name ow upd).2 = .ok w.heap.ncells ∧
      ∀ j k, ((w.newCell false i name ow upd).1.libs j).lookup k =
        if j = i ∧ k = name then some w.heap.ncells else (w.libs j).lookup k) := by
  have hcr := createCell_off w name false false rfl
  rw [newCell_view false w _ i _ name ow upd hcr]
  have hcl : Clash ⟨(w.heap.newCell name).1, w.libs i⟩ w.heap.ncells ↔ ¬ NameFree w i name := by
    rw [clash_new (hw i), nameFree_iff]
    exact Option.ne_none_iff_exists'.symm
  obtain ⟨h1, h2, h3, -, -⟩ := addLoop_one_cells ow upd ⟨(w.heap.newCell name).1, w.libs i⟩ w.heap.ncells
  have e : (w.heap.newCell name).1.name w.heap.ncells = name := by simp [Heap.newCell]
  constructor
  · rintro ⟨ho, hn⟩
    have hne : (addLoop ow upd ⟨(w.heap.newCell name).1, w.libs i⟩ [w.heap.ncells]).2 ≠ none := by
      rw [Ne, h1, hcl]
      simp [ho, hn]
    rw [h2 hne]
    simp [World.put]
  · intro ho
    have hok : (addLoop ow upd ⟨(w.heap.newCell name).1, w.libs i⟩ [w.heap.ncells]).2 = none := by
      rw [h1, hcl, not_not]
      exact ho
    have h3' := h3 hok
    revert hok h3'
    rcases addLoop ow upd ⟨(w.heap.newCell name).1, w.libs i⟩ [w.heap.ncells] with ⟨st, er⟩
    intro hok h3'
    simp only at hok h3'
    subst hok
    refine ⟨rfl, fun j k => ?_⟩
    by_cases hj : j = i
    · subst hj
      simp [World.put, h3', e, dictPut_lookup]
    · simp [World.put, hj]

/-- **C84.** With `use_current_library` true, the exact outcome of
`lib.new_cell(name, overwrite_duplicate)`, also for `lib` the global library. It returns the new
cell exactly when the name is free in the global library and, unless `overwrite_duplicate`, in
`lib`; the cell is then filed in both. If the name is taken in the global library it raises
`ValueError` and no library changes. If it is free there but taken in `lib`, it raises `ValueError`
but the global library keeps the cell. -/
theorem C84_new_cell_global (w : World) (hw : WorldOk w) (i : Nat) (name : Str) (ow upd : Bool) :
    (¬ NameFree w 0 name → (w.newCell true i name ow upd).2 = .error .valueError ∧
      (w.newCell true i name ow upd).1.libs = w.libs) ∧
    (NameFree w 0 name → ow = false → ¬ NameFree w i name →
      (w.newCell true i name ow upd).2 = .error .valueError ∧
      ∀ j k, ((w.newCell true i name ow upd).1.libs j).lookup k =
        if j = 0 ∧ k = name then some w.heap.ncells else (w.libs j).lookup k) ∧
    (NameFree w 0 name → ow = true ∨ NameFree w i name →
      (w.newCell true i name ow upd).2 = .ok w.heap.ncells ∧
      ∀ j k, ((w.newCell true i name ow upd).1.libs j).lookup k =
        if (j = 0 ∨ j = i) ∧ k = name then some w.heap.ncells else (w.libs j).lookup k) := by
  have e : (w.heap.newCell name).1.name w.heap.ncells = name := by simp [Heap.newCell]
  constructor
  · intro h
    unfold World.newCell
    rw [createCell_on_taken w hw name h]
    exact ⟨rfl, rfl⟩
  by_cases hfree : NameFree w 0 name
  swap
  · exact ⟨fun h => absurd h hfree, fun h => absurd h hfree⟩
  rw [newCell_view true w _ i _ name ow upd (createCell_on_ok w hw name hfree)]
  by_cases hi : i = 0
  · subst hi
    obtain ⟨h1, h2, h3, -, -⟩ := addLoop_one_cells ow upd
      ⟨(w.heap.newCell name).1, dictPut (w.libs 0) name w.heap.ncells⟩ w.heap.ncells
    refine ⟨fun _ _ h => absurd hfree h, fun _ _ => ?_⟩
    have hok := h1.2 (Or.inr clash_same)
    have h3' := h3 hok
    simp only [Function.update_self]
    revert hok h3'
    rcases addLoop ow upd ⟨(w.heap.newCell name).1, dictPut (w.libs 0) name w.heap.ncells⟩
      [w.heap.ncells] with ⟨st, er⟩
    intro hok h3'
    simp only at hok h3'
    subst hok
    refine ⟨rfl, fun j k => ?_⟩
    by_cases hj : j = 0
    · subst hj
      simp only [World.put, Function.update_self, h3', e, dictPut_lookup]
      by_cases hk : k = name <;> simp [hk]
    · simp [World.put, hj]
  · simp only [Function.update_of_ne hi]
    have hcl : Clash ⟨(w.heap.newCell name).1, w.libs i⟩ w.heap.ncells ↔ ¬ NameFree w i name := by
      rw [clash_new (hw i), nameFree_iff]
      exact Option.ne_none_iff_exists'.symm
    obtain ⟨h1, h2, h3, -, -⟩ := addLoop_one_cells ow upd ⟨(w.heap.newCell name).1, w.libs i⟩
      w.heap.ncells
    constructor
    · intro _ ho hn
      have hne : (addLoop ow upd ⟨(w.heap.newCell name).1, w.libs i⟩ [w.heap.ncells]).2 ≠ none := by
        rw [Ne, h1, hcl]
        simp [ho, hn]
      rw [h2 hne]
      refine ⟨rfl, fun j k => ?_⟩
      by_cases hji : j = i
      · subst hji
        simp [World.put, hi]
      · by_cases hj : j = 0
        · subst hj
          simp [World.put, hji, dictPut_lookup]
        · simp [World.put, hji, hj]
    · intro _ ho
      have hok : (addLoop ow upd ⟨(w.heap.newCell name).1, w.libs i⟩ [w.heap.ncells]).2 = none := by
        rw [h1, hcl, not_not]
        exact ho
      have h3' := h3 hok
      revert hok h3'
      rcases addLoop ow upd ⟨(w.heap.newCell name).1, w.libs i⟩ [w.heap.ncells] with ⟨st, er⟩
      intro hok h3'
      simp only at hok h3'
      subst hok
      refine ⟨rfl, fun j k => ?_⟩
      by_cases hji : j = i
      · subst hji
        simp [World.put, h3', e, dictPut_lookup]
      · by_cases hj : j = 0
        · subst hj
          simp [World.put, hji, dictPut_lookup]
        · simp [World.put, hji, hj]

theorem mem_dictPut {d : CellDict} {k : Str} {v : Nat} {p : Str × Nat} (h : p ∈ dictPut d k v) :
    p = (k, v) ∨ p ∈ d := by
  induction d with
  | nil => simpa [dictPut] using h
  | cons q d ih =>
    obtain ⟨k', v'⟩ := q
    simp only [dictPut] at h
    split at h
    · rcases List.mem_cons.1 h with h | h
      · exact Or.inl h
      · exact Or.inr (List.mem_cons_of_mem _ h)
    · rcases List.mem_cons.1 h with h | h
      · exact Or.inr (h ▸ List.mem_cons_self)
      · exact (ih h).imp id (List.mem_cons_of_mem _)

theorem createCell_wf (use : Bool) (w : World) (hw : WorldOk w) (name : Str) :
    WorldOk (w.createCell use name false).1 ∧
      (w.createCell use name false).1.heap.ncells = w.heap.ncells + 1 := by
  cases use with
  | false =>
    rw [createCell_off w name false false rfl]
    refine ⟨fun i p hp => ?_, rfl⟩
    have := hw i p hp
    show p.2 < w.heap.ncells + 1
    omega
  | true =>
    by_cases h : NameFree w 0 name
    · rw [createCell_on_ok w hw name h]
      refine ⟨fun i p hp => ?_, rfl⟩
      show p.2 < w.heap.ncells + 1
      by_cases hi : i = 0
      · subst hi
        simp only [Function.update_self] at hp
        rcases mem_dictPut hp with rfl | hp
        · simp
        · have := hw 0 p hp
          omega
      · simp only [Function.update_of_ne hi] at hp
        have := hw i p hp
        omega
    · rw [createCell_on_taken w hw name h]
      refine ⟨fun i p hp => ?_, rfl⟩
      have := hw i p hp
      show p.2 < w.heap.ncells + 1
      omega

theorem newCell_wf (use : Bool) (w : World) (hw : WorldOk w) (i : Nat) (name : Str) (ow upd : Bool) :
    WorldOk (w.newCell use i name ow upd).1 := by
  obtain ⟨h1, h2⟩ := createCell_wf use w hw name
  unfold World.newCell
  have hc : ∀ c, (w.createCell use name false).2 = .ok c → c = w.heap.ncells := by
    intro c
    cases use with
    | false =>
      rw [createCell_off w name false false rfl]
      intro h
      simpa using h.symm
    | true =>
      by_cases h : NameFree w 0 name
      · rw [createCell_on_ok w hw name h]
        intro h
        simpa using h.symm
      · rw [createCell_on_taken w hw name h]
        intro h
        simp at h
  revert h1 h2 hc
  rcases w.createCell use name false with ⟨w1, e | c⟩
  · intro h1 _ _
    exact h1
  · intro h1 h2 hc
    have hc := hc c rfl
    subst hc
    obtain ⟨a1, a2, a3, a4, -⟩ := addLoop_one_cells ow upd (w1.view i) w.heap.ncells
    simp only
    revert a1 a2 a3 a4
    rcases addLoop ow upd (w1.view i) [w.heap.ncells] with ⟨st, _ | e⟩
    · intro _ _ a3 a4 j p hp
      simp only [World.put] at hp ⊢
      have a3 := a3 rfl
      have a4 : st.heap.ncells = w1.heap.ncells := a4
      simp only at h2
      by_cases hj : j = i
      · subst hj
        simp only [Function.update_self] at hp
        have a3 : st.cells = _ := a3
        rw [a3] at hp
        rcases mem_dictPut hp with rfl | hp
        · simp only
          omega
        · have := h1 j p hp
          simp only at this
          omega
      · simp only [Function.update_of_ne hj] at hp
        have := h1 j p hp
        simp only at this
        omega
    · intro _ a2 _ a4 j p hp
      have a2 := a2 (by simp)
      simp only [Prod.mk.injEq] at a2
      have a2 := a2.1
      subst a2
      simp only [World.put, World.view, Function.update_eq_self] at hp ⊢
      exact h1 j p hp

theorem emptyWorld_ok : WorldOk emptyWorld := fun _ _ hp => by simp [emptyWorld] at hp

/-- The names that the global library has after a call, and whether the call raises. -/
theorem newCell_free (use : Bool) (w : World) (hw : WorldOk w) (i : Nat) (name : Str) (upd : Bool)
    (c : Nat) (h : (w.newCell use i name false upd).2 = .ok c) (j : Nat) (k : Str) :
    NameFree (w.newCell use i name false upd).1 j k ↔
      NameFree w j k ∧ ¬ (((use = true ∧ j = 0) ∨ j = i) ∧ k = name) := by
  simp only [nameFree_iff]
  cases use with
  | false =>
    obtain ⟨h1, h2⟩ := C84_new_cell_local w hw i name false upd
    by_cases hf : NameFree w i name
    · rw [(h2 (Or.inr hf)).2 j k]
      by_cases hc : j = i ∧ k = name
      · simp [hc]
      · simp only [hc, if_false]
        simp [hc]
    · rw [(h1 ⟨rfl, hf⟩).1] at h
      simp at h
  | true =>
    obtain ⟨h1, h2, h3⟩ := C84_new_cell_global w hw i name false upd
    by_cases h0 : NameFree w 0 name
    · by_cases hf : NameFree w i name
      · rw [(h3 h0 (Or.inr hf)).2 j k]
        by_cases hc : (j = 0 ∨ j = i) ∧ k = name
        · simp [hc]
        · simp only [hc, if_false]
          simp [hc]
      · rw [(h2 h0 rfl hf).1] at h
        simp at h
    · rw [(h1 h0).1] at h
      simp at h

/-- With `overwrite_duplicate`, too: the global library has the name after a call that did not
raise, and it keeps the names that it had. -/
theorem newCell_global_free (w : World) (hw : WorldOk w) (i : Nat) (name : Str) (ow upd : Bool)
    (c : Nat) (h : (w.newCell true i name ow upd).2 = .ok c) (k : Str) :
    NameFree (w.newCell true i name ow upd).1 0 k ↔ NameFree w 0 k ∧ k ≠ name := by
  simp only [nameFree_iff]
  obtain ⟨h1, h2, h3⟩ := C84_new_cell_global w hw i name ow upd
  by_cases h0 : NameFree w 0 name
  · by_cases hf : ow = true ∨ NameFree w i name
    · rw [(h3 h0 hf).2 0 k]
      by_cases hc : k = name
      · simp [hc]
      · simp [hc]
    · rw [not_or, Bool.not_eq_true] at hf
      rw [(h2 h0 hf.1 hf.2).1] at h
      simp at h
  · rw [(h1 h0).1] at h
    simp at h

/-- **C84 (violated).** Default setting: after a successful `lib1.new_cell(name)`, a call
`lib2.new_cell(name)` raises `ValueError` for every library, the first one with
`overwrite_duplicate=True` included, and changes no library. -/
theorem C84_second_library_raises (w : World) (hw : WorldOk w) (i j : Nat) (name : Str)
    (ow upd ow' upd' : Bool) (c : Nat) (h : (w.newCell true i name ow upd).2 = .ok c) :
    let w' := (w.newCell true i name ow upd).1
    (w'.newCell true j name ow' upd').2 = .error .valueError ∧
      (w'.newCell true j name ow' upd').1.libs = w'.libs := by
  intro w'
  have hn : ¬ NameFree w' 0 name := by
    rw [newCell_global_free w hw i name ow upd c h]
    simp
  exact (C84_new_cell_global w' (newCell_wf true w hw i name ow upd) j name ow' upd').1 hn

example : (emptyWorld.newCell true 1 ['A'] false true).2 = .ok 0 := by rfl

/-- **C84 (violated).** Default setting: a call of `new_cell` that raised because `lib` has the name
uses up the name: every later call of `new_cell` with it raises, in every library. -/
theorem C84_failure_leaves_cell (w : World) (hw : WorldOk w) (i j : Nat) (name : Str)
    (upd ow' upd' : Bool) (h0 : NameFree w 0 name) (hi : ¬ NameFree w i name) :
    let w' := (w.newCell true i name false upd).1
    (w.newCell true i name false upd).2 = .error .valueError ∧ ¬ NameFree w' 0 name ∧
      (w'.newCell true j name ow' upd').2 = .error .valueError := by
  intro w'
  obtain ⟨h1, h2⟩ := (C84_new_cell_global w hw i name false upd).2.1 h0 rfl hi
  have hn : ¬ NameFree w' 0 name := by
    rw [nameFree_iff, h2 0 name]
    simp
  exact ⟨h1, hn, ((C84_new_cell_global w' (newCell_wf true w hw i name false upd) j name ow' upd').1
    hn).1⟩

/-- Library 1 has a cell A that is not in the global library (as after `read_gds`). -/
def readWorld : World :=
  ⟨⟨1, 0, fun _ => ['A'], fun _ => [], fun _ => .str []⟩, fun i => if i = 1 then [(['A'], 0)] else []⟩

example : WorldOk readWorld ∧ NameFree readWorld 0 ['A'] ∧ ¬ NameFree readWorld 1 ['A'] := by
  refine ⟨fun i p hp => ?_, ?_, ?_⟩
  · unfold readWorld at hp ⊢
    simp only at hp ⊢
    split at hp <;> simp_all
  · simp [nameFree_iff, readWorld]
  · simp [nameFree_iff, readWorld]

theorem newCells_global (l : List NewCall) : ∀ w : World, WorldOk w →
    (∀ i k, NameFree w 0 k → NameFree w i k) →
    ((w.newCells true l).2 = none ↔
      (∀ k ∈ l, NameFree w 0 k.name) ∧ (l.map NewCall.name).Nodup) := by
  induction l with
  | nil => intro w _ _; simp [World.newCells]
  | cons k l ih =>
    intro w hw hall
    obtain ⟨h1, -, h3⟩ := C84_new_cell_global w hw k.lib k.name k.ow k.upd
    by_cases h0 : NameFree w 0 k.name
    · obtain ⟨hok, hlk⟩ := h3 h0 (Or.inr (hall k.lib k.name h0))
      have hwf := newCell_wf true w hw k.lib k.name k.ow k.upd
      have hfree := newCell_global_free w hw k.lib k.name k.ow k.upd _ hok
      have hall' : ∀ i s, NameFree (w.newCell true k.lib k.name k.ow k.upd).1 0 s →
          NameFree (w.newCell true k.lib k.name k.ow k.upd).1 i s := by
        intro i s hs
        rw [hfree] at hs
        rw [nameFree_iff, hlk i s]
        simp only [hs.2, and_false, if_false]
        exact nameFree_iff.1 (hall i s hs.1)
      have ih := ih _ hwf hall'
      have e : (w.newCells true (k :: l)).2
          = ((w.newCell true k.lib k.name k.ow k.upd).1.newCells true l).2 := by
        rw [World.newCells]
        revert hok
        rcases w.newCell true k.lib k.name k.ow k.upd with ⟨w1, e | c⟩
        · intro h; simp at h
        · intro _; rfl
      rw [e, ih]
      simp only [hfree, List.mem_cons, List.map_cons, List.nodup_cons, List.mem_map]
      constructor
      · rintro ⟨ha, hb⟩
        refine ⟨?_, ?_, hb⟩
        · rintro x (rfl | hx)
          · exact h0
          · exact (ha x hx).1
        · rintro ⟨x, hx, hxe⟩
          exact (ha x hx).2 hxe
      · rintro ⟨ha, hb, hc⟩
        exact ⟨fun x hx => ⟨ha x (Or.inr hx), fun hxe => hb ⟨x, hx, hxe⟩⟩, hc⟩
    · have e : (w.newCells true (k :: l)).2 = some .valueError := by
        rw [World.newCells]
        have := (h1 h0).1
        revert this
        rcases w.newCell true k.lib k.name k.ow k.upd with ⟨w1, e | c⟩
        · intro h
          simpa using h
        · intro h; simp at h
      rw [e]
      simp only [reduceCtorEq, false_iff, not_and]
      intro ha
      exact absurd (ha k List.mem_cons_self) h0

theorem newCells_local (l : List NewCall) : ∀ w : World, WorldOk w → (∀ k ∈ l, k.ow = false) →
    ((w.newCells false l).2 = none ↔
      (∀ k ∈ l, NameFree w k.lib k.name) ∧ (l.map fun k => (k.lib, k.name)).Nodup) := by
  induction l with
  | nil => intro w _ _; simp [World.newCells]
  | cons k l ih =>
    intro w hw how
    have hk := how k List.mem_cons_self
    obtain ⟨h1, h3⟩ := C84_new_cell_local w hw k.lib k.name k.ow k.upd
    by_cases h0 : NameFree w k.lib k.name
    · obtain ⟨hok, hlk⟩ := h3 (Or.inr h0)
      have hwf := newCell_wf false w hw k.lib k.name k.ow k.upd
      have hfree : ∀ j s, NameFree (w.newCell false k.lib k.name k.ow k.upd).1 j s ↔
          NameFree w j s ∧ ¬ (j = k.lib ∧ s = k.name) := by
        intro j s
        rw [hk] at hok ⊢
        rw [newCell_free false w hw k.lib k.name k.upd _ hok j s]
        simp
      have ih := ih _ hwf (fun x hx => how x (List.mem_cons_of_mem _ hx))
      have e : (w.newCells false (k :: l)).2
          = ((w.newCell false k.lib k.name k.ow k.upd).1.newCells false l).2 := by
        rw [World.newCells]
        revert hok
        rcases w.newCell false k.lib k.name k.ow k.upd with ⟨w1, e | c⟩
        · intro h; simp at h
        · intro _; rfl
      rw [e, ih]
      simp only [hfree, List.mem_cons, List.map_cons, List.nodup_cons, List.mem_map, Prod.mk.injEq]
      constructor
      · rintro ⟨ha, hb⟩
        refine ⟨?_, ?_, hb⟩
        · rintro x (rfl | hx)
          · exact h0
          · exact (ha x hx).1
        · rintro ⟨x, hx, hxe⟩
          exact (ha x hx).2 hxe
      · rintro ⟨ha, hb, hc⟩
        exact ⟨fun x hx => ⟨ha x (Or.inr hx), fun hxe => hb ⟨x, hx, hxe⟩⟩, hc⟩
    · have e : (w.newCells false (k :: l)).2 = some .valueError := by
        rw [World.newCells]
        have := (h1 ⟨hk, h0⟩).1
        revert this
        rcases w.newCell false k.lib k.name k.ow k.upd with ⟨w1, e | c⟩
        · intro h
          simpa using h
        · intro h; simp at h
      rw [e]
      simp only [reduceCtorEq, false_iff, not_and]
      intro ha
      exact absurd (ha k List.mem_cons_self) h0

/-- **C84.** A program that makes cells with `new_cell` in any number of libraries, with
`use_current_library` false and without overwriting: it runs to the end exactly when no library is
asked twice for the same name. -/
theorem C84_names_local (l : List NewCall) (h : ∀ k ∈ l, k.ow = false) :
    (emptyWorld.newCells false l).2 = none ↔ (l.map fun k => (k.lib, k.name)).Nodup := by
  rw [newCells_local l _ emptyWorld_ok h]
  simp [NameFree, emptyWorld]

example : (emptyWorld.newCells false [⟨1, ['A'], false, true⟩, ⟨2, ['A'], false, true⟩]).2 = none := by
  rfl

/-- **C84 (violated).** The same with the default setting: the program runs to the end exactly when
all the names are different, whatever the libraries, and whatever `overwrite_duplicate` says. -/
theorem C84_names_global (l : List NewCall) :
    (emptyWorld.newCells true l).2 = none ↔ (l.map NewCall.name).Nodup := by
  rw [newCells_global l _ emptyWorld_ok (fun i k _ => by simp [NameFree, emptyWorld])]
  simp [NameFree, emptyWorld]

example : (emptyWorld.newCells true [⟨1, ['A'], false, true⟩, ⟨2, ['A'], false, true⟩]).2
    = some .valueError := by
  rfl

/-! ### `extract` -/

/-- **C84.** `lib.extract(cell)` without overwriting: when it returns, every cell reached from
the cell is in the global library under its name, the global library keeps its other entries, the
other libraries and all references are as before, and the cell is returned. -/
theorem C84_extract {iter : List Nat → List Nat} (hi : IterOk iter) {fuel : Nat} {w w' : World}
    {i : Nat} {s : Str} {c : Nat} {r : CellArg} (hs : (w.libs i).lookup s = some c)
    (h : w.extract iter fuel i (.str s) false = some (w', .ok r)) :
    r = .obj c ∧
    (∀ x, x = c ∨ Reach w.heap c x → (w'.libs 0).lookup (w.heap.name x) = some x) ∧
    (∀ k, (∀ x, x = c ∨ Reach w.heap c x → w.heap.name x ≠ k) →
      (w'.libs 0).lookup k = (w.libs 0).lookup k) ∧
    (∀ j, j ≠ 0 → w'.libs j = w.libs j) ∧ w'.heap = w.heap := by
  unfold World.extract at h
  have hg : (w.view i).getCell (.str s) = .obj c := by
    simp [LState.getCell, World.view, hs]
  rw [hg] at h
  simp only at h
  cases ha : (w.view 0).add iter fuel [c] true false true with
  | none => rw [ha] at h; simp at h
  | some q =>
    obtain ⟨st, e⟩ := q
    rw [ha] at h
    cases e with
    | some e => simp at h
    | none =>
      simp only [Option.some.injEq, Prod.mk.injEq, Except.ok.injEq] at h
      obtain ⟨h1, h2⟩ := C24_add_closes hi ha
      have hnm : st.heap = w.heap := by
        obtain ⟨l, -, -, hl⟩ := add_inv hi ha
        have := (addLoop_keeps true l (w.view 0)).1
        rw [hl] at this
        exact this
      refine ⟨h.2.symm, ?_, ?_, ?_, by rw [← h.1]; exact hnm⟩
      · intro x hx
        rw [← h.1]
        have := h1 c x (by simp) hx
        simp only [World.put, Function.update_self]
        rw [hnm] at this
        exact this
      · intro k hk
        rw [← h.1]
        simp only [World.put, Function.update_self]
        refine h2 k ?_
        intro c' x hc' hx
        rw [List.mem_singleton] at hc'
        subst hc'
        exact hk x hx
      · intro j hj
        rw [← h.1]
        simp [World.put, hj]

/-- Library 1 has A, which references B, which is in no library. -/
def extractWorld : World :=
  ⟨⟨2, 1, fun c => if c = 0 then ['A'] else ['B'], fun c => if c = 0 then [0] else [], fun _ => .obj 1⟩,
    fun i => if i = 1 then [(['A'], 0)] else []⟩

example : ∃ w', extractWorld.extract List.dedup 9 1 (.str ['A']) false = some (w', .ok (.obj 0)) ∧
    w'.libs 0 = [(['A'], 0), (['B'], 1)] := ⟨_, rfl, by decide⟩

/-- **C84.** `lib.extract(cell)` without overwriting raises exactly when one of the cells to be
extracted has the name of a different cell of the global library, or two of them have the same
name. The exception is `ValueError`. -/
theorem C84_extract_raises_iff {iter : List Nat → List Nat} (hi : IterOk iter) {fuel : Nat}
    {w w' : World} {i : Nat} {s : Str} {c : Nat} {r : Py CellArg}
    (hs : (w.libs i).lookup s = some c) (h : w.extract iter fuel i (.str s) false = some (w', r)) :
    (r = .error .valueError ↔
      (∃ x, (x = c ∨ Reach w.heap c x) ∧ ∃ d, (w.libs 0).lookup (w.heap.name x) = some d ∧ d ≠ x) ∨
      ∃ x y, (x = c ∨ Reach w.heap c x) ∧ (y = c ∨ Reach w.heap c y) ∧ x ≠ y ∧
        w.heap.name x = w.heap.name y) ∧
    (r ≠ .error .valueError → r = .ok (.obj c)) := by
  unfold World.extract at h
  have hg : (w.view i).getCell (.str s) = .obj c := by
    simp [LState.getCell, World.view, hs]
  rw [hg] at h
  simp only at h
  have hto : ∀ x, ToAdd w.heap [c] true x ↔ (x = c ∨ Reach w.heap c x) := by
    intro x
    simp [ToAdd]
  cases ha : (w.view 0).add iter fuel [c] true false true with
  | none => rw [ha] at h; simp at h
  | some q =>
    obtain ⟨st, e⟩ := q
    rw [ha] at h
    have hiff := C23_add_raises_iff hi ha
    have hiff : e ≠ none ↔
        (∃ x, (x = c ∨ Reach w.heap c x) ∧ ∃ d, (w.libs 0).lookup (w.heap.name x) = some d ∧ d ≠ x) ∨
        ∃ x y, (x = c ∨ Reach w.heap c x) ∧ (y = c ∨ Reach w.heap c y) ∧ x ≠ y ∧
          w.heap.name x = w.heap.name y := by
      rw [hiff]
      simp only [World.view, hto, Clash]
    cases e with
    | some e =>
      simp only [Option.some.injEq, Prod.mk.injEq] at h
      have he : e = .valueError := by
        obtain ⟨l, -, -, hl⟩ := add_inv hi ha
        have hgen : ∀ (l : List Nat) (st st' : LState),
            addLoop false true st l = (st', some e) → e = .valueError := by
          intro l
          induction l with
          | nil => intro st st' h; simp [addLoop] at h
          | cons a l ih =>
            intro st st' h
            unfold addLoop at h
            rcases hst : addStep false true st a with ⟨s1, _ | e1⟩
            · rw [hst] at h
              exact ih _ _ h
            · rw [hst] at h
              simp only [Prod.mk.injEq, Option.some.injEq] at h
              rw [← h.2]
              exact (addStep_err hst).2.2.2
        exact hgen l _ _ hl
      rw [← h.2, he, ← hiff]
      simp
    | none =>
      simp only [Option.some.injEq, Prod.mk.injEq] at h
      rw [← h.2, ← hiff]
      simp

/-- **C84 (violated).** The documentation of `extract` says that references to an overwritten cell of
the global library are not updated. They are: in every cell that was in the global library and
still is, each reference to something with the name of a replaced cell points to the replacement. -/
theorem C84_extract_updates {iter : List Nat → List Nat} (hi : IterOk iter) {fuel : Nat}
    {w w' : World} {i : Nat} {s : Str} {c : Nat} {r : Py CellArg}
    (hs : (w.libs i).lookup s = some c) (h : w.extract iter fuel i (.str s) true = some (w', r))
    (hinj : ∀ x y, (x = c ∨ Reach w.heap c x) → (y = c ∨ Reach w.heap c y) →
      w.heap.name x = w.heap.name y → x = y)
    (k : Str) (d : Nat) (hold : (w.libs 0).lookup k = some d) (hnew : (w'.libs 0).lookup k = some d)
    (ref : Nat) (href : ref ∈ w.heap.refs d) (x : Nat) (hx : x = c ∨ Reach w.heap c x)
    (old : Nat) (hcl : (w.libs 0).lookup (w.heap.name x) = some old) (hne : old ≠ x)
    (ht : w.heap.target ref = .obj old) (hon : w.heap.name old = w.heap.name x) :
    r = .ok (.obj c) ∧ w'.heap.target ref = .obj x := by
  unfold World.extract at h
  have hg : (w.view i).getCell (.str s) = .obj c := by
    simp [LState.getCell, World.view, hs]
  rw [hg] at h
  simp only at h
  have hto : ∀ x, ToAdd (w.view 0).heap [c] true x ↔ (x = c ∨ Reach w.heap c x) := by
    intro x
    simp [ToAdd, World.view]
  cases ha : (w.view 0).add iter fuel [c] true true true with
  | none => rw [ha] at h; simp at h
  | some q =>
    obtain ⟨st, e⟩ := q
    rw [ha] at h
    have hnew' : st.cells.lookup k = some d := by
      cases e with
      | some e =>
        simp only [Option.some.injEq, Prod.mk.injEq] at h
        rw [← h.1] at hnew
        simpa [World.put] using hnew
      | none =>
        simp only [Option.some.injEq, Prod.mk.injEq] at h
        rw [← h.1] at hnew
        simpa [World.put] using hnew
    obtain ⟨he, h1, -⟩ := C25_overwrite_redirects hi ha
      (fun a b ha hb => hinj a b ((hto a).1 ha) ((hto b).1 hb)) k d hold hnew' ref href
    subst he
    simp only [Option.some.injEq, Prod.mk.injEq] at h
    refine ⟨h.2.symm, ?_⟩
    rw [← h.1]
    exact h1 x ((hto x).2 hx) ⟨old, hcl, hne⟩ (Or.inr ⟨old, ht, hon⟩)

/-- The global library has A (cell 1) and T (cell 2), which references it; library 1 has its own A. -/
def overwriteWorld : World :=
  ⟨⟨3, 1, fun c => if c = 2 then ['T'] else ['A'], fun c => if c = 2 then [0] else [], fun _ => .obj 1⟩,
    fun i => if i = 1 then [(['A'], 0)] else if i = 0 then [(['A'], 1), (['T'], 2)] else []⟩

example : ∃ w', overwriteWorld.extract List.dedup 9 1 (.str ['A']) true = some (w', .ok (.obj 0)) ∧
    w'.libs 0 = [(['A'], 0), (['T'], 2)] ∧ w'.heap.target 0 = .obj 0 :=
  ⟨_, rfl, by decide, by decide⟩

/-- **C84.** `lib.extract(name)` with a name that `lib` does not have: `AttributeError`, except for
the empty string, which is returned; no library changes. -/
theorem C84_extract_unknown (iter : List Nat → List Nat) (fuel : Nat) (w : World) (i : Nat) (s : Str)
    (ow : Bool) (hs : NameFree w i s) :
    w.extract iter fuel i (.str s) ow
      = some (w, if s = [] then .ok (.str []) else .error .attributeError) := by
  have hg : (w.view i).getCell (.str s) = .str s := by
    simp [LState.getCell, World.view, nameFree_iff.1 hs]
  unfold World.extract
  rw [hg]
  cases s <;> simp

end Gdspy
