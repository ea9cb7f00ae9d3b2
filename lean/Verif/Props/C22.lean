import Verif.Lemmas.Library

/-!
# C22: library keys match cell names
-/

namespace Gdspy

open Spec

/-- The invariant: keys match names, and all objects in use exist. -/
def LibInv (st : LState) : Prop := KeysMatch st ∧ Allocated st

theorem resolve_alloc {st : LState} (h : Allocated st) (t : Tgt)
    (ht : ∀ c, t = .obj c → c < st.heap.ncells) :
    ∀ c, st.resolve t = .obj c → c < st.heap.ncells := by
  intro c hc
  cases t with
  | obj d => exact ht c hc
  | str s =>
    unfold LState.resolve at hc
    simp only at hc
    cases hl : st.cells.lookup s with
    | none => rw [hl] at hc; simp at hc
    | some d =>
      rw [hl] at hc
      simp only [Tgt.obj.injEq] at hc
      subst hc
      exact h.1 _ (mem_of_lookup hl)

theorem replace_inv {st : LState} (h : LibInv st) (old : Str) (new : Tgt)
    (hn : ∀ c, new = .obj c → c < st.heap.ncells) : LibInv (st.replaceReferences old new).1 := by
  obtain ⟨e1, e2, e3, e4, e5, e6⟩ := replaceReferences_spec st old new
  refine ⟨⟨by rw [e1]; exact h.1.1, ?_⟩, ?_, ?_⟩
  · intro p hp
    rw [e1] at hp
    rw [e2]
    exact h.1.2 p hp
  · intro p hp
    rw [e1] at hp
    rw [e4]
    exact h.2.1 p hp
  · intro r c hc
    rw [e6 r] at hc
    rw [e4]
    split at hc
    · exact resolve_alloc h.2 new hn c hc
    · exact h.2.2 r c hc

theorem put_inv {st : LState} (h : LibInv st) (c : Nat) (hc : c < st.heap.ncells) :
    LibInv { st with cells := dictPut st.cells (st.heap.name c) c } := by
  refine ⟨⟨dictPut_nodup h.1.1 _ _, ?_⟩, ?_, h.2.2⟩
  · intro p hp
    rcases (dictPut_mem h.1.1).1 hp with rfl | ⟨hp, _⟩
    · rfl
    · exact h.1.2 p hp
  · intro p hp
    rcases (dictPut_mem h.1.1).1 hp with rfl | ⟨hp, _⟩
    · exact hc
    · exact h.2.1 p hp

theorem addStep_inv {st : LState} (h : LibInv st) (ow upd : Bool) (c : Nat) (hc : c < st.heap.ncells) :
    LibInv (addStep ow upd st c).1 ∧ (addStep ow upd st c).1.heap.ncells = st.heap.ncells := by
  unfold addStep
  split
  · exact ⟨h, rfl⟩
  · simp only
    split
    · obtain ⟨e1, e2, e3, e4, e5, e6⟩ := replaceReferences_spec st (st.heap.name c) (.obj c)
      have hi := replace_inv h (st.heap.name c) (.obj c) (by rintro d ⟨⟩; exact hc)
      have := put_inv hi c (by rw [e4]; exact hc)
      rw [e2] at this
      exact ⟨this, e4⟩
    · exact ⟨put_inv h c hc, rfl⟩

theorem addLoop_inv (ow upd : Bool) : ∀ (l : List Nat) {st : LState}, LibInv st →
    (∀ c ∈ l, c < st.heap.ncells) → LibInv (addLoop ow upd st l).1 := by
  intro l
  induction l with
  | nil => intro st h _; exact h
  | cons c l ih =>
    intro st h hl
    obtain ⟨h1, h2⟩ := addStep_inv h ow upd c (hl c List.mem_cons_self)
    unfold addLoop
    cases hs : addStep ow upd st c with
    | mk st' e =>
      rw [hs] at h1 h2
      cases e with
      | some e => exact h1
      | none =>
        simp only
        refine ih h1 ?_
        intro d hd
        have := hl d (List.mem_cons_of_mem _ hd)
        simp only at h2
        omega

theorem directDeps_mem {h : Heap} {c x : Nat} : x ∈ h.directDeps c ↔ Edge h c x := by
  unfold Heap.directDeps Edge
  rw [List.mem_filterMap]
  constructor
  · rintro ⟨r, hr, hx⟩
    refine ⟨r, hr, ?_⟩
    cases ht : h.target r with
    | obj d => rw [ht] at hx; simp only [Option.some.injEq] at hx; rw [hx]
    | str s => rw [ht] at hx; simp at hx
  · rintro ⟨r, hr, hx⟩
    exact ⟨r, hr, by rw [hx]⟩

theorem collectAll_some {f : Nat → Option (List Nat)} : ∀ {l out : List Nat},
    collectAll f l = some out →
    (∀ d ∈ l, ∃ a, f d = some a) ∧
      ∀ x, x ∈ out ↔ x ∈ l ∨ ∃ d ∈ l, ∃ a, f d = some a ∧ x ∈ a := by
  intro l
  induction l with
  | nil =>
    intro out h
    simp only [collectAll, Option.some.injEq] at h
    subst h
    simp
  | cons d l ih =>
    intro out h
    simp only [collectAll] at h
    cases ha : f d with
    | none => rw [ha] at h; simp at h
    | some a =>
      cases hb : collectAll f l with
      | none => rw [ha, hb] at h; simp at h
      | some b =>
        rw [ha, hb] at h
        simp only [Option.pure_def, Option.bind_eq_bind, Option.bind_some, Option.some.injEq] at h
        subst h
        obtain ⟨h1, h2⟩ := ih hb
        refine ⟨?_, ?_⟩
        · intro e he
          rcases List.mem_cons.1 he with rfl | he
          · exact ⟨a, ha⟩
          · exact h1 e he
        · intro x
          simp only [List.mem_append, List.mem_cons, h2 x]
          constructor
          · rintro (h | h | h | ⟨e, he, b', hb', hx⟩)
            · exact Or.inr ⟨d, Or.inl rfl, a, ha, h⟩
            · exact Or.inl (Or.inl h)
            · exact Or.inl (Or.inr h)
            · exact Or.inr ⟨e, Or.inr he, b', hb', hx⟩
          · rintro ((h | h) | ⟨e, rfl | he, b', hb', hx⟩)
            · exact Or.inr (Or.inl h)
            · exact Or.inr (Or.inr (Or.inl h))
            · rw [ha] at hb'
              exact Or.inl (Option.some.inj hb' ▸ hx)
            · exact Or.inr (Or.inr (Or.inr ⟨e, he, b', hb', hx⟩))

theorem deps_alloc {st : LState} (h : Allocated st) : ∀ (n c : Nat) (l : List Nat),
    st.heap.deps n c = some l → ∀ x ∈ l, x < st.heap.ncells := by
  intro n
  induction n with
  | zero => intro c l hl; simp [Heap.deps] at hl
  | succ n ih =>
    intro c l hl x hx
    obtain ⟨-, h2⟩ := collectAll_some hl
    rcases (h2 x).1 hx with hx | ⟨d, hd, a, ha, hx⟩
    · obtain ⟨r, _, hr⟩ := directDeps_mem.1 hx
      exact h.2 r x hr
    · exact ih d a ha x hx

theorem mapM_some {f : Nat → Option (List Nat)} : ∀ {l : List Nat} {out : List (List Nat)},
    l.mapM f = some out →
    (∀ c ∈ l, ∃ a ∈ out, f c = some a) ∧ ∀ a ∈ out, ∃ c ∈ l, f c = some a := by
  intro l
  induction l with
  | nil =>
    intro out h
    rw [List.mapM_nil, Option.pure_def, Option.some.injEq] at h
    subst h
    simp
  | cons c l ih =>
    intro out h
    rw [List.mapM_cons] at h
    cases ha : f c with
    | none => rw [ha] at h; simp at h
    | some a =>
      cases hb : l.mapM f with
      | none => rw [ha, hb] at h; simp at h
      | some b =>
        rw [ha, hb] at h
        simp only [Option.pure_def, Option.bind_eq_bind, Option.bind_some, Option.some.injEq] at h
        subst h
        obtain ⟨h1, h2⟩ := ih hb
        refine ⟨?_, ?_⟩
        · intro d hd
          rcases List.mem_cons.1 hd with rfl | hd
          · exact ⟨a, List.mem_cons_self, ha⟩
          · obtain ⟨x, hx, e⟩ := h1 d hd
            exact ⟨x, List.mem_cons_of_mem _ hx, e⟩
        · intro x hx
          rcases List.mem_cons.1 hx with rfl | hx
          · exact ⟨c, List.mem_cons_self, ha⟩
          · obtain ⟨d, hd, e⟩ := h2 x hx
            exact ⟨d, List.mem_cons_of_mem _ hd, e⟩

theorem cellSet_alloc {st : LState} (h : Allocated st) {fuel : Nat} {cells : List Nat} {deps : Bool}
    {s : List Nat} (hc : ∀ c ∈ cells, c < st.heap.ncells)
    (hs : cellSet st.heap fuel cells deps = some s) : ∀ x ∈ s, x < st.heap.ncells := by
  unfold cellSet at hs
  split at hs
  · cases hm : cells.mapM (st.heap.deps fuel) with
    | none => rw [hm] at hs; simp at hs
    | some l =>
      rw [hm] at hs
      simp only [Option.pure_def, Option.bind_eq_bind, Option.bind_some, Option.some.injEq] at hs
      subst hs
      intro x hx
      rcases List.mem_append.1 hx with hx | hx
      · exact hc x hx
      · obtain ⟨a, ha, hx⟩ := List.mem_flatten.1 hx
        obtain ⟨c, _, hca⟩ := (mapM_some hm).2 a ha
        exact deps_alloc h _ _ _ hca x hx
  · simp only [Option.some.injEq] at hs
    subst hs
    exact hc

theorem newCell_inv {st : LState} (h : LibInv st) (name : Str) :
    LibInv { st with heap := (st.heap.newCell name).1 } := by
  refine ⟨⟨h.1.1, ?_⟩, ?_, ?_⟩
  · intro p hp
    have := h.2.1 p hp
    show Function.update st.heap.name st.heap.ncells name p.2 = p.1
    rw [Function.update_of_ne (by omega)]
    exact h.1.2 p hp
  · intro p hp
    have := h.2.1 p hp
    show p.2 < st.heap.ncells + 1
    omega
  · intro r c hc
    have := h.2.2 r c hc
    show c < st.heap.ncells + 1
    omega

theorem newRef_inv {st : LState} (h : LibInv st) (c : Nat) (t : Tgt)
    (ht : ∀ d, t = .obj d → d < st.heap.ncells) :
    LibInv { st with heap := st.heap.newRef c t } := by
  refine ⟨h.1, h.2.1, ?_⟩
  intro r d hd
  show d < st.heap.ncells
  have hd' : Function.update st.heap.target st.heap.nrefs t r = .obj d := hd
  by_cases hr : r = st.heap.nrefs
  · subst hr
    rw [Function.update_self] at hd'
    exact ht d hd'
  · rw [Function.update_of_ne hr] at hd'
    exact h.2.2 r d hd'

theorem newRefs_inv (c : Nat) : ∀ (names : List Str) (h : Heap) (cells : CellDict), LibInv ⟨h, cells⟩ →
    LibInv ⟨names.foldl (fun h s => h.newRef c (.str s)) h, cells⟩ := by
  intro names
  induction names with
  | nil => intro h cells hi; exact hi
  | cons s names ih =>
    intro h cells hi
    exact ih _ _ (newRef_inv hi c (.str s) (by simp))

theorem newRefs_name (c : Nat) : ∀ (names : List Str) (h : Heap),
    (names.foldl (fun h s => h.newRef c (.str s)) h).name = h.name ∧
    (names.foldl (fun h s => h.newRef c (.str s)) h).ncells = h.ncells := by
  intro names
  induction names with
  | nil => intro h; exact ⟨rfl, rfl⟩
  | cons s names ih => intro h; exact ih _

theorem importCells_inv : ∀ (l : List (Str × List Str)) {st : LState} (made : List Nat), LibInv st →
    LibInv (importCells st l made).1 := by
  intro l
  induction l with
  | nil => intro st made h; exact h
  | cons x l ih =>
    intro st made h
    obtain ⟨name, names⟩ := x
    unfold importCells
    split
    · exact h
    · apply ih
      have h1 := newRefs_inv st.heap.ncells names _ _ (newCell_inv h name)
      have h2 := newRefs_name st.heap.ncells names (st.heap.newCell name).1
      have h3 := put_inv h1 st.heap.ncells (by
        simp only
        rw [h2.2]
        exact Nat.lt_succ_self _)
      simp only at h3
      rw [h2.1] at h3
      have e : (st.heap.newCell name).1.name st.heap.ncells = name := by
        simp [Heap.newCell]
      rw [e] at h3
      exact h3

theorem resolve_inv (cells : CellDict) : ∀ (made : List Nat) (h : Heap), LibInv ⟨h, cells⟩ →
    LibInv ⟨made.foldl (resolveStep cells) h, cells⟩ := by
  intro made
  induction made with
  | nil => intro h hi; exact hi
  | cons r made ih =>
    intro h hi
    refine ih _ ?_
    unfold resolveStep
    cases ht : h.target r with
    | obj _ => exact hi
    | str s =>
      simp only
      cases hl : cells.lookup s with
      | none => exact hi
      | some c =>
        refine ⟨hi.1, hi.2.1, ?_⟩
        intro r' d hd
        have hd' : Function.update h.target r (.obj c) r' = .obj d := hd
        by_cases hr : r' = r
        · subst hr
          rw [Function.update_self, Tgt.obj.injEq] at hd'
          subst hd'
          exact hi.2.1 _ (mem_of_lookup hl)
        · rw [Function.update_of_ne hr] at hd'
          exact hi.2.2 r' d hd'

theorem removeFold_same (name : Str) : ∀ (l : List Nat) (s : Heap × Nat),
    (l.foldl (removeStep name) s).1.name = s.1.name ∧
    (l.foldl (removeStep name) s).1.target = s.1.target ∧
    (l.foldl (removeStep name) s).1.ncells = s.1.ncells := by
  intro l
  induction l with
  | nil => intro s; exact ⟨rfl, rfl, rfl⟩
  | cons c l ih =>
    intro s
    obtain ⟨h1, h2, h3⟩ := ih (removeStep name s c)
    exact ⟨h1, h2, h3⟩

theorem remove_inv {st : LState} (h : LibInv st) (name : Str) (rr : Bool) :
    LibInv (st.remove name rr).1 := by
  have hc : LibInv { st with cells := dictDel st.cells name } :=
    ⟨⟨dictDel_nodup h.1.1 _, fun p hp => h.1.2 p (dictDel_mem.1 hp).1⟩,
      fun p hp => h.2.1 p (dictDel_mem.1 hp).1, h.2.2⟩
  unfold LState.remove
  simp only
  split
  · obtain ⟨e1, e2, e3⟩ := removeFold_same name ((dictDel st.cells name).map Prod.snd) (st.heap, 0)
    refine ⟨⟨hc.1.1, ?_⟩, ?_, ?_⟩
    · intro p hp
      simp only [e1]
      exact hc.1.2 p hp
    · intro p hp
      simp only [e3]
      exact hc.2.1 p hp
    · intro r c hr
      simp only [e2] at hr
      simp only [e3]
      exact hc.2.2 r c hr
  · exact hc

theorem findArg_spec {st : LState} (h : KeysMatch st) {a : CellArg} {old : Str} {c : Nat}
    (hf : st.findArg a = some (old, c)) : (old, c) ∈ st.cells ∧ st.heap.name c = old := by
  have key : st.cells.lookup old = some c → (old, c) ∈ st.cells ∧ st.heap.name c = old := by
    intro hl
    exact ⟨mem_of_lookup hl, h.2 _ (mem_of_lookup hl)⟩
  unfold LState.findArg at hf
  split at hf
  · rename_i d
    split at hf
    · rename_i d' hl
      split at hf
      · rename_i hd
        subst hd
        obtain ⟨rfl, rfl⟩ := Prod.mk.inj (Option.some.inj hf)
        exact key hl
      · simp at hf
    · simp at hf
  · rename_i s
    cases hl : st.cells.lookup s with
    | none => rw [hl] at hf; simp at hf
    | some d =>
      rw [hl] at hf
      simp only [Option.map_some, Option.some.injEq, Prod.mk.injEq] at hf
      obtain ⟨rfl, rfl⟩ := hf
      exact key hl

/-- The state of `rename_cell` after the cell has been filed under its new name. -/
theorem rename_mid_inv {st : LState} (h : LibInv st) {old name : Str} {c : Nat}
    (hc : (old, c) ∈ st.cells) (hold : st.heap.name c = old) :
    LibInv ⟨st.heap.setName c name, dictPut (dictDel st.cells old) name c⟩ := by
  have hn := dictDel_nodup h.1.1 old
  refine ⟨⟨dictPut_nodup hn _ _, ?_⟩, ?_, h.2.2⟩
  · intro p hp
    rcases (dictPut_mem hn).1 hp with rfl | ⟨hp, _⟩
    · simp [Heap.setName]
    · obtain ⟨hp, hne⟩ := dictDel_mem.1 hp
      have : p.2 ≠ c := by
        intro he
        have := h.1.2 p hp
        rw [he, hold] at this
        exact hne this.symm
      show Function.update st.heap.name c name p.2 = p.1
      rw [Function.update_of_ne this]
      exact h.1.2 p hp
  · intro p hp
    rcases (dictPut_mem hn).1 hp with rfl | ⟨hp, _⟩
    · exact h.2.1 (old, c) hc
    · exact h.2.1 p (dictDel_mem.1 hp).1

theorem rename_inv {st : LState} (h : LibInv st) (a : CellArg) (name : Str) (upd : Bool) :
    LibInv (st.rename a name upd).1 := by
  unfold LState.rename
  cases hf : st.findArg a with
  | none => exact h
  | some q =>
    obtain ⟨old, c⟩ := q
    simp only
    obtain ⟨h1, h2⟩ := findArg_spec h.1 hf
    split
    · exact h
    · split
      · refine replace_inv (rename_mid_inv h h1 h2) _ _ ?_
        rintro d ⟨⟩
        exact h.2.1 _ h1
      · exact rename_mid_inv h h1 h2

theorem op_inv {st : LState} (h : LibInv st) (op : Op) (hv : op.Valid st.heap) :
    LibInv (op.run st) := by
  cases op with
  | newCell name ow upd =>
    exact addLoop_inv ow upd _ (newCell_inv h name) (by
      intro c hc
      rw [List.mem_singleton] at hc
      subst hc
      exact Nat.lt_succ_self _)
  | add iter fuel cells deps ow upd =>
    have hrun : (Op.add iter fuel cells deps ow upd).run st
        = match st.add iter fuel cells deps ow upd with
          | some r => r.1
          | none => st := rfl
    rw [hrun]
    unfold LState.add
    cases hs : cellSet st.heap fuel cells deps with
    | none => exact h
    | some s =>
      refine addLoop_inv ow upd _ h ?_
      intro c hc
      exact cellSet_alloc h.2 hv.2 hs c (((hv.1 s).2 c).1 hc)
  | remove name rr => exact remove_inv h name rr
  | rename a name upd => exact rename_inv h a name upd
  | replaceReferences old new =>
    refine replace_inv h old new ?_
    rintro c rfl
    exact hv
  | readGds cells endlib =>
    have hi := importCells_inv cells (made := []) h
    have hrun : (Op.readGds cells endlib).run st = (st.importFile cells endlib).1 := rfl
    rw [hrun]
    unfold LState.importFile
    cases hr : importCells st cells [] with
    | mk st' q =>
      obtain ⟨made, e⟩ := q
      rw [hr] at hi
      cases e with
      | some e => exact hi
      | none =>
        simp only
        split
        · exact resolve_inv _ made _ hi
        · exact hi
  | makeCell name => exact newCell_inv h name
  | addRef c t =>
    refine newRef_inv h c t ?_
    rintro d rfl
    exact hv.2
  | shareRef c r => exact ⟨h.1, h.2⟩

/-- **C22.** Start from an empty library in any program state. After any history of `new_cell`,
`add`, `remove`, `rename_cell`, `replace_references`, `read_gds`, creation of cells and
references, each completed or raising, with any iteration order of sets, every cell of the library
is filed under its own name, and names are unique. -/
theorem C22_keys_match_names {h : Heap} (hh : ∀ r c, h.target r = .obj c → c < h.ncells)
    {st : LState} (hist : History ⟨h, []⟩ st) : KeysMatch st := by
  suffices LibInv st from this.1
  induction hist with
  | start => exact ⟨⟨by simp, by simp⟩, by simp, hh⟩
  | step op _ hv ih => exact op_inv ih op hv

/-- A history with a name clash in the middle: the library has two cells at the end. -/
example : ∃ st, History ⟨⟨0, 0, fun _ => [], fun _ => [], fun _ => .str []⟩, []⟩ st ∧
    st.cells.map Prod.fst = ["B".toList, "C".toList] := by
  have h1 := History.step (.newCell "A".toList false true)
    (History.start (st := ⟨⟨0, 0, fun _ => [], fun _ => [], fun _ => .str []⟩, []⟩)) trivial
  have h2 := History.step (.newCell "B".toList false true) h1 trivial
  have h3 := History.step (.newCell "A".toList false true) h2 trivial
  have h4 := History.step (.rename (.str "A".toList) "C".toList true) h3 trivial
  exact ⟨_, h4, by rfl⟩

/-- **C22.** The claim is about one library. Cells can be shared between libraries, and
`rename_cell` in one of them leaves the other with a cell filed under a wrong name. -/
theorem C22_rename_breaks_other_library :
    ∃ (h : Heap) (d d' : CellDict) (name : Str), KeysMatch ⟨h, d⟩ ∧ KeysMatch ⟨h, d'⟩ ∧
      ∃ n, (LState.rename ⟨h, d⟩ (.obj 0) name true).2 = .ok n ∧
        KeysMatch (LState.rename ⟨h, d⟩ (.obj 0) name true).1 ∧
        ¬ KeysMatch ⟨(LState.rename ⟨h, d⟩ (.obj 0) name true).1.heap, d'⟩ := by
  refine ⟨⟨1, 0, fun _ => "A".toList, fun _ => [], fun _ => .str []⟩, [("A".toList, 0)],
    [("A".toList, 0)], "B".toList, ⟨by simp, by simp⟩, ⟨by simp, by simp⟩, 0, rfl, ?_, ?_⟩
  · refine ⟨by decide, ?_⟩
    intro p hp
    have : (LState.rename ⟨⟨1, 0, fun _ => "A".toList, fun _ => [], fun _ => .str []⟩,
      [("A".toList, 0)]⟩ (.obj 0) "B".toList true).1.cells = [("B".toList, 0)] := rfl
    rw [this, List.mem_singleton] at hp
    subst hp
    rfl
  · intro hk
    have := hk.2 ("A".toList, 0) (by simp)
    revert this
    decide

end Gdspy
