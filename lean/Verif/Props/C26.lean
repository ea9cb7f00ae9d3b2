import Verif.Props.C23

/-!
# C26: removing a cell; C27: renaming a cell
-/

namespace Gdspy

open Spec

theorem keys_inj {st : LState} (hk : KeysMatch st) {p q : Str × Nat} (hp : p ∈ st.cells)
    (hq : q ∈ st.cells) (h : p.2 = q.2) : p = q := by
  have h1 := hk.2 p hp
  have h2 := hk.2 q hq
  rw [h, h2] at h1
  exact Prod.ext h1.symm h

/-- The references that `remove` leaves in place. -/
theorem removeFold_spec (name : Str) : ∀ (l : List Nat), l.Nodup → ∀ (s : Heap × Nat),
    (∀ c, c ∉ l → (l.foldl (removeStep name) s).1.refs c = s.1.refs c) ∧
    (∀ c ∈ l, (l.foldl (removeStep name) s).1.refs c
      = (s.1.refs c).filter fun r => name ≠ s.1.targetName (s.1.target r)) ∧
    (l.foldl (removeStep name) s).2
      = s.2 + (l.map fun c => ((s.1.refs c).filter fun r =>
          name = s.1.targetName (s.1.target r)).length).sum := by
  intro l
  induction l with
  | nil => intro _ s; exact ⟨fun _ _ => rfl, by simp, by simp⟩
  | cons a l ih =>
    intro hn s
    rw [List.nodup_cons] at hn
    obtain ⟨i1, i2, i3⟩ := ih hn.2 (removeStep name s a)
    rw [List.foldl_cons]
    have hr : ∀ c, c ≠ a → (removeStep name s a).1.refs c = s.1.refs c := by
      intro c hc
      exact Function.update_of_ne hc _ _
    have hra : (removeStep name s a).1.refs a
        = (s.1.refs a).filter fun r => name ≠ s.1.targetName (s.1.target r) :=
      Function.update_self _ _ _
    have ht : ∀ r, (removeStep name s a).1.targetName ((removeStep name s a).1.target r)
        = s.1.targetName (s.1.target r) := by
      intro r
      show Heap.targetName _ (s.1.target r) = _
      cases s.1.target r <;> rfl
    simp only [ht] at i2 i3
    refine ⟨?_, ?_, ?_⟩
    · intro c hc
      rw [List.mem_cons, not_or] at hc
      rw [i1 c hc.2, hr c hc.1]
    · intro c hc
      rcases List.mem_cons.1 hc with rfl | hc
      · rw [i1 c hn.1, hra]
      · rw [i2 c hc, hr c (fun he => hn.1 (he ▸ hc))]
    · rw [i3]
      have hm : (l.map fun c => (((removeStep name s a).1.refs c).filter fun r =>
          name = s.1.targetName (s.1.target r)).length)
          = l.map fun c => ((s.1.refs c).filter fun r =>
          name = s.1.targetName (s.1.target r)).length := by
        refine List.map_congr_left ?_
        intro c hc
        rw [hr c (fun he => hn.1 (he ▸ hc))]
      rw [hm, List.map_cons, List.sum_cons]
      have h2 : (removeStep name s a).2 = s.2 + (s.1.refs a).length
          - ((s.1.refs a).filter fun r => name ≠ s.1.targetName (s.1.target r)).length := rfl
      rw [h2]
      have hlen : ((s.1.refs a).filter fun r => name = s.1.targetName (s.1.target r)).length
          + ((s.1.refs a).filter fun r => name ≠ s.1.targetName (s.1.target r)).length
          = (s.1.refs a).length := by
        have := List.length_eq_length_filter_add (l := s.1.refs a)
          (fun r => decide (name = s.1.targetName (s.1.target r)))
        rw [this]
        simp
      omega

open Classical in
/-- **C26.** `remove(name)` with `remove_references` true: the entry of that name is gone and the
others stay; every cell still in the library keeps exactly its references to things with other
names, in order; cells outside of the library keep their references; no reference is redirected and
no cell renamed; the number returned is the number of references dropped. -/
theorem C26_remove {st : LState} (hk : KeysMatch st) (name : Str) :
    let st' := (st.remove name true).1
    (∀ k, st'.cells.lookup k = if k = name then none else st.cells.lookup k) ∧
    st'.heap.name = st.heap.name ∧ st'.heap.target = st.heap.target ∧
    (∀ p ∈ st'.cells, st'.heap.refs p.2
      = (st.heap.refs p.2).filter fun r => ¬ RefersTo st.heap r name) ∧
    (∀ c, (∀ p ∈ st'.cells, p.2 ≠ c) → st'.heap.refs c = st.heap.refs c) ∧
    (st.remove name true).2 = (st'.cells.map fun p =>
      ((st.heap.refs p.2).filter fun r => RefersTo st.heap r name).length).sum := by
  have hnd : ((dictDel st.cells name).map Prod.snd).Nodup := by
    have h1 : (dictDel st.cells name).Nodup :=
      List.Nodup.of_map Prod.fst (dictDel_nodup hk.1 name)
    refine (List.nodup_map_iff_inj_on h1).2 ?_
    intro p hp q hq he
    exact keys_inj hk (dictDel_mem.1 hp).1 (dictDel_mem.1 hq).1 he
  obtain ⟨e1, e2, e3⟩ := removeFold_same name ((dictDel st.cells name).map Prod.snd) (st.heap, 0)
  obtain ⟨f1, f2, f3⟩ := removeFold_spec name _ hnd (st.heap, 0)
  have hrt : ∀ r, name = st.heap.targetName (st.heap.target r) ↔ RefersTo st.heap r name := by
    intro r
    rw [eq_comm, targetName_iff]
  refine ⟨fun k => dictDel_lookup _ _ _, e1, e2, ?_, ?_, ?_⟩
  · intro p hp
    have := f2 p.2 (List.mem_map.2 ⟨p, hp, rfl⟩)
    refine this.trans (List.filter_congr ?_)
    intro r _
    simp only [ne_eq, hrt r]
  · intro c hc
    refine f1 c ?_
    rintro hm
    obtain ⟨p, hp, he⟩ := List.mem_map.1 hm
    exact hc p hp he
  · refine f3.trans ?_
    rw [Nat.zero_add, List.map_map]
    refine congrArg List.sum (List.map_congr_left ?_)
    intro p _
    simp only [Function.comp]
    refine congrArg List.length (List.filter_congr ?_)
    intro r _
    simp only [hrt r]

/-- **C26.** With `remove_references` false only the entry is removed. -/
theorem C26_remove_keep_references (st : LState) (name : Str) :
    (st.remove name false).2 = 0 ∧ (st.remove name false).1.heap = st.heap ∧
    ∀ k, (st.remove name false).1.cells.lookup k = if k = name then none else st.cells.lookup k :=
  ⟨rfl, rfl, fun _ => dictDel_lookup _ _ _⟩

/-- **C26.** After `remove(name)` no cell of the library refers to the name. -/
theorem C26_remove_complete {st : LState} (hk : KeysMatch st) (name : Str) (r : Nat)
    (hr : InLibrary (st.remove name true).1 r) : ¬ RefersTo (st.remove name true).1.heap r name := by
  classical
  obtain ⟨-, h2, h3, h4, -, -⟩ := C26_remove hk name
  obtain ⟨p, hp, hr⟩ := hr
  rw [h4 p hp, List.mem_filter] at hr
  have := hr.2
  rw [decide_eq_true_iff] at this
  unfold RefersTo at this ⊢
  rw [h2, h3]
  exact this

example : (overState.remove ['A'] true).2 = 2 ∧ (overState.remove ['A'] true).1.cells = [(['B'], 1)] ∧
    (overState.remove ['A'] true).1.heap.refs 1 = [] := by decide

example : KeysMatch overState := ⟨by decide, by decide⟩

/-! ### C27 -/

/-- How the library knows the cell given to `rename_cell`: by a name in it, or as an object that is
filed under its name. -/
def Known (st : LState) : CellArg → Option Nat
  | .obj c => if st.cells.lookup (st.heap.name c) = some c then some c else none
  | .str s => st.cells.lookup s

theorem findArg_known {st : LState} (hk : KeysMatch st) (a : CellArg) :
    st.findArg a = (Known st a).map fun c => (st.heap.name c, c) := by
  cases a with
  | obj c =>
    unfold LState.findArg Known
    simp only
    cases hl : st.cells.lookup (st.heap.name c) with
    | none => simp
    | some d =>
      by_cases hd : d = c
      · simp [hd]
      · simp [hd]
  | str s =>
    unfold LState.findArg Known
    simp only
    cases hl : st.cells.lookup s with
    | none => rfl
    | some d =>
      have := hk.2 _ (mem_of_lookup hl)
      simp only at this
      rw [Option.map_some, Option.map_some, this]

/-- **C27.** `rename_cell` raises if and only if the cell is not in the library or the new name is
taken, and then nothing changes. -/
theorem C27_rename_raises {st : LState} (hk : KeysMatch st) (a : CellArg) (name : Str) (upd : Bool) :
    (∃ e, (st.rename a name upd).2 = .error e) ↔
      Known st a = none ∨ (st.cells.lookup name).isSome = true := by
  unfold LState.rename
  rw [findArg_known hk]
  cases hn : Known st a with
  | none => simp
  | some c =>
    simp only [Option.map_some]
    by_cases hs : (st.cells.lookup name).isSome = true
    · rw [if_pos hs]
      simp [hs]
    · rw [if_neg hs]
      simp only [hs, reduceCtorEq, or_self, iff_false, Bool.false_eq_true]
      rintro ⟨e, he⟩
      split at he <;> simp at he

theorem C27_rename_error_unchanged (st : LState) (a : CellArg) (name : Str) (upd : Bool) (e : PyErr)
    (h : (st.rename a name upd).2 = .error e) : (st.rename a name upd).1 = st ∧ e = .valueError := by
  unfold LState.rename at h ⊢
  cases hf : st.findArg a with
  | none => rw [hf] at h; simp only [Except.error.injEq] at h; exact ⟨rfl, h.symm⟩
  | some q =>
    rw [hf] at h
    simp only at h ⊢
    split at h
    · rename_i hs
      rw [if_pos hs]
      simp only [Except.error.injEq] at h
      exact ⟨rfl, h.symm⟩
    · split at h <;> simp at h

/-- The cells of the library after renaming. -/
theorem rename_lookup {st : LState} {old name : Str} {c : Nat} (k : Str) :
    (dictPut (dictDel st.cells old) name c).lookup k
      = if k = name then some c else if k = old then none else st.cells.lookup k := by
  rw [dictPut_lookup, dictDel_lookup]

/-- **C27.** A successful `rename_cell`: the cell has the new name and is filed under it, the old name
is free, all other cells keep names and entries. With `update_references`, the references of the
library's cells that pointed to this cell still do; those that referred to the old name in another
way (a string, or another cell with that name) now point to the cell; all other references are
unchanged; and the number returned counts the redirected references. -/
theorem C27_rename {st : LState} (hk : KeysMatch st) {a : CellArg} {name : Str} {c n : Nat}
    (ha : Known st a = some c) (h : (st.rename a name true).2 = .ok n) :
    let st' := (st.rename a name true).1
    (∀ k, st'.cells.lookup k = if k = name then some c
      else if k = st.heap.name c then none else st.cells.lookup k) ∧
    (∀ d, st'.heap.name d = if d = c then name else st.heap.name d) ∧
    st'.heap.refs = st.heap.refs ∧
    (∀ r, st.heap.target r = .obj c → st'.heap.target r = .obj c) ∧
    (∀ r, InLibrary st r → RefersTo st.heap r (st.heap.name c) → st'.heap.target r = .obj c) ∧
    (∀ r, ¬ (InLibrary st r ∧ RefersTo st.heap r (st.heap.name c)) →
      st'.heap.target r = st.heap.target r) ∧
    ∃ l : List Nat, l.Nodup ∧ n = l.length ∧
      ∀ r, r ∈ l ↔ InLibrary st r ∧ RefersTo st.heap r (st.heap.name c) ∧
        st.heap.target r ≠ .obj c := by
  have hfree : (st.cells.lookup name).isSome = false := by
    by_contra hs
    rw [Bool.not_eq_false] at hs
    obtain ⟨e, he⟩ := (C27_rename_raises hk a name true).2 (Or.inr hs)
    rw [h] at he
    simp at he
  have hlc : st.cells.lookup (st.heap.name c) = some c := by
    cases a with
    | obj d =>
      unfold Known at ha
      simp only at ha
      split at ha
      · obtain rfl := Option.some.inj ha
        assumption
      · simp at ha
    | str s =>
      have := hk.2 _ (mem_of_lookup ha)
      simp only at this
      rw [this]
      exact ha
  have hne : name ≠ st.heap.name c := by
    rintro rfl
    rw [hlc] at hfree
    simp at hfree
  have hren : st.rename a name true
      = ((LState.replaceReferences ⟨st.heap.setName c name,
          dictPut (dictDel st.cells (st.heap.name c)) name c⟩ (st.heap.name c) (.obj c)).1,
        .ok (LState.replaceReferences ⟨st.heap.setName c name,
          dictPut (dictDel st.cells (st.heap.name c)) name c⟩ (st.heap.name c) (.obj c)).2) := by
    unfold LState.rename
    rw [findArg_known hk, ha]
    simp only [Option.map_some]
    rw [if_neg (by rw [hfree]; simp)]
    rfl
  obtain ⟨st1, hst1⟩ : ∃ st1 : LState, st1 = ⟨st.heap.setName c name,
          dictPut (dictDel st.cells (st.heap.name c)) name c⟩ := ⟨_, rfl⟩
  rw [← hst1] at hren
  have hname1 : ∀ d, st1.heap.name d = if d = c then name else st.heap.name d := by
    intro d
    rw [hst1]
    show Function.update st.heap.name c name d = _
    rw [Function.update_apply]
  have htgt1 : st1.heap.target = st.heap.target := by rw [hst1]; rfl
  have hrefs1 : st1.heap.refs = st.heap.refs := by rw [hst1]; rfl
  have hin1 : ∀ r, InLibrary st1 r ↔ InLibrary st r := by
    intro r
    unfold InLibrary
    rw [hrefs1, hst1]
    simp only
    constructor
    · rintro ⟨p, hp, hr⟩
      rcases (dictPut_mem (dictDel_nodup hk.1 _)).1 hp with rfl | ⟨hp, -⟩
      · exact ⟨_, mem_of_lookup hlc, hr⟩
      · exact ⟨p, (dictDel_mem.1 hp).1, hr⟩
    · rintro ⟨p, hp, hr⟩
      by_cases he : p.1 = st.heap.name c
      · have : p.2 = c := by
          have := lookup_of_mem hk.1 (k := p.1) (v := p.2) hp
          rw [he, hlc] at this
          exact (Option.some.inj this).symm
        exact ⟨(name, c), (dictPut_mem (dictDel_nodup hk.1 _)).2 (Or.inl rfl), by rw [← this]; exact hr⟩
      · refine ⟨p, (dictPut_mem (dictDel_nodup hk.1 _)).2 (Or.inr ⟨dictDel_mem.2 ⟨hp, he⟩, ?_⟩), hr⟩
        intro hpn
        have := lookup_of_mem hk.1 (k := p.1) (v := p.2) hp
        rw [hpn] at this
        rw [this] at hfree
        simp at hfree
  have hrt1 : ∀ r, RefersTo st1.heap r (st.heap.name c) ↔
      RefersTo st.heap r (st.heap.name c) ∧ st.heap.target r ≠ .obj c := by
    intro r
    unfold RefersTo
    rw [htgt1]
    cases ht : st.heap.target r with
    | str s => simp
    | obj d =>
      simp only [reduceCtorEq, Tgt.obj.injEq, exists_eq_left', false_or, ne_eq]
      rw [hname1 d]
      by_cases hd : d = c
      · rw [if_pos hd]; simp [hd, hne]
      · rw [if_neg hd]; simp [hd]
  obtain ⟨g1, g2, g3, g4, g5⟩ := C25_replace_references st1 (st.heap.name c) c
  obtain ⟨l, hl1, hl2, hl3⟩ := C25_replace_count st1 (st.heap.name c) c
    (by rw [hname1 c, if_pos rfl]; exact hne)
  have hcount : n = (st1.replaceReferences (st.heap.name c) (.obj c)).2 := by
    rw [hren] at h
    exact (Except.ok.inj h).symm
  rw [hren]
  simp only
  refine ⟨?_, ?_, ?_, ?_, ?_, ?_, l, hl1, hcount.trans hl2, ?_⟩
  · intro k
    rw [g1, hst1]
    exact rename_lookup k
  · intro d
    rw [g2]
    exact hname1 d
  · rw [g3, hrefs1]
  · intro r hr
    by_cases hq : InLibrary st1 r ∧ RefersTo st1.heap r (st.heap.name c)
    · exact g4 r hq.1 hq.2
    · rw [g5 r hq, htgt1, hr]
  · intro r h1 h2
    by_cases hc : st.heap.target r = .obj c
    · rw [g5 r (fun hq => ((hrt1 r).1 hq.2).2 hc), htgt1, hc]
    · exact g4 r ((hin1 r).2 h1) ((hrt1 r).2 ⟨h2, hc⟩)
  · intro r h1
    rw [g5 r (fun hq => h1 ⟨(hin1 r).1 hq.1, ((hrt1 r).1 hq.2).1⟩), htgt1]
  · intro r
    rw [hl3 r, hin1 r, hrt1 r]

/-- **C27.** With `update_references` false no reference is touched. -/
theorem C27_rename_no_update {st : LState} (hk : KeysMatch st) {a : CellArg} {name : Str} {c n : Nat}
    (ha : Known st a = some c) (h : (st.rename a name false).2 = .ok n) :
    let st' := (st.rename a name false).1
    n = 0 ∧ st'.heap.target = st.heap.target ∧ st'.heap.refs = st.heap.refs ∧
    (∀ d, st'.heap.name d = if d = c then name else st.heap.name d) ∧
    (∀ k, st'.cells.lookup k = if k = name then some c
      else if k = st.heap.name c then none else st.cells.lookup k) := by
  have hfree : ¬ (st.cells.lookup name).isSome = true := by
    intro hs
    obtain ⟨e, he⟩ := (C27_rename_raises hk a name false).2 (Or.inr hs)
    rw [h] at he
    simp at he
  have hren : st.rename a name false = (⟨st.heap.setName c name,
          dictPut (dictDel st.cells (st.heap.name c)) name c⟩, .ok 0) := by
    unfold LState.rename
    rw [findArg_known hk, ha]
    simp only [Option.map_some]
    rw [if_neg hfree]
    rfl
  rw [hren] at h ⊢
  refine ⟨(Except.ok.inj h).symm, rfl, rfl, ?_, fun k => rename_lookup k⟩
  intro d
  show Function.update st.heap.name c name d = _
  rw [Function.update_apply]

/-- The cell A of the library is renamed to C: one reference to the name A is redirected and
counted, the reference to the object is not. -/
example : (overState.rename (.str ['A']) ['C'] true).2 = .ok 1 ∧
    Known overState (.str ['A']) = some 0 ∧
    (overState.rename (.str ['A']) ['C'] true).1.heap.target 1 = .obj 0 ∧
    (overState.rename (.str ['A']) ['C'] true).1.cells = [(['B'], 1), (['C'], 0)] := by
  refine ⟨rfl, by decide, by decide, by decide⟩

end Gdspy
