import Verif.Spec.Library
import Mathlib.Data.List.Nodup
import Mathlib.Data.List.Induction
import Mathlib.Data.List.Dedup
import Mathlib.Tactic.Common

namespace Gdspy

open Spec

/-! ### dictionaries -/

theorem lookup_cons_if (d : CellDict) (j k : Str) (v : Nat) :
    ((k, v) :: d).lookup j = if j = k then some v else d.lookup j := by
  rw [List.lookup_cons]
  by_cases h : j = k
  · rw [if_pos h, beq_iff_eq.2 h]
  · rw [if_neg h, beq_eq_false_iff_ne.2 h]

theorem dictPut_lookup (d : CellDict) (k j : Str) (v : Nat) :
    (dictPut d k v).lookup j = if j = k then some v else d.lookup j := by
  induction d with
  | nil => rw [dictPut, lookup_cons_if]
  | cons p d ih =>
    obtain ⟨k', v'⟩ := p
    simp only [dictPut]
    split
    · rename_i h
      subst h
      rw [lookup_cons_if, lookup_cons_if]
      split <;> rfl
    · rename_i h
      rw [lookup_cons_if, lookup_cons_if, ih]
      by_cases h2 : j = k'
      · subst h2
        rw [if_pos rfl, if_neg h, if_pos rfl]
      · rw [if_neg h2, if_neg h2]

theorem dictDel_lookup (d : CellDict) (k j : Str) :
    (dictDel d k).lookup j = if j = k then none else d.lookup j := by
  unfold dictDel
  induction d with
  | nil => simp
  | cons p d ih =>
    obtain ⟨k', v'⟩ := p
    rw [List.filter_cons]
    by_cases h : k' = k
    · subst h
      rw [if_neg (by simp), ih, lookup_cons_if]
      split <;> rfl
    · rw [if_pos (by simpa using h), lookup_cons_if, lookup_cons_if, ih]
      by_cases h2 : j = k'
      · subst h2
        rw [if_pos rfl, if_neg h, if_pos rfl]
      · rw [if_neg h2, if_neg h2]

theorem dictPut_keys (d : CellDict) (k : Str) (v : Nat) :
    (dictPut d k v).map Prod.fst = if k ∈ d.map Prod.fst then d.map Prod.fst
      else d.map Prod.fst ++ [k] := by
  induction d with
  | nil => rfl
  | cons p d ih =>
    obtain ⟨k', v'⟩ := p
    simp only [dictPut]
    split
    · rename_i h
      subst h
      simp
    · rename_i h
      rw [List.map_cons, ih, List.map_cons]
      by_cases h2 : k ∈ d.map Prod.fst
      · rw [if_pos h2, if_pos (List.mem_cons_of_mem _ h2)]
      · rw [if_neg h2, if_neg]
        · rfl
        · rw [List.mem_cons, not_or]
          exact ⟨fun hc => h hc.symm, h2⟩

theorem dictPut_nodup {d : CellDict} (h : (d.map Prod.fst).Nodup) (k : Str) (v : Nat) :
    ((dictPut d k v).map Prod.fst).Nodup := by
  rw [dictPut_keys]
  split
  · exact h
  · rename_i hk
    rw [List.nodup_append]
    refine ⟨h, by simp, ?_⟩
    intro a ha b hb
    rw [List.mem_singleton] at hb
    subst hb
    exact fun hc => hk (hc ▸ ha)

theorem dictPut_mem {d : CellDict} (hn : (d.map Prod.fst).Nodup) {k : Str} {v : Nat} {p : Str × Nat} :
    p ∈ dictPut d k v ↔ p = (k, v) ∨ (p ∈ d ∧ p.1 ≠ k) := by
  induction d with
  | nil => simp [dictPut]
  | cons q d ih =>
    obtain ⟨k', v'⟩ := q
    rw [List.map_cons, List.nodup_cons] at hn
    simp only [dictPut]
    split
    · rename_i h
      subst h
      rw [List.mem_cons, List.mem_cons]
      constructor
      · rintro (rfl | hp)
        · exact Or.inl rfl
        · refine Or.inr ⟨Or.inr hp, ?_⟩
          rintro rfl
          exact hn.1 (List.mem_map.2 ⟨p, hp, rfl⟩)
      · rintro (rfl | ⟨rfl | hp, h2⟩)
        · exact Or.inl rfl
        · exact absurd rfl h2
        · exact Or.inr hp
    · rename_i h
      rw [List.mem_cons, List.mem_cons, ih hn.2]
      constructor
      · rintro (rfl | rfl | ⟨hp, h2⟩)
        · exact Or.inr ⟨Or.inl rfl, h⟩
        · exact Or.inl rfl
        · exact Or.inr ⟨Or.inr hp, h2⟩
      · rintro (rfl | ⟨rfl | hp, h2⟩)
        · exact Or.inr (Or.inl rfl)
        · exact Or.inl rfl
        · exact Or.inr (Or.inr ⟨hp, h2⟩)

theorem dictDel_mem {d : CellDict} {k : Str} {p : Str × Nat} :
    p ∈ dictDel d k ↔ p ∈ d ∧ p.1 ≠ k := by
  unfold dictDel
  rw [List.mem_filter]
  simp

theorem dictDel_nodup {d : CellDict} (h : (d.map Prod.fst).Nodup) (k : Str) :
    ((dictDel d k).map Prod.fst).Nodup :=
  h.sublist ((List.filter_sublist).map _)

theorem mem_of_lookup {d : CellDict} {k : Str} {v : Nat} (h : d.lookup k = some v) : (k, v) ∈ d := by
  induction d with
  | nil => simp at h
  | cons q d ih =>
    obtain ⟨k', v'⟩ := q
    rw [lookup_cons_if] at h
    split at h
    · rename_i h2
      subst h2
      rw [Option.some.inj h]
      exact List.mem_cons_self
    · exact List.mem_cons_of_mem _ (ih h)

theorem lookup_of_mem {d : CellDict} (hn : (d.map Prod.fst).Nodup) {k : Str} {v : Nat}
    (h : (k, v) ∈ d) : d.lookup k = some v := by
  induction d with
  | nil => simp at h
  | cons q d ih =>
    obtain ⟨k', v'⟩ := q
    rw [List.map_cons, List.nodup_cons] at hn
    rw [lookup_cons_if]
    rcases List.mem_cons.1 h with h | h'
    · obtain ⟨rfl, rfl⟩ := Prod.mk.inj h
      rw [if_pos rfl]
    · rw [if_neg, ih hn.2 h']
      rintro rfl
      exact hn.1 (List.mem_map.2 ⟨_, h', rfl⟩)

theorem lookup_none_iff {d : CellDict} {k : Str} : d.lookup k = none ↔ k ∉ d.map Prod.fst := by
  induction d with
  | nil => simp
  | cons q d ih =>
    obtain ⟨k', v'⟩ := q
    rw [lookup_cons_if, List.map_cons, List.mem_cons, not_or]
    by_cases h : k = k'
    · simp [h]
    · rw [if_neg h, ih]
      exact ⟨fun hh => ⟨h, hh⟩, fun hh => hh.2⟩

/-! ### replacing references -/

/-- What the loop of `replace_references` does to the heap and to the counter. -/
theorem replace_fold (old : Str) (new : Tgt) : ∀ (l : List Nat) (s : Heap × Nat),
    let s' := l.foldl (replaceStep old new) s
    s'.1.name = s.1.name ∧ s'.1.refs = s.1.refs ∧ s'.1.ncells = s.1.ncells ∧
      s'.1.nrefs = s.1.nrefs ∧
      ∀ r, s'.1.target r = if r ∈ l ∧ s.1.targetName (s.1.target r) = old then new
        else s.1.target r := by
  intro l
  induction l with
  | nil => intro s; exact ⟨rfl, rfl, rfl, rfl, by simp⟩
  | cons x l ih =>
    intro s
    have h1 : (replaceStep old new s x).1.name = s.1.name ∧
        (replaceStep old new s x).1.refs = s.1.refs ∧
        (replaceStep old new s x).1.ncells = s.1.ncells ∧
        (replaceStep old new s x).1.nrefs = s.1.nrefs := by
      unfold replaceStep; split <;> exact ⟨rfl, rfl, rfl, rfl⟩
    have h2 : ∀ r, (replaceStep old new s x).1.target r
        = if r = x ∧ s.1.targetName (s.1.target x) = old then new else s.1.target r := by
      intro r
      unfold replaceStep
      split
      · rename_i hx
        by_cases hr : r = x
        · subst hr; simp [Heap.setTarget, hx]
        · simp [Heap.setTarget, hr]
      · rename_i hx
        simp [hx]
    have hname : ∀ t, (replaceStep old new s x).1.targetName t = s.1.targetName t := by
      intro t
      cases t with
      | obj c => exact congrFun h1.1 c
      | str _ => rfl
    have := ih (replaceStep old new s x)
    simp only at this
    obtain ⟨q1, q2, q3, q4, q5⟩ := this
    simp only [List.foldl_cons]
    refine ⟨q1.trans h1.1, q2.trans h1.2.1, q3.trans h1.2.2.1, q4.trans h1.2.2.2, ?_⟩
    intro r
    rw [q5 r, hname, h2 r]
    by_cases hr : r = x
    · subst hr
      by_cases ho : s.1.targetName (s.1.target r) = old
      · simp [ho]
      · simp [ho]
    · simp [hr, List.mem_cons]

/-- The counter of `replace_references` when the new target does not have the old name: every
matching reference is counted once. -/
theorem replace_count (old : Str) (new : Tgt) : ∀ (l : List Nat) (s : Heap × Nat),
    s.1.targetName new ≠ old →
    (l.foldl (replaceStep old new) s).2
      = s.2 + (l.dedup.filter fun r => s.1.targetName (s.1.target r) = old).length := by
  intro l
  induction l using List.reverseRecOn with
  | nil => intro s _; simp
  | append_singleton l x ih =>
    intro s hne
    have hf := replace_fold old new l s
    simp only at hf
    obtain ⟨q1, -, -, -, q5⟩ := hf
    have hname : ∀ t, (l.foldl (replaceStep old new) s).1.targetName t = s.1.targetName t := by
      intro t
      cases t with
      | obj c => exact congrFun q1 c
      | str _ => rfl
    rw [List.foldl_append, List.foldl_cons, List.foldl_nil]
    have hperm : ((l ++ [x]).dedup.filter fun r => s.1.targetName (s.1.target r) = old).length
        = (l.dedup.filter fun r => s.1.targetName (s.1.target r) = old).length
          + if x ∉ l ∧ s.1.targetName (s.1.target x) = old then 1 else 0 := by
      have hp : (l ++ [x]).dedup.Perm (if x ∈ l then l.dedup else x :: l.dedup) := by
        rw [List.perm_ext_iff_of_nodup (List.nodup_dedup _)
          (by split
              · exact List.nodup_dedup _
              · rename_i hx
                rw [List.nodup_cons]
                exact ⟨by simpa using hx, List.nodup_dedup _⟩)]
        intro a
        split
        · rename_i hx
          simp only [List.mem_dedup, List.mem_append, List.mem_singleton]
          constructor
          · rintro (h | rfl)
            · exact h
            · exact hx
          · exact Or.inl
        · simp only [List.mem_dedup, List.mem_append, List.mem_cons, List.not_mem_nil,
            or_false]
          tauto
      rw [(hp.filter _).length_eq]
      by_cases hx : x ∈ l
      · simp [hx]
      · rw [if_neg hx, List.filter_cons]
        by_cases ho : s.1.targetName (s.1.target x) = old <;> simp [ho, hx]
    rw [hperm, ← Nat.add_assoc, ← ih s hne]
    generalize l.foldl (replaceStep old new) s = s2 at *
    unfold replaceStep
    rw [hname, q5 x]
    by_cases hx : x ∈ l <;> by_cases ho : s.1.targetName (s.1.target x) = old <;>
      simp [hx, ho, hne]

theorem replaceReferences_spec (st : LState) (old : Str) (new : Tgt) :
    (st.replaceReferences old new).1.cells = st.cells ∧
    (st.replaceReferences old new).1.heap.name = st.heap.name ∧
    (st.replaceReferences old new).1.heap.refs = st.heap.refs ∧
    (st.replaceReferences old new).1.heap.ncells = st.heap.ncells ∧
    (st.replaceReferences old new).1.heap.nrefs = st.heap.nrefs ∧
    ∀ r, (st.replaceReferences old new).1.heap.target r
      = if r ∈ st.allRefs ∧ st.heap.targetName (st.heap.target r) = old then st.resolve new
        else st.heap.target r :=
  ⟨rfl, replace_fold old (st.resolve new) st.allRefs (st.heap, 0)⟩

end Gdspy
