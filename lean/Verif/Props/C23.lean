import Verif.Props.C29

/-!
# C23: duplicate names are refused; C24: adding with dependencies; C25: overwriting redirects
-/

namespace Gdspy

open Spec

theorem cellSet_mem {h : Heap} {fuel : Nat} {cells s : List Nat} {deps : Bool}
    (hs : cellSet h fuel cells deps = some s) (x : Nat) : x ∈ s ↔ ToAdd h cells deps x := by
  unfold cellSet at hs
  unfold ToAdd
  split at hs
  · rename_i hd
    cases hm : cells.mapM (h.deps fuel) with
    | none => rw [hm] at hs; simp at hs
    | some l =>
      rw [hm] at hs
      simp only [Option.pure_def, Option.bind_eq_bind, Option.bind_some, Option.some.injEq] at hs
      subst hs
      rw [List.mem_append, List.mem_flatten]
      constructor
      · rintro (hx | ⟨a, ha, hx⟩)
        · exact Or.inl hx
        · obtain ⟨c, hc, hca⟩ := (mapM_some hm).2 a ha
          exact Or.inr ⟨hd, c, hc, (C29_dependencies_reachable _ _ _ hca x).1 hx⟩
      · rintro (hx | ⟨-, c, hc, hx⟩)
        · exact Or.inl hx
        · obtain ⟨a, ha, hca⟩ := (mapM_some hm).1 c hc
          exact Or.inr ⟨a, ha, (C29_dependencies_reachable _ _ _ hca x).2 hx⟩
  · rename_i hd
    simp only [Option.some.injEq] at hs
    subst hs
    constructor
    · exact Or.inl
    · rintro (hx | ⟨hd', -⟩)
      · exact hx
      · exact absurd hd' hd

theorem clashes_iff {st : LState} {c : Nat} : st.clashes c = true ↔ Clash st c := by
  unfold LState.clashes Clash
  cases st.cells.lookup (st.heap.name c) with
  | none => simp
  | some d => simp

theorem add_inv {iter : List Nat → List Nat} (hi : IterOk iter) {fuel : Nat} {st st' : LState}
    {cells : List Nat} {deps ow upd : Bool} {e : Option PyErr}
    (h : st.add iter fuel cells deps ow upd = some (st', e)) :
    ∃ l : List Nat, l.Nodup ∧ (∀ x, x ∈ l ↔ ToAdd st.heap cells deps x) ∧
      addLoop ow upd st l = (st', e) := by
  unfold LState.add at h
  cases hs : cellSet st.heap fuel cells deps with
  | none => rw [hs] at h; simp at h
  | some s =>
    rw [hs] at h
    simp only [Option.pure_def, Option.bind_eq_bind, Option.bind_some, Option.some.injEq] at h
    exact ⟨iter s, (hi s).1, fun x => ((hi s).2 x).trans (cellSet_mem hs x), h⟩

/-- A step of the loop: names and reference lists stay; the cell is filed under its name unless the
step raises. -/
theorem addStep_ok {ow upd : Bool} {st st' : LState} {c : Nat} (h : addStep ow upd st c = (st', none)) :
    (ow = false → ¬ Clash st c) ∧ st'.heap.name = st.heap.name ∧ st'.heap.refs = st.heap.refs ∧
      st'.cells = dictPut st.cells (st.heap.name c) c := by
  unfold addStep at h
  split at h
  · simp at h
  · rename_i hn
    have hclash : ow = false → ¬ Clash st c := by
      rintro rfl hc
      rw [clashes_iff.2 hc] at hn
      exact hn rfl
    simp only [Prod.mk.injEq, and_true] at h
    split at h
    · obtain ⟨e1, e2, e3, e4, e5, e6⟩ := replaceReferences_spec st (st.heap.name c) (.obj c)
      subst h
      exact ⟨hclash, e2, e3, by simp only [e1]⟩
    · subst h
      exact ⟨hclash, rfl, rfl, rfl⟩

theorem addStep_err {ow upd : Bool} {st st' : LState} {c : Nat} {e : PyErr}
    (h : addStep ow upd st c = (st', some e)) :
    ow = false ∧ Clash st c ∧ st' = st ∧ e = .valueError := by
  unfold addStep at h
  split at h
  · rename_i hn
    rw [Bool.and_eq_true, Bool.not_eq_true', clashes_iff] at hn
    simp only [Prod.mk.injEq, Option.some.injEq] at h
    exact ⟨hn.1, hn.2, h.1.symm, h.2.symm⟩
  · simp at h

theorem put_lookup {st st' : LState} {c : Nat} (h : st'.cells = dictPut st.cells (st.heap.name c) c)
    (k : Str) : st'.cells.lookup k = if k = st.heap.name c then some c else st.cells.lookup k := by
  rw [h, dictPut_lookup]

/-- The loop does not raise when overwriting. -/
theorem addLoop_ow (upd : Bool) : ∀ (l : List Nat) (st : LState), (addLoop true upd st l).2 = none := by
  intro l
  induction l with
  | nil => intro st; rfl
  | cons c l ih =>
    intro st
    unfold addLoop
    cases hs : addStep true upd st c with
    | mk st' e =>
      cases e with
      | some e => exact absurd (addStep_err hs).1 (by simp)
      | none => exact ih st'

theorem clash_put {st st' : LState} {c d : Nat} (hname : st'.heap.name = st.heap.name)
    (h : st'.cells = dictPut st.cells (st.heap.name c) c) :
    Clash st' d ↔ (st.heap.name d = st.heap.name c ∧ d ≠ c) ∨
      (st.heap.name d ≠ st.heap.name c ∧ Clash st d) := by
  unfold Clash
  rw [put_lookup h, hname]
  by_cases hk : st.heap.name d = st.heap.name c
  · simp only [hk, if_true, Option.some.injEq, true_and, ne_eq, not_true, false_and, or_false]
    constructor
    · rintro ⟨x, rfl, hx⟩; exact fun he => hx he.symm
    · intro hx; exact ⟨c, rfl, fun he => hx he.symm⟩
  · simp [hk]

theorem addLoop_raises (upd : Bool) : ∀ (l : List Nat) (st : LState),
    (addLoop false upd st l).2 = none ↔
      (∀ c ∈ l, ¬ Clash st c) ∧
        ∀ c ∈ l, ∀ d ∈ l, st.heap.name c = st.heap.name d → c = d := by
  intro l
  induction l with
  | nil => intro st; simp [addLoop]
  | cons c l ih =>
    intro st
    unfold addLoop
    cases hs : addStep false upd st c with
    | mk st' e =>
      cases e with
      | some e =>
        obtain ⟨-, h1, -, -⟩ := addStep_err hs
        simp only [reduceCtorEq, false_iff]
        rintro ⟨h2, -⟩
        exact h2 c List.mem_cons_self h1
      | none =>
        obtain ⟨h1, h2, -, h3⟩ := addStep_ok hs
        simp only
        rw [ih st', h2]
        constructor
        · rintro ⟨h4, h5⟩
          have key : ∀ d ∈ l, st.heap.name d = st.heap.name c → d = c := by
            intro d hd he
            by_contra hne
            exact h4 d hd ((clash_put h2 h3).2 (Or.inl ⟨he, hne⟩))
          refine ⟨?_, ?_⟩
          · intro d hd
            rcases List.mem_cons.1 hd with rfl | hd
            · exact h1 rfl
            · intro hcl
              by_cases he : st.heap.name d = st.heap.name c
              · rw [key d hd he] at hcl
                exact h1 rfl hcl
              · exact h4 d hd ((clash_put h2 h3).2 (Or.inr ⟨he, hcl⟩))
          · intro x hx y hy he
            rcases List.mem_cons.1 hx with hx' | hx' <;> rcases List.mem_cons.1 hy with hy' | hy'
            · rw [hx', hy']
            · rw [hx'] at he ⊢; exact (key y hy' he.symm).symm
            · rw [hy'] at he ⊢; exact key x hx' he
            · exact h5 x hx' y hy' he
        · rintro ⟨h4, h5⟩
          refine ⟨?_, fun x hx y hy => h5 x (List.mem_cons_of_mem _ hx) y (List.mem_cons_of_mem _ hy)⟩
          intro d hd hcl
          rcases (clash_put h2 h3).1 hcl with ⟨he, hne⟩ | ⟨-, hcl⟩
          · exact hne (h5 d (List.mem_cons_of_mem _ hd) c List.mem_cons_self he)
          · exact h4 d (List.mem_cons_of_mem _ hd) hcl

/-- What the dictionary looks like after the loop, raising or not, without overwriting. -/
theorem addLoop_keeps (upd : Bool) : ∀ (l : List Nat) (st : LState),
    (addLoop false upd st l).1.heap = st.heap ∧
    (∀ k c, st.cells.lookup k = some c → (addLoop false upd st l).1.cells.lookup k = some c) ∧
    ∀ k c, (addLoop false upd st l).1.cells.lookup k = some c →
      st.cells.lookup k = some c ∨ (c ∈ l ∧ st.heap.name c = k) := by
  intro l
  induction l with
  | nil => intro st; exact ⟨rfl, fun _ _ h => h, fun _ _ h => Or.inl h⟩
  | cons c l ih =>
    intro st
    unfold addLoop
    cases hs : addStep false upd st c with
    | mk st' e =>
      cases e with
      | some e =>
        obtain ⟨-, -, rfl, -⟩ := addStep_err hs
        exact ⟨rfl, fun _ _ h => h, fun _ _ h => Or.inl h⟩
      | none =>
        obtain ⟨h1, h2, -, h3⟩ := addStep_ok hs
        have hheap : st'.heap = st.heap := by
          unfold addStep at hs
          split at hs
          · simp at hs
          · simp only [Bool.false_and, Bool.false_eq_true, if_false, Prod.mk.injEq, and_true] at hs
            rw [← hs]
        obtain ⟨i1, i2, i3⟩ := ih st'
        simp only
        refine ⟨i1.trans hheap, ?_, ?_⟩
        · intro k d hk
          refine i2 k d ?_
          rw [put_lookup h3]
          split
          · rename_i he
            by_contra hne
            refine h1 rfl ⟨d, by rw [← he]; exact hk, fun hdc => hne (by rw [hdc])⟩
          · exact hk
        · intro k d hk
          rcases i3 k d hk with hk | ⟨hd, hn⟩
          · rw [put_lookup h3] at hk
            split at hk
            · rename_i he
              obtain rfl := Option.some.inj hk
              exact Or.inr ⟨List.mem_cons_self, he.symm⟩
            · exact Or.inl hk
          · exact Or.inr ⟨List.mem_cons_of_mem _ hd, by rw [← h2]; exact hn⟩

/-- **C23.** `add` without `overwrite_duplicate` raises if and only if one of the cells to be added
(with the dependencies, when asked for) has the name of a different cell in the library, or two
different cells among them have the same name. This does not depend on the iteration order of
the set. -/
theorem C23_add_raises_iff {iter : List Nat → List Nat} (hi : IterOk iter) {fuel : Nat}
    {st st' : LState} {cells : List Nat} {deps upd : Bool} {e : Option PyErr}
    (h : st.add iter fuel cells deps false upd = some (st', e)) :
    e ≠ none ↔ (∃ c, ToAdd st.heap cells deps c ∧ Clash st c) ∨
      ∃ c d, ToAdd st.heap cells deps c ∧ ToAdd st.heap cells deps d ∧ c ≠ d ∧
        st.heap.name c = st.heap.name d := by
  obtain ⟨l, -, hm, hl⟩ := add_inv hi h
  have := addLoop_raises upd l st
  rw [hl] at this
  simp only at this
  rw [Ne, this]
  simp only [hm]
  push Not
  constructor
  · intro h1
    by_cases h2 : ∃ c, ToAdd st.heap cells deps c ∧ Clash st c
    · exact Or.inl h2
    · push Not at h2
      obtain ⟨c, hc, d, hd, he, hne⟩ := h1 h2
      exact Or.inr ⟨c, d, hc, hd, hne, he⟩
  · rintro (⟨c, hc, hcl⟩ | ⟨c, d, hc, hd, hne, he⟩)
    · intro h2; exact absurd hcl (h2 c hc)
    · intro _; exact ⟨c, hc, d, hd, he, hne⟩

/-- **C23.** Raising or not, `add` without `overwrite_duplicate` changes no object and no entry of
the library; it only adds entries for cells it was asked to add. -/
theorem C23_add_keeps_entries {iter : List Nat → List Nat} (hi : IterOk iter) {fuel : Nat}
    {st st' : LState} {cells : List Nat} {deps upd : Bool} {e : Option PyErr}
    (h : st.add iter fuel cells deps false upd = some (st', e)) :
    st'.heap = st.heap ∧
    (∀ k c, st.cells.lookup k = some c → st'.cells.lookup k = some c) ∧
    ∀ k c, st'.cells.lookup k = some c →
      st.cells.lookup k = some c ∨ (ToAdd st.heap cells deps c ∧ st.heap.name c = k) := by
  obtain ⟨l, -, hm, hl⟩ := add_inv hi h
  have := addLoop_keeps upd l st
  rw [hl] at this
  refine ⟨this.1, this.2.1, ?_⟩
  intro k c hk
  rcases this.2.2 k c hk with hk | ⟨hc, hn⟩
  · exact Or.inl hk
  · exact Or.inr ⟨(hm c).1 hc, hn⟩

/-- **C23.** Adding a single cell (without dependencies) whose name is taken by a different cell
raises `ValueError` and leaves the library as it was. -/
theorem C23_duplicate_refused {iter : List Nat → List Nat} (hi : IterOk iter) (fuel : Nat)
    (st : LState) (c : Nat) (upd : Bool) (hc : Clash st c) :
    st.add iter fuel [c] false false upd = some (st, some .valueError) := by
  have hl : iter [c] = [c] := by
    obtain ⟨h1, h2⟩ := hi [c]
    rw [← List.perm_singleton]
    refine (List.perm_ext_iff_of_nodup h1 (List.nodup_singleton c)).2 h2
  have e : st.add iter fuel [c] false false upd = some (addLoop false upd st (iter [c])) := rfl
  rw [e, hl]
  unfold addLoop addStep
  rw [clashes_iff.2 hc]
  rfl

/-- **C23.** `new_cell` with a name that is taken raises and leaves the library as it was. -/
theorem C23_new_cell_refused (st : LState) (ha : Allocated st) (name : Str) (upd : Bool)
    (hn : (st.cells.lookup name).isSome) :
    (st.newCell name false upd).2 = some .valueError ∧ (st.newCell name false upd).1.cells = st.cells := by
  obtain ⟨d, hd⟩ := Option.isSome_iff_exists.1 hn
  have hlt := ha.1 _ (mem_of_lookup hd)
  have hcl : Clash { st with heap := (st.heap.newCell name).1 } st.heap.ncells := by
    refine ⟨d, ?_, by simp only at hlt; omega⟩
    show st.cells.lookup (Function.update st.heap.name st.heap.ncells name st.heap.ncells) = _
    rw [Function.update_self]
    exact hd
  have e : st.newCell name false upd
      = addLoop false upd { st with heap := (st.heap.newCell name).1 } [st.heap.ncells] := rfl
  rw [e]
  unfold addLoop addStep
  rw [clashes_iff.2 hcl]
  exact ⟨rfl, rfl⟩

/-- Cell 0 named A is in the library; 1 is also named A, 2 is named B and references 1. -/
def clashState : LState :=
  ⟨⟨3, 1, fun c => if c = 2 then ['B'] else ['A'], fun c => if c = 2 then [0] else [], fun _ => .obj 1⟩,
    [(['A'], 0)]⟩

example : Clash clashState 1 := ⟨0, by decide, by decide⟩

/-- **C23.** When several cells are added, the operation is not atomic: which cells have been added
when it raises depends on the iteration order of the set. -/
theorem C23_not_atomic : ∃ (i1 i2 : List Nat → List Nat) (s1 s2 : LState), IterOk i1 ∧ IterOk i2 ∧
    clashState.add i1 9 [2] true false true = some (s1, some .valueError) ∧
    clashState.add i2 9 [2] true false true = some (s2, some .valueError) ∧
    s1.cells = clashState.cells ∧ s2.cells ≠ clashState.cells := by
  have hd : IterOk List.dedup := fun l => ⟨List.nodup_dedup l, fun x => List.mem_dedup⟩
  have hr : IterOk (fun l => l.dedup.reverse) :=
    fun l => ⟨List.nodup_reverse.2 (List.nodup_dedup l), fun x => by simp⟩
  exact ⟨_, _, _, _, hr, hd, rfl, rfl, by decide, by decide⟩

/-! ### C24 -/

theorem addLoop_lookup (ow upd : Bool) : ∀ (l : List Nat) (st : LState),
    (addLoop ow upd st l).2 = none →
    (∀ c ∈ l, ∀ d ∈ l, st.heap.name c = st.heap.name d → c = d) →
    (addLoop ow upd st l).1.heap.name = st.heap.name ∧
    (addLoop ow upd st l).1.heap.refs = st.heap.refs ∧
    (∀ c ∈ l, (addLoop ow upd st l).1.cells.lookup (st.heap.name c) = some c) ∧
    ∀ k, (∀ c ∈ l, st.heap.name c ≠ k) →
      (addLoop ow upd st l).1.cells.lookup k = st.cells.lookup k := by
  intro l
  induction l with
  | nil => intro st _ _; exact ⟨rfl, rfl, by simp, fun k _ => rfl⟩
  | cons c l ih =>
    intro st hok hinj
    unfold addLoop at hok ⊢
    cases hs : addStep ow upd st c with
    | mk st' e =>
      rw [hs] at hok
      cases e with
      | some e => simp at hok
      | none =>
        simp only at hok ⊢
        obtain ⟨-, h2, h3, h4⟩ := addStep_ok hs
        obtain ⟨i1, i2, i3, i4⟩ := ih st' hok (by
          rw [h2]
          exact fun x hx y hy => hinj x (List.mem_cons_of_mem _ hx) y (List.mem_cons_of_mem _ hy))
        rw [h2] at i3 i4
        refine ⟨i1.trans h2, i2.trans h3, ?_, ?_⟩
        · intro d hd
          rcases List.mem_cons.1 hd with rfl | hd
          · by_cases hdl : d ∈ l
            · exact i3 d hdl
            · rw [i4 _ (fun e he hn => hdl (hinj e (List.mem_cons_of_mem _ he) d List.mem_cons_self hn ▸ he)),
                put_lookup h4, if_pos rfl]
          · exact i3 d hd
        · intro k hk
          rw [i4 k (fun e he => hk e (List.mem_cons_of_mem _ he)), put_lookup h4,
            if_neg (fun he => hk c List.mem_cons_self he.symm)]

/-- **C24.** After `add(cells, include_dependencies=True)` without overwriting completes, the library
holds the cells and every cell reachable from them, each under its own name, and every other entry
is as before. -/
theorem C24_add_closes {iter : List Nat → List Nat} (hi : IterOk iter) {fuel : Nat}
    {st st' : LState} {cells : List Nat} {upd : Bool}
    (h : st.add iter fuel cells true false upd = some (st', none)) :
    (∀ c x, c ∈ cells → x = c ∨ Reach st.heap c x →
      st'.cells.lookup (st'.heap.name x) = some x) ∧
    ∀ k, (∀ c x, c ∈ cells → x = c ∨ Reach st.heap c x → st.heap.name x ≠ k) →
      st'.cells.lookup k = st.cells.lookup k := by
  obtain ⟨l, -, hm, hl⟩ := add_inv hi h
  have hinj := (addLoop_raises upd l st).1 (by rw [hl])
  obtain ⟨h1, h2, h3, h4⟩ := addLoop_lookup false upd l st (by rw [hl]) hinj.2
  rw [hl] at h1 h2 h3 h4
  have hto : ∀ x, ToAdd st.heap cells true x ↔ ∃ c ∈ cells, x = c ∨ Reach st.heap c x := by
    intro x
    unfold ToAdd
    constructor
    · rintro (hx | ⟨-, c, hc, hr⟩)
      · exact ⟨x, hx, Or.inl rfl⟩
      · exact ⟨c, hc, Or.inr hr⟩
    · rintro ⟨c, hc, rfl | hr⟩
      · exact Or.inl hc
      · exact Or.inr ⟨rfl, c, hc, hr⟩
  refine ⟨?_, ?_⟩
  · intro c x hc hx
    simp only at h1 h3
    rw [h1]
    exact h3 x ((hm x).2 ((hto x).2 ⟨c, hc, hx⟩))
  · intro k hk
    refine h4 k ?_
    intro x hx
    obtain ⟨c, hc, hr⟩ := (hto x).1 ((hm x).1 hx)
    exact hk c x hc hr

/-- **C24.** The same with overwriting, when the cells to be added have different names. It never
raises. -/
theorem C24_add_closes_overwrite {iter : List Nat → List Nat} (hi : IterOk iter) {fuel : Nat}
    {st st' : LState} {cells : List Nat} {upd deps : Bool} {e : Option PyErr}
    (h : st.add iter fuel cells deps true upd = some (st', e))
    (hinj : ∀ c d, ToAdd st.heap cells deps c → ToAdd st.heap cells deps d →
      st.heap.name c = st.heap.name d → c = d) :
    e = none ∧ (∀ x, ToAdd st.heap cells deps x → st'.cells.lookup (st'.heap.name x) = some x) ∧
    ∀ k, (∀ x, ToAdd st.heap cells deps x → st.heap.name x ≠ k) →
      st'.cells.lookup k = st.cells.lookup k := by
  obtain ⟨l, -, hm, hl⟩ := add_inv hi h
  have hok := addLoop_ow upd l st
  obtain ⟨h1, h2, h3, h4⟩ := addLoop_lookup true upd l st hok
    (fun c hc d hd => hinj c d ((hm c).1 hc) ((hm d).1 hd))
  rw [hl] at h1 h2 h3 h4 hok
  simp only at h1 h3 h4 hok
  exact ⟨hok, fun x hx => by rw [h1]; exact h3 x ((hm x).2 hx),
    fun k hk => h4 k (fun x hx => hk x ((hm x).1 hx))⟩

/-- **C24.** Call a library closed when every cell object referenced by its cells is in it. Adding
with dependencies, without overwriting, keeps a library closed. -/
theorem C24_stays_closed {iter : List Nat → List Nat} (hi : IterOk iter) {fuel : Nat}
    {st st' : LState} {cells : List Nat} {upd : Bool} (hk : KeysMatch st)
    (hclosed : ∀ p ∈ st.cells, ∀ x, Edge st.heap p.2 x → ∃ k, (k, x) ∈ st.cells)
    (h : st.add iter fuel cells true false upd = some (st', none)) :
    ∀ p ∈ st'.cells, ∀ x, Edge st'.heap p.2 x → ∃ k, (k, x) ∈ st'.cells := by
  obtain ⟨k1, k2, k3⟩ := C23_add_keeps_entries hi h
  obtain ⟨c1, -⟩ := C24_add_closes hi h
  have hk' : (st'.cells.map Prod.fst).Nodup := by
    obtain ⟨l, -, -, hl⟩ := add_inv hi h
    have : ∀ (l : List Nat) (st : LState), (st.cells.map Prod.fst).Nodup →
        ((addLoop false upd st l).1.cells.map Prod.fst).Nodup := by
      intro l
      induction l with
      | nil => intro st h; exact h
      | cons c l ih =>
        intro st hn
        unfold addLoop
        cases hs : addStep false upd st c with
        | mk s e =>
          cases e with
          | some e => obtain ⟨-, -, rfl, -⟩ := addStep_err hs; exact hn
          | none =>
            obtain ⟨-, -, -, h4⟩ := addStep_ok hs
            exact ih s (by rw [h4]; exact dictPut_nodup hn _ _)
    have := this l st hk.1
    rw [hl] at this
    exact this
  rintro ⟨k, c⟩ hp x hx
  rw [k1] at hx
  rcases k3 k c (lookup_of_mem hk' hp) with hl | ⟨hto, -⟩
  · obtain ⟨j, hj⟩ := hclosed (k, c) (mem_of_lookup hl) x hx
    exact ⟨j, mem_of_lookup (k2 j x (lookup_of_mem hk.1 hj))⟩
  · rcases hto with hc | ⟨-, d, hd, hr⟩
    · exact ⟨_, mem_of_lookup (c1 c x hc (Or.inr (.single hx)))⟩
    · exact ⟨_, mem_of_lookup (c1 d x hd (Or.inr (hr.tail hx)))⟩

/-- The diamond is added to an empty library by its root. -/
example : (LState.add List.dedup 9 ⟨diamond, []⟩ [0] true false true).map
    (fun r => (r.1.cells, r.2)) = some ([(['A'], 0), (['B'], 1), (['D'], 3), (['C'], 2)], none) := by
  decide

/-! ### C25 -/

theorem targetName_iff {h : Heap} {r : Nat} {s : Str} :
    h.targetName (h.target r) = s ↔ RefersTo h r s := by
  unfold RefersTo
  cases h.target r with
  | obj d => simp [Heap.targetName]
  | str t => simp [Heap.targetName]

theorem allRefs_iff {st : LState} {r : Nat} : r ∈ st.allRefs ↔ InLibrary st r := by
  unfold LState.allRefs InLibrary
  rw [List.mem_flatMap]

/-- **C25.** `replace_references(old, new)`: exactly the references held by cells of the library that
refer to a cell with the old name, or to the name itself, now point to the new cell; nothing else
changes. -/
theorem C25_replace_references (st : LState) (old : Str) (new : Nat) :
    let st' := (st.replaceReferences old (.obj new)).1
    st'.cells = st.cells ∧ st'.heap.name = st.heap.name ∧ st'.heap.refs = st.heap.refs ∧
    (∀ r, InLibrary st r → RefersTo st.heap r old → st'.heap.target r = .obj new) ∧
    ∀ r, ¬ (InLibrary st r ∧ RefersTo st.heap r old) → st'.heap.target r = st.heap.target r := by
  obtain ⟨e1, e2, e3, e4, e5, e6⟩ := replaceReferences_spec st old (.obj new)
  refine ⟨e1, e2, e3, ?_, ?_⟩
  · intro r h1 h2
    rw [e6 r, if_pos ⟨allRefs_iff.2 h1, targetName_iff.2 h2⟩]
    rfl
  · intro r h1
    rw [e6 r, if_neg (fun h => h1 ⟨allRefs_iff.1 h.1, targetName_iff.1 h.2⟩)]

/-- **C25.** The number returned by `replace_references` is the number of references changed, when
the new cell does not have the old name. -/
theorem C25_replace_count (st : LState) (old : Str) (new : Nat) (hne : st.heap.name new ≠ old) :
    ∃ l : List Nat, l.Nodup ∧ (st.replaceReferences old (.obj new)).2 = l.length ∧
      ∀ r, r ∈ l ↔ InLibrary st r ∧ RefersTo st.heap r old := by
  refine ⟨st.allRefs.dedup.filter fun r => st.heap.targetName (st.heap.target r) = old,
    (List.nodup_dedup _).filter _, ?_, ?_⟩
  · have := replace_count old (.obj new) st.allRefs (st.heap, 0) hne
    rw [Nat.zero_add] at this
    exact this
  · intro r
    rw [List.mem_filter, List.mem_dedup, decide_eq_true_iff, allRefs_iff, targetName_iff]

open Classical in
theorem addStep_target {upd : Bool} {st st' : LState} {c : Nat} (h : addStep true upd st c = (st', none))
    (r : Nat) : st'.heap.target r
      = if upd = true ∧ Clash st c ∧ InLibrary st r ∧ RefersTo st.heap r (st.heap.name c) then .obj c
        else st.heap.target r := by
  unfold addStep at h
  simp only [Bool.not_true, Bool.false_and, Bool.false_eq_true, if_false, Bool.true_and,
    Prod.mk.injEq, and_true] at h
  by_cases hc : (upd && st.clashes c) = true
  · rw [if_pos hc] at h
    rw [Bool.and_eq_true, clashes_iff] at hc
    obtain ⟨e1, e2, e3, e4, e5, e6⟩ := replaceReferences_spec st (st.heap.name c) (.obj c)
    rw [← h]
    simp only
    rw [e6 r]
    have : (upd = true ∧ Clash st c ∧ InLibrary st r ∧ RefersTo st.heap r (st.heap.name c)) ↔
        (r ∈ st.allRefs ∧ st.heap.targetName (st.heap.target r) = st.heap.name c) := by
      rw [allRefs_iff, targetName_iff]
      constructor
      · rintro ⟨-, -, h1, h2⟩; exact ⟨h1, h2⟩
      · rintro ⟨h1, h2⟩; exact ⟨hc.1, hc.2, h1, h2⟩
    by_cases hp : r ∈ st.allRefs ∧ st.heap.targetName (st.heap.target r) = st.heap.name c
    · rw [if_pos hp, if_pos (this.2 hp)]; rfl
    · rw [if_neg hp, if_neg (fun h => hp (this.1 h))]
  · rw [if_neg hc] at h
    rw [if_neg (fun hp => hc (by rw [Bool.and_eq_true, clashes_iff]; exact ⟨hp.1, hp.2.1⟩)), ← h]

/-- The references of a cell `d` that stays in the library while the cells of `l` are added. -/
theorem addLoop_target (upd : Bool) : ∀ (l : List Nat) (st : LState), l.Nodup →
    (∀ c ∈ l, ∀ d ∈ l, st.heap.name c = st.heap.name d → c = d) →
    ∀ (k : Str) (d : Nat), st.cells.lookup k = some d → (∀ c ∈ l, st.heap.name c = k → c = d) →
    ∀ r ∈ st.heap.refs d,
      (∀ c ∈ l, upd = true → Clash st c → RefersTo st.heap r (st.heap.name c) →
        (addLoop true upd st l).1.heap.target r = .obj c) ∧
      ((∀ c ∈ l, ¬ (upd = true ∧ Clash st c ∧ RefersTo st.heap r (st.heap.name c))) →
        (addLoop true upd st l).1.heap.target r = st.heap.target r) := by
  intro l
  induction l with
  | nil => intro st _ _ k d _ _ r _; exact ⟨by simp, fun _ => rfl⟩
  | cons c l ih =>
    intro st hnd hinj k d hk hkeep r hr
    unfold addLoop
    cases hs : addStep true upd st c with
    | mk st' e =>
      cases e with
      | some e => exact absurd (addStep_err hs).1 (by simp)
      | none =>
        obtain ⟨-, h2, h3, h4⟩ := addStep_ok hs
        have ht := addStep_target hs
        rw [List.nodup_cons] at hnd
        have hlib : InLibrary st r := ⟨(k, d), mem_of_lookup hk, hr⟩
        have hk' : st'.cells.lookup k = some d := by
          rw [put_lookup h4]
          split
          · rename_i he
            rw [hkeep c List.mem_cons_self he.symm]
          · exact hk
        have hcl : ∀ x ∈ l, (Clash st' x ↔ Clash st x) := by
          intro x hx
          have hne : st.heap.name x ≠ st.heap.name c := fun he =>
            hnd.1 (hinj x (List.mem_cons_of_mem _ hx) c List.mem_cons_self he ▸ hx)
          rw [clash_put h2 h4]
          simp [hne]
        -- what the reference is called does not change
        have hname : ∀ s, RefersTo st'.heap r s ↔ RefersTo st.heap r s := by
          intro s
          rw [← targetName_iff, ← targetName_iff, ht r]
          split
          · rename_i hc
            rw [targetName_iff.2 hc.2.2.2]
            simp [Heap.targetName, h2]
          · cases hq : st.heap.target r <;> simp [Heap.targetName, h2]
        obtain ⟨i1, i2⟩ := ih st' hnd.2 (by
            rw [h2]
            exact fun x hx y hy => hinj x (List.mem_cons_of_mem _ hx) y (List.mem_cons_of_mem _ hy))
          k d hk' (by rw [h2]; exact fun x hx => hkeep x (List.mem_cons_of_mem _ hx)) r
          (by rw [h3]; exact hr)
        simp only [hname, h2] at i1 i2
        simp only
        refine ⟨?_, ?_⟩
        · intro x hx hu hxc hxr
          rcases List.mem_cons.1 hx with rfl | hx
          · rw [i2, ht r, if_pos ⟨hu, hxc, hlib, hxr⟩]
            rintro y hy ⟨-, -, hyr⟩
            have : st.heap.name y = st.heap.name x := by
              rw [← targetName_iff] at hyr hxr
              exact hyr.symm.trans hxr
            exact hnd.1 (hinj y (List.mem_cons_of_mem _ hy) x List.mem_cons_self this ▸ hy)
          · exact i1 x hx hu ((hcl x hx).2 hxc) hxr
        · intro hno
          rw [i2, ht r, if_neg]
          · rintro ⟨h5, h6, -, h7⟩
            exact hno c List.mem_cons_self ⟨h5, h6, h7⟩
          · rintro x hx ⟨h5, h6, h7⟩
            exact hno x (List.mem_cons_of_mem _ hx) ⟨h5, (hcl x hx).1 h6, h7⟩

/-- **C25.** `add(cells, overwrite_duplicate=True)` with `update_references` true, where the cells to
be added have different names: in every cell that was in the library and still is, each reference
to something with the name of a replaced cell points to the replacement afterwards, and every other
reference is as before. Any iteration order of the set. -/
theorem C25_overwrite_redirects {iter : List Nat → List Nat} (hi : IterOk iter) {fuel : Nat}
    {st st' : LState} {cells : List Nat} {deps : Bool} {e : Option PyErr}
    (h : st.add iter fuel cells deps true true = some (st', e))
    (hinj : ∀ c d, ToAdd st.heap cells deps c → ToAdd st.heap cells deps d →
      st.heap.name c = st.heap.name d → c = d)
    (k : Str) (d : Nat) (hold : st.cells.lookup k = some d) (hnew : st'.cells.lookup k = some d)
    (r : Nat) (hr : r ∈ st.heap.refs d) :
    e = none ∧
    (∀ c, ToAdd st.heap cells deps c → Clash st c → RefersTo st.heap r (st.heap.name c) →
      st'.heap.target r = .obj c) ∧
    ((∀ c, ToAdd st.heap cells deps c → Clash st c → ¬ RefersTo st.heap r (st.heap.name c)) →
      st'.heap.target r = st.heap.target r) := by
  obtain ⟨h1, h2, h3⟩ := C24_add_closes_overwrite hi h hinj
  obtain ⟨l, hnd, hm, hl⟩ := add_inv hi h
  have hnm : st'.heap.name = st.heap.name := by
    have := (addLoop_lookup true true l st (addLoop_ow true l st)
      (fun c hc d hd => hinj c d ((hm c).1 hc) ((hm d).1 hd))).1
    rw [hl] at this
    exact this
  obtain ⟨i1, i2⟩ := addLoop_target true l st hnd
    (fun c hc d hd => hinj c d ((hm c).1 hc) ((hm d).1 hd)) k d hold (by
      intro c hc he
      have := h2 c ((hm c).1 hc)
      rw [hnm, he, hnew] at this
      exact (Option.some.inj this).symm) r hr
  rw [hl] at i1 i2
  refine ⟨h1, ?_, ?_⟩
  · intro c hc hcl hrt
    exact i1 c ((hm c).2 hc) rfl hcl hrt
  · intro hno
    refine i2 ?_
    rintro c hc ⟨-, h5, h6⟩
    exact hno c ((hm c).1 hc) h5 h6

/-- **C25.** Replacing a single cell: exactly the references of library cells to something with its
name are redirected. -/
theorem C25_overwrite_single {iter : List Nat → List Nat} (hi : IterOk iter) (fuel : Nat)
    (st : LState) (c : Nat) (hc : Clash st c) :
    ∃ st', st.add iter fuel [c] false true true = some (st', none) ∧
      st'.cells = dictPut st.cells (st.heap.name c) c ∧
      st'.heap.name = st.heap.name ∧ st'.heap.refs = st.heap.refs ∧
      (∀ r, InLibrary st r → RefersTo st.heap r (st.heap.name c) → st'.heap.target r = .obj c) ∧
      ∀ r, ¬ (InLibrary st r ∧ RefersTo st.heap r (st.heap.name c)) →
        st'.heap.target r = st.heap.target r := by
  have hl : iter [c] = [c] := by
    obtain ⟨h1, h2⟩ := hi [c]
    rw [← List.perm_singleton]
    refine (List.perm_ext_iff_of_nodup h1 (List.nodup_singleton c)).2 h2
  have e : st.add iter fuel [c] false true true = some (addLoop true true st (iter [c])) := rfl
  rw [e, hl]
  unfold addLoop
  cases hs : addStep true true st c with
  | mk st' e =>
    cases e with
    | some e => exact absurd (addStep_err hs).1 (by simp)
    | none =>
      obtain ⟨-, h2, h3, h4⟩ := addStep_ok hs
      have ht := addStep_target hs
      refine ⟨st', rfl, h4, h2, h3, ?_, ?_⟩
      · intro r h5 h6
        rw [ht r, if_pos ⟨rfl, hc, h5, h6⟩]
      · intro r h5
        rw [ht r, if_neg (fun h => h5 ⟨h.2.2.1, h.2.2.2⟩)]

/-- **C25.** With `update_references` false no object changes at all. -/
theorem C25_no_update {iter : List Nat → List Nat} (hi : IterOk iter) {fuel : Nat}
    {st st' : LState} {cells : List Nat} {deps ow : Bool} {e : Option PyErr}
    (h : st.add iter fuel cells deps ow false = some (st', e)) : st'.heap = st.heap := by
  obtain ⟨l, -, -, hl⟩ := add_inv hi h
  have : ∀ (l : List Nat) (st : LState), (addLoop ow false st l).1.heap = st.heap := by
    intro l
    induction l with
    | nil => intro st; rfl
    | cons c l ih =>
      intro st
      have h0 : (addStep ow false st c).1.heap = st.heap := by
        unfold addStep
        split
        · rfl
        · simp
      unfold addLoop
      cases hs : addStep ow false st c with
      | mk s e =>
        rw [hs] at h0
        cases e with
        | some e => exact h0
        | none => exact (ih s).trans h0
  have := this l st
  rw [hl] at this
  exact this

/-- Library: A (cell 0), B (cell 1) with references to A and to the name A. Cell 2 is a new A that
holds a reference to the old A. -/
def overState : LState :=
  ⟨⟨3, 3, fun c => if c = 1 then ['B'] else ['A'],
    fun c => if c = 1 then [0, 1] else if c = 2 then [2] else [],
    fun r => if r = 1 then .str ['A'] else .obj 0⟩, [(['A'], 0), (['B'], 1)]⟩

example : Clash overState 2 := ⟨0, by decide, by decide⟩

/-- **C25.** The replacement itself is not treated: its own references to the replaced cell stay, so
that afterwards a cell of the library refers to a cell that is no longer in it. -/
theorem C25_new_cell_keeps_old : ∃ st', overState.add List.dedup 9 [2] false true true = some (st', none) ∧
    st'.cells = [(['A'], 2), (['B'], 1)] ∧ st'.heap.target 0 = .obj 2 ∧ st'.heap.target 1 = .obj 2 ∧
    Edge st'.heap 2 0 :=
  ⟨_, rfl, by decide, by decide, by decide, 2, by decide, by decide⟩

end Gdspy
