import Verif.Props.C22
import Mathlib.Order.WellFounded
import Mathlib.Data.Fintype.Order
import Mathlib.Data.Set.Finite.Lattice

/-!
# C29: dependencies are the reachable cells; C28: top level cells
-/

namespace Gdspy

open Spec

theorem reach_iff {h : Heap} {c x : Nat} :
    Reach h c x ↔ Edge h c x ∨ ∃ d, Edge h c d ∧ Reach h d x := by
  constructor
  · intro hr
    obtain ⟨b, h1, h2⟩ := Relation.TransGen.head'_iff.1 hr
    rcases Relation.reflTransGen_iff_eq_or_transGen.1 h2 with rfl | h2
    · exact Or.inl h1
    · exact Or.inr ⟨b, h1, h2⟩
  · rintro (h1 | ⟨d, h1, h2⟩)
    · exact .single h1
    · exact .head h1 h2

/-- **C29.** Whenever `get_dependencies(True)` returns, it returns exactly the cells reachable by
one or more references. -/
theorem C29_dependencies_reachable {h : Heap} : ∀ (n c : Nat) (l : List Nat),
    h.deps n c = some l → ∀ x, x ∈ l ↔ Reach h c x := by
  intro n
  induction n with
  | zero => intro c l hl; simp [Heap.deps] at hl
  | succ n ih =>
    intro c l hl x
    obtain ⟨h1, h2⟩ := collectAll_some hl
    rw [h2 x, reach_iff, directDeps_mem]
    constructor
    · rintro (hx | ⟨d, hd, a, ha, hx⟩)
      · exact Or.inl hx
      · exact Or.inr ⟨d, directDeps_mem.1 hd, (ih d a ha x).1 hx⟩
    · rintro (hx | ⟨d, hd, hx⟩)
      · exact Or.inl hx
      · obtain ⟨a, ha⟩ := h1 d (directDeps_mem.2 hd)
        exact Or.inr ⟨d, directDeps_mem.2 hd, a, ha, (ih d a ha x).2 hx⟩

/-- **C29.** `get_dependencies(False)` returns exactly the cells referenced directly; references to
names do not count. -/
theorem C29_direct_dependencies {h : Heap} (c x : Nat) : x ∈ h.directDeps c ↔ Edge h c x :=
  directDeps_mem

theorem collectAll_of {f g : Nat → Option (List Nat)} : ∀ (l : List Nat) {out : List Nat},
    (∀ d ∈ l, ∀ a, f d = some a → g d = some a) → collectAll f l = some out →
    collectAll g l = some out := by
  intro l
  induction l with
  | nil => intro out _ h; exact h
  | cons d l ih =>
    intro out hfg h
    simp only [collectAll] at h ⊢
    cases ha : f d with
    | none => rw [ha] at h; simp at h
    | some a =>
      cases hb : collectAll f l with
      | none => rw [ha, hb] at h; simp at h
      | some b =>
        rw [ha, hb] at h
        rw [hfg d List.mem_cons_self a ha,
          ih (fun e he => hfg e (List.mem_cons_of_mem _ he)) hb]
        exact h

theorem collectAll_exists {f : Nat → Option (List Nat)} : ∀ (l : List Nat),
    (∀ d ∈ l, ∃ a, f d = some a) → ∃ out, collectAll f l = some out := by
  intro l
  induction l with
  | nil => intro _; exact ⟨[], rfl⟩
  | cons d l ih =>
    intro h
    obtain ⟨a, ha⟩ := h d List.mem_cons_self
    obtain ⟨b, hb⟩ := ih (fun e he => h e (List.mem_cons_of_mem _ he))
    exact ⟨a ++ d :: b, by simp only [collectAll]; rw [ha, hb]; rfl⟩

theorem deps_succ {h : Heap} : ∀ (n c : Nat) (l : List Nat), h.deps n c = some l →
    h.deps (n + 1) c = some l := by
  intro n
  induction n with
  | zero => intro c l hl; simp [Heap.deps] at hl
  | succ n ih =>
    intro c l hl
    exact collectAll_of _ (fun d _ a ha => ih d a ha) hl

theorem deps_le {h : Heap} {n m c : Nat} {l : List Nat} (hnm : n ≤ m) (hl : h.deps n c = some l) :
    h.deps m c = some l := by
  induction m, hnm using Nat.le_induction with
  | base => exact hl
  | succ m _ ih => exact deps_succ m c l ih

/-- The result does not depend on the bound. -/
theorem deps_unique {h : Heap} {n m c : Nat} {l l' : List Nat} (hl : h.deps n c = some l)
    (hl' : h.deps m c = some l') : l = l' := by
  have h1 := deps_le (Nat.le_max_left n m) hl
  have h2 := deps_le (Nat.le_max_right n m) hl'
  rw [h1] at h2
  exact Option.some.inj h2

/-- **C29.** `get_dependencies(True)` returns if and only if every chain of references starting at
the cell ends. -/
theorem C29_terminates_iff {h : Heap} (c : Nat) :
    (∃ n l, h.deps n c = some l) ↔ Acc (fun b a => Edge h a b) c := by
  constructor
  · rintro ⟨n, l, hl⟩
    induction n generalizing c l with
    | zero => simp [Heap.deps] at hl
    | succ n ih =>
      obtain ⟨h1, -⟩ := collectAll_some hl
      refine Acc.intro c ?_
      intro d hd
      obtain ⟨a, ha⟩ := h1 d (directDeps_mem.2 hd)
      exact ih d a ha
  · intro hacc
    induction hacc with
    | intro c _ ih =>
      have : ∃ N, ∀ d ∈ h.directDeps c, ∃ a, h.deps N d = some a := by
        have hall : ∀ d ∈ h.directDeps c, ∃ n a, h.deps n d = some a :=
          fun d hd => ih d (directDeps_mem.1 hd)
        generalize h.directDeps c = l at hall
        induction l with
        | nil => exact ⟨0, by simp⟩
        | cons d l ihl =>
          obtain ⟨N, hN⟩ := ihl (fun e he => hall e (List.mem_cons_of_mem _ he))
          obtain ⟨n, a, ha⟩ := hall d List.mem_cons_self
          refine ⟨max n N, ?_⟩
          intro e he
          rcases List.mem_cons.1 he with rfl | he
          · exact ⟨a, deps_le (Nat.le_max_left _ _) ha⟩
          · obtain ⟨b, hb⟩ := hN e he
            exact ⟨b, deps_le (Nat.le_max_right _ _) hb⟩
      obtain ⟨N, hN⟩ := this
      obtain ⟨out, ho⟩ := collectAll_exists _ hN
      exact ⟨N + 1, out, ho⟩

theorem acc_no_cycle {h : Heap} {c : Nat} (hacc : Acc (fun b a => Edge h a b) c) :
    ¬ Reach h c c := by
  induction hacc with
  | intro c _ ih =>
    intro hr
    rcases reach_iff.1 hr with he | ⟨d, he, hd⟩
    · exact ih c he hr
    · exact ih d he (.tail hd he)

/-- **C29.** If a cycle of references can be reached from the cell, `get_dependencies(True)` never
returns, however deep the recursion may go. -/
theorem C29_cycle_diverges {h : Heap} (c x : Nat) (hx : x = c ∨ Reach h c x) (hcyc : Reach h x x)
    (n : Nat) : h.deps n c = none := by
  by_contra hne
  obtain ⟨l, hl⟩ := Option.ne_none_iff_exists'.1 hne
  have hacc := (C29_terminates_iff c).1 ⟨n, l, hl⟩
  have hacc' : Acc (fun b a => Edge h a b) x := by
    rcases hx with rfl | hx
    · exact hacc
    · clear hl hne hcyc l n
      induction hx with
      | single h1 => exact hacc.inv h1
      | tail _ h1 ih => exact ih.inv h1
  exact acc_no_cycle hacc' hcyc

/-- **C29.** In a program state all of whose references point to existing cells (finitely many), if
no cycle can be reached from the cell, then `get_dependencies(True)` returns exactly the reachable
cells. -/
theorem C29_acyclic_returns {h : Heap} (hal : ∀ r c, h.target r = .obj c → c < h.ncells)
    (c : Nat) (hno : ∀ x, x = c ∨ Reach h c x → ¬ Reach h x x) :
    ∃ n l, h.deps n c = some l ∧ ∀ x, x ∈ l ↔ Reach h c x := by
  suffices Acc (fun b a => Edge h a b) c by
    obtain ⟨n, l, hl⟩ := (C29_terminates_iff c).2 this
    exact ⟨n, l, hl, C29_dependencies_reachable n c l hl⟩
  let α := {x : Nat // x < h.ncells ∧ Reach h c x}
  have hfin : Finite α := by
    refine Finite.of_injective (fun a : α => (⟨a.1, a.2.1⟩ : Fin h.ncells)) ?_
    intro a b hab
    exact Subtype.ext (congrArg Fin.val hab)
  let r : α → α → Prop := fun b a => Reach h a.1 b.1
  have : IsTrans α r := ⟨fun _ _ _ h1 h2 => h2.trans h1⟩
  have : Std.Irrefl r := ⟨fun a ha => hno a.1 (Or.inr a.2.2) ha⟩
  have hwf : WellFounded r := Finite.wellFounded_of_trans_of_irrefl r
  have hacc : ∀ a : α, Acc (fun b a => Edge h a b) a.1 := by
    intro a
    induction a using hwf.induction with
    | _ a ih =>
      refine Acc.intro _ ?_
      intro d hd
      obtain ⟨q, hq, ht⟩ := hd
      have hd' : Edge h a.1 d := ⟨q, hq, ht⟩
      exact ih ⟨d, hal q d ht, a.2.2.tail hd'⟩ (.single hd')
  refine Acc.intro _ ?_
  intro d hd
  obtain ⟨q, hq, ht⟩ := hd
  exact hacc ⟨d, hal q d ht, .single ⟨q, hq, ht⟩⟩

/-- A diamond: cell 0 references 1 and 2, both reference 3; and a name that is not resolved. -/
def diamond : Heap :=
  ⟨4, 5, fun c => [Char.ofNat (65 + c)],
    fun c => if c = 0 then [0, 1, 4] else if c = 1 then [2] else if c = 2 then [3] else [],
    fun r => if r = 0 then .obj 1 else if r = 1 then .obj 2 else if r = 4 then .str ['Z'] else .obj 3⟩

example : diamond.deps 5 0 = some [3, 1, 3, 2] := by decide

example : ∀ r c, diamond.target r = .obj c → c < diamond.ncells := by
  intro r c hc
  simp only [diamond] at hc ⊢
  split at hc
  · cases hc; omega
  · split at hc
    · cases hc; omega
    · split at hc
      · cases hc
      · cases hc; omega

/-- Two cells that reference each other. -/
example : ∀ n, (⟨2, 2, fun _ => [], fun c => [c], fun r => if r = 0 then .obj 1 else .obj 0⟩ : Heap).deps n 0
    = none :=
  C29_cycle_diverges 0 0 (Or.inl rfl) (.tail (b := 1) (.single ⟨0, by simp, by simp⟩)
    ⟨1, by simp, by simp⟩)

/-! ### C28 -/

/-- **C28.** `top_level` returns exactly the cells of the library that no cell of the library
references. -/
theorem C28_top_level (st : LState) (c : Nat) :
    c ∈ st.topLevel ↔ (∃ k, (k, c) ∈ st.cells) ∧ ∀ p ∈ st.cells, ¬ Edge st.heap p.2 c := by
  unfold LState.topLevel
  rw [List.mem_filter]
  simp only [List.mem_map, Prod.exists, exists_eq_right, Bool.not_eq_true', List.any_eq_false,
    List.contains_iff_mem, directDeps_mem]

/-- **C28.** A library with at least one cell and no cycles of references through its cells has a
top level cell. -/
theorem C28_top_level_exists (st : LState) (hne : st.cells ≠ [])
    (hno : ∀ p ∈ st.cells, ¬ Reach st.heap p.2 p.2) : st.topLevel ≠ [] := by
  let α := {x : Nat // x ∈ st.cells.map Prod.snd}
  let r : α → α → Prop := fun a b => Reach st.heap a.1 b.1
  have : IsTrans α r := ⟨fun _ _ _ h1 h2 => h1.trans h2⟩
  have : Std.Irrefl r := ⟨fun a ha => by
    obtain ⟨p, hp, he⟩ := List.mem_map.1 a.2
    have := hno p hp
    rw [he] at this
    exact this ha⟩
  have : Finite α := (List.finite_toSet (st.cells.map Prod.snd)).to_subtype
  have hwf : WellFounded r := Finite.wellFounded_of_trans_of_irrefl r
  obtain ⟨p, hp⟩ := List.exists_mem_of_ne_nil _ hne
  obtain ⟨m, -, hm⟩ := hwf.has_min Set.univ ⟨⟨p.2, List.mem_map.2 ⟨p, hp, rfl⟩⟩, trivial⟩
  have : m.1 ∈ st.topLevel := by
    rw [C28_top_level]
    obtain ⟨q, hq, he⟩ := List.mem_map.1 m.2
    refine ⟨⟨q.1, by rw [← he]; exact hq⟩, ?_⟩
    intro p hp hedge
    exact hm ⟨p.2, List.mem_map.2 ⟨p, hp, rfl⟩⟩ trivial (.single hedge)
  exact List.ne_nil_of_mem this

example : (⟨diamond, [(['A'], 0), (['B'], 1), (['C'], 2), (['D'], 3)]⟩ : LState).topLevel = [0] := by
  decide

end Gdspy
