import Verif.Props.C35

/-!
# C35: removal and the cache of bounding boxes, in general

`remove_polygons` and `remove_paths` do not touch `_bb_valid` (library.py:338-410). So the violations of C35 by
removal are not special cases: whatever is removed, a cell whose box and the boxes of all cells below are cached
keeps returning the box it had.
-/

set_option linter.unusedSectionVars false

namespace Gdspy

open Spec

variable {K P : Type} [Field K] [LinearOrder K]

theorem depsOf_depends {h : BHeap K P} {n c : Nat} {ds : List Nat} (hd : depsOf n h c = some ds) :
    ∀ d ∈ ds, DependsOn h c d := by
  induction n generalizing c ds with
  | zero => rw [depsOf] at hd; cases hd
  | succ n ih =>
    rw [depsOf] at hd
    cases hm : ((h c).refs.filterMap BRef.target).mapM (fun d => (depsOf n h d).map fun l => d :: l) with
    | none => rw [hm] at hd; cases hd
    | some ll =>
      rw [hm] at hd
      cases hd
      have key : ∀ (l : List Nat) (ll : List (List Nat)), (∀ e ∈ l, Refers h c e) →
          l.mapM (fun d => (depsOf n h d).map fun l => d :: l) = some ll →
          ∀ d ∈ ll.flatten, DependsOn h c d := by
        intro l
        induction l with
        | nil => intro ll _ e d hd; simp at e; subst e; simp at hd
        | cons a l il =>
          intro ll hr e d hd
          rw [List.mapM_cons] at e
          cases ha : depsOf n h a with
          | none => rw [ha] at e; cases e
          | some da =>
            rw [ha] at e
            cases hl : l.mapM (fun d => (depsOf n h d).map fun l => d :: l) with
            | none => rw [hl] at e; cases e
            | some dl =>
              rw [hl] at e
              cases e
              have h0 := hr a (by simp)
              rw [List.flatten_cons, List.mem_append, List.mem_cons] at hd
              rcases hd with (rfl | hd) | hd
              · exact .single h0
              · exact .head h0 (ih ha d hd)
              · exact il dl (fun e he => hr e (by simp [he])) hl d hd
      refine key _ _ ?_ hm
      intro e he
      obtain ⟨r, hr, ht⟩ := List.mem_filterMap.1 he
      exact ⟨r, hr, ht⟩

theorem depsOf_congr {h h' : BHeap K P} (hr : ∀ d, (h' d).refs = (h d).refs) (n c : Nat) :
    depsOf n h' c = depsOf n h c := by
  induction n generalizing c with
  | zero => rfl
  | succ n ih =>
    rw [depsOf, depsOf, hr]
    have : (fun d => (depsOf n h' d).map fun l => d :: l) = fun d => (depsOf n h d).map fun l => d :: l := by
      funext d; rw [ih]
    rw [this]

/-- A change that keeps references, flags and caches keeps what a cached query returns. -/
theorem getBB_cached {ops : PathOps K P} {t : Trig K} {h : BHeap K P} {n c : Nat} {b : Option (Pt K × Pt K)}
    {h₁ : BHeap K P} (hq : getBB ops t n h c = some (h₁, b)) (hv : (h c).valid = true)
    (hb : ∀ d, DependsOn h c d → (h d).valid = true) {h' : BHeap K P} (hr : ∀ d, (h' d).refs = (h d).refs)
    (hv' : ∀ d, (h' d).valid = (h d).valid) (hc : (h' c).cache = (h c).cache) :
    b = (h c).cache ∧ getBB ops t n h' c = some (h', b) := by
  cases n with
  | zero => rw [getBB] at hq; cases hq
  | succ n =>
    rw [getBB] at hq ⊢
    rw [depsOf_congr hr]
    cases hd : depsOf (n + 1) h c with
    | none => rw [hd] at hq; cases hq
    | some ds =>
      rw [hd] at hq
      simp only [Option.bind_eq_bind, Option.bind_some] at hq ⊢
      have e : (ds.all fun d => (h d).valid) = true := by
        rw [List.all_eq_true]; exact fun d hd' => hb d (depsOf_depends hd d hd')
      have e' : (ds.all fun d => (h' d).valid) = true := by simpa only [hv'] using e
      rw [if_pos (by rw [hv, e]; rfl)] at hq
      rw [if_pos (by rw [hv', hv, e']; rfl), hc]
      cases hq
      exact ⟨rfl, rfl⟩

/-- **C35 is violated, always.** After the box of a cell was cached, and those of all cells below, the removal of
any polygons of that cell leaves the result of `get_bounding_box` as it was before. -/
theorem C35_stale_remove_polygons {ops : PathOps K P} {t : Trig K} {h h₁ : BHeap K P} {n c : Nat}
    {b : Option (Pt K × Pt K)} (hq : getBB ops t n h c = some (h₁, b)) (hv : (h c).valid = true)
    (hb : ∀ d, DependsOn h c d → (h d).valid = true) (test : Pgon K → Int → Int → Bool) :
    (getBB ops t n (bRemovePolygons c test h) c).map Prod.snd = some b := by
  have := (getBB_cached hq hv hb (h' := bRemovePolygons c test h)
    (fun d => by unfold bRemovePolygons BHeap.set; split <;> simp_all)
    (fun d => by unfold bRemovePolygons BHeap.set; split <;> simp_all)
    (by unfold bRemovePolygons BHeap.set; simp)).2
  rw [this]; rfl

/-- **C35 is violated, always.** The same for the removal of any paths. -/
theorem C35_stale_remove_paths {ops : PathOps K P} {t : Trig K} {h h₁ : BHeap K P} {n c : Nat}
    {b : Option (Pt K × Pt K)} (hq : getBB ops t n h c = some (h₁, b)) (hv : (h c).valid = true)
    (hb : ∀ d, DependsOn h c d → (h d).valid = true) (test : P → Bool) :
    (getBB ops t n (bRemovePaths c test h) c).map Prod.snd = some b := by
  have := (getBB_cached hq hv hb (h' := bRemovePaths c test h)
    (fun d => by unfold bRemovePaths BHeap.set; split <;> simp_all)
    (fun d => by unfold bRemovePaths BHeap.set; split <;> simp_all)
    (by unfold bRemovePaths BHeap.set; simp)).2
  rw [this]; rfl

/-- A query caches the box of the cell. -/
theorem C35_query_caches {ops : PathOps K P} {t : Trig K} {h h' : BHeap K P} {n c : Nat}
    {b : Option (Pt K × Pt K)} (hq : getBB ops t n h c = some (h', b)) :
    (h' c).valid = true ∧ (h' c).cache = b := by
  cases n with
  | zero => rw [getBB] at hq; cases hq
  | succ n =>
    rw [getBB] at hq
    cases hd : depsOf (n + 1) h c with
    | none => rw [hd] at hq; cases hq
    | some ds =>
      rw [hd] at hq
      simp only [Option.bind_eq_bind, Option.bind_some] at hq
      split at hq
      · rename_i hv
        cases hq
        simp at hv
        exact ⟨hv.1, rfl⟩
      · cases hx : refLoop ops t (getBB ops t n) (treeOf n) h (h c).refs with
        | none => rw [hx] at hq; cases hq
        | some x =>
          rw [hx] at hq
          simp only [Option.bind_some, Option.some.injEq, Prod.mk.injEq] at hq
          obtain ⟨rfl, rfl⟩ := hq
          simp [BHeap.set]

/-- What `add` is to do to the contents of a cell, element by element. -/
inductive Spec.Added {K P : Type} : List (BElem K P) → List (PolySet K) → List P → List (BRef K) → Prop
  | nil : Added [] [] [] []
  | polys {ps l a b c} : Added l a b c → Added (.polys ps :: l) (ps :: a) b c
  | path {p l a b c} : Added l a b c → Added (.path p :: l) a (p :: b) c
  | ref {r l a b c} : Added l a b c → Added (.ref r :: l) a b (r :: c)
  | label {l a b c} : Added l a b c → Added (.label :: l) a b c

theorem bAddLoop_added {els : List (BElem K P)} {a : List (PolySet K)} {b : List P} {r : List (BRef K)}
    (h : Added els a b r) (x : BCell K P) :
    bAddLoop x els = ({ x with polygons := x.polygons ++ a, paths := x.paths ++ b, refs := x.refs ++ r }, none) := by
  induction h generalizing x with
  | nil => simp [bAddLoop]
  | polys _ ih => rw [bAddLoop, ih]; simp
  | path _ ih => rw [bAddLoop, ih]; simp
  | ref _ ih => rw [bAddLoop, ih]; simp
  | label _ ih => rw [bAddLoop, ih]

/-- **C35.** `add` appends what it is given, in order, to the lists of the cell, and marks the box as out of date; other
cells, and their boxes, stay as they are. -/
theorem C35_add_contents {els : List (BElem K P)} {a : List (PolySet K)} {b : List P} {r : List (BRef K)}
    (ha : Added els a b r) (h : BHeap K P) (c : Nat) :
    (bAdd c els h).2 = none ∧ ((bAdd c els h).1 c).polygons = (h c).polygons ++ a ∧
      ((bAdd c els h).1 c).paths = (h c).paths ++ b ∧ ((bAdd c els h).1 c).refs = (h c).refs ++ r ∧
      ((bAdd c els h).1 c).valid = false ∧ ∀ d, d ≠ c → (bAdd c els h).1 d = h d := by
  unfold bAdd
  rw [bAddLoop_added ha]
  refine ⟨rfl, ?_, ?_, ?_, ?_, fun d hd => ?_⟩ <;> simp [BHeap.set]
  exact fun e => absurd e hd

open C35 in
/-- The square of cell 1 is removed after its box was cached. -/
example : ∃ h₁ b, getBB O ratTrig 9 two 1 = some (h₁, b) ∧ (h₁ 1).valid = true ∧ b = some ((0, 0), (1, 1)) ∧
    (∀ d, DependsOn h₁ 1 d → (h₁ d).valid = true) ∧
    (getBB O ratTrig 9 (bRemovePolygons 1 (fun _ _ _ => true) h₁) 1).map Prod.snd = some (some ((0, 0), (1, 1))) := by
  refine ⟨two.set 1 { two 1 with valid := true, cache := some ((0, 0), (1, 1)) }, _, rfl, rfl, by decide +kernel,
    fun d hd => ?_, by decide +kernel⟩
  obtain ⟨b, ⟨r, hr, _⟩, _⟩ := Relation.TransGen.head'_iff.1 hd
  cases hr

open C35 in
example : Added (P := IdealPath) [.polys (sq 1), .label, .ref (ref 1 0 0)] [sq 1] [] [ref 1 0 0] :=
  .polys (.label (.ref .nil))

end Gdspy
