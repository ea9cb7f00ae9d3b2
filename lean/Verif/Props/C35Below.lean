import Verif.Props.C35Removed

/-!
# C35: changes below a cell, in general

`get_bounding_box` trusts the cached box of a cell if the boxes of all cells below are cached. It does not notice that
one of them was renewed in between. Here for all hierarchies: once a cell below has been extended and queried, the cell
above keeps its old box.
-/

set_option linter.unusedSectionVars false

namespace Gdspy

open Spec

variable {K P : Type} [Field K] [LinearOrder K]

/-- Nothing but boxes changes from `h` to `h'`, no box becomes invalid, and cells outside of `S` stay as they are. -/
structure Spec.OnlyBoxes (S : Nat → Prop) (h h' : BHeap K P) : Prop where
  polygons : ∀ d, (h' d).polygons = (h d).polygons
  paths : ∀ d, (h' d).paths = (h d).paths
  refs : ∀ d, (h' d).refs = (h d).refs
  valid : ∀ d, (h d).valid = true → (h' d).valid = true
  rest : ∀ d, ¬ S d → h' d = h d

theorem onlyBoxes_refl (S : Nat → Prop) (h : BHeap K P) : OnlyBoxes S h h :=
  ⟨fun _ => rfl, fun _ => rfl, fun _ => rfl, fun _ => id, fun _ _ => rfl⟩

theorem onlyBoxes_trans {S : Nat → Prop} {h h' h'' : BHeap K P} (a : OnlyBoxes S h h') (b : OnlyBoxes S h' h'') :
    OnlyBoxes S h h'' :=
  ⟨fun d => (b.polygons d).trans (a.polygons d), fun d => (b.paths d).trans (a.paths d),
    fun d => (b.refs d).trans (a.refs d), fun d hd => b.valid d (a.valid d hd),
    fun d hd => (b.rest d hd).trans (a.rest d hd)⟩

theorem refLoop_onlyBoxes {ops : PathOps K P} {t : Trig K} {S : Nat → Prop}
    {query : BHeap K P → Nat → Option (BHeap K P × Option (Pt K × Pt K))}
    {tree : BHeap K P → Nat → Option (HCell K P)} (R : Nat → List (BRef K))
    (hq : ∀ h d h' b, (∀ e, (h e).refs = R e) → S d → query h d = some (h', b) → OnlyBoxes S h h')
    (rs : List (BRef K)) (hS : ∀ r ∈ rs, ∀ d, r.target = some d → S d) :
    ∀ (h h' : BHeap K P) (l : List (Pt K)), (∀ e, (h e).refs = R e) →
      refLoop ops t query tree h rs = some (h', l) → OnlyBoxes S h h' := by
  induction rs with
  | nil =>
    intro h h' l _ e
    rw [refLoop] at e
    cases e
    exact onlyBoxes_refl S h
  | cons r rs ih =>
    intro h h' l hR e
    have ih := ih fun r hr => hS r (by simp [hr])
    rw [refLoop] at e
    split at e
    · exact ih _ _ _ hR e
    · rename_i d hd
      have hSd := hS r (by simp) d hd
      have step : ∀ (o : Option (BHeap K P × List (Pt K))), (∀ x, o = some x → OnlyBoxes S h x.1) →
          (do let x ← o
              let y ← refLoop ops t query tree x.1 rs
              some (y.1, ((boxOf x.2).map boxPts).getD [] ++ y.2)) = some (h', l) → OnlyBoxes S h h' := by
        intro o ho e
        cases hx : o with
        | none => rw [hx] at e; cases e
        | some x =>
          have g := ho x hx
          rw [hx] at e
          simp only [Option.bind_eq_bind, Option.bind_some] at e
          cases hy : refLoop ops t query tree x.1 rs with
          | none => rw [hy] at e; cases e
          | some y =>
            rw [hy] at e
            cases e
            exact onlyBoxes_trans g (ih _ _ _ (fun e => (g.refs e).trans (hR e)) hy)
      dsimp only at e
      split at e
      · refine step _ ?_ e
        intro x hx
        cases hb : query h d with
        | none => rw [hb] at hx; cases hx
        | some y =>
          rw [hb] at hx
          cases hx
          exact hq h d y.1 y.2 hR hSd hb
      · refine step _ ?_ e
        intro x hx
        cases hb : tree h d with
        | none => rw [hb] at hx; cases hx
        | some y =>
          rw [hb] at hx
          cases hx
          exact onlyBoxes_refl S h

theorem getBB_onlyBoxes {ops : PathOps K P} {t : Trig K} {S : Nat → Prop} (R : Nat → List (BRef K))
    (hS : ∀ c d, S c → (∃ r ∈ R c, r.target = some d) → S d) (n : Nat) :
    ∀ (h : BHeap K P) (c : Nat) (h' : BHeap K P) (b : Option (Pt K × Pt K)), (∀ e, (h e).refs = R e) → S c →
      getBB ops t n h c = some (h', b) → OnlyBoxes S h h' := by
  induction n with
  | zero => intro h c h' b _ _ e; rw [getBB] at e; cases e
  | succ n ih =>
    intro h c h' b hR hc hq
    rw [getBB] at hq
    cases hd : depsOf (n + 1) h c with
    | none => rw [hd] at hq; cases hq
    | some ds =>
      rw [hd] at hq
      simp only [Option.bind_eq_bind, Option.bind_some] at hq
      split at hq
      · cases hq
        exact onlyBoxes_refl S h
      · cases hx : refLoop ops t (getBB ops t n) (treeOf n) h (h c).refs with
        | none => rw [hx] at hq; cases hq
        | some x =>
          rw [hx] at hq
          simp only [Option.bind_some, Option.some.injEq, Prod.mk.injEq] at hq
          obtain ⟨rfl, -⟩ := hq
          have g := refLoop_onlyBoxes R ih (h c).refs
            (fun r hr d ht => hS c d hc ⟨r, by rw [← hR c]; exact hr, ht⟩) h x.1 x.2 hR hx
          refine onlyBoxes_trans g ⟨?_, ?_, ?_, ?_, ?_⟩ <;> intro d
          · unfold BHeap.set; split <;> simp_all
          · unfold BHeap.set; split <;> simp_all
          · unfold BHeap.set; split <;> simp_all
          · intro hv; unfold BHeap.set; split <;> simp_all
          · intro hn
            unfold BHeap.set
            split
            · rename_i e; subst e; exact absurd hc hn
            · rfl

/-- **C35.** Whatever the state of the caches, a query changes nothing but boxes, and those only in the cell itself
and the cells it depends on. -/
theorem C35_query_only_boxes {ops : PathOps K P} {t : Trig K} {h h' : BHeap K P} {n c : Nat}
    {b : Option (Pt K × Pt K)} (hq : getBB ops t n h c = some (h', b)) :
    OnlyBoxes (fun d => d = c ∨ DependsOn h c d) h h' := by
  refine getBB_onlyBoxes (fun e => (h e).refs) ?_ n h c h' b (fun _ => rfl) (Or.inl rfl) hq
  rintro a d (rfl | ha) hr
  · exact Or.inr (.single hr)
  · exact Or.inr (.tail ha hr)

/-- **C35 is violated, always.** The boxes of a cell `c` and of all cells below it are cached. Any polygons and paths
are added to a cell `e` below it, and the box of `e` is queried. Then the box of `c` is what it was before. -/
theorem C35_stale_below {ops : PathOps K P} {t : Trig K} {h h₁ h₂ : BHeap K P} {n m c e : Nat}
    {b b₂ : Option (Pt K × Pt K)} (hq : getBB ops t n h c = some (h₁, b)) (hv : (h c).valid = true)
    (hb : ∀ d, DependsOn h c d → (h d).valid = true) (hce : e ≠ c) (hec : ¬ DependsOn h e c)
    {els : List (BElem K P)} {a : List (PolySet K)} {p : List P} (ha : Added els a p [])
    (hq₂ : getBB ops t m (bAdd e els h).1 e = some (h₂, b₂)) :
    (getBB ops t n h₂ c).map Prod.snd = some b := by
  obtain ⟨-, -, -, hr, -, ho⟩ := C35_add_contents ha h e
  have hrefs : ∀ d, ((bAdd e els h).1 d).refs = (h d).refs := by
    intro d
    by_cases hd : d = e
    · subst hd; simpa using hr
    · rw [ho d hd]
  have g := C35_query_only_boxes hq₂
  have hdep : ¬ DependsOn (bAdd e els h).1 e c := by
    have : Refers (bAdd e els h).1 = Refers h := by
      funext x y; unfold Refers; rw [hrefs]
    unfold DependsOn at hec ⊢
    rwa [this]
  have hval : ∀ d, (h d).valid = true → (h₂ d).valid = true := by
    intro d hd
    by_cases hde : d = e
    · subst hde; exact (C35_query_caches hq₂).1
    · exact g.valid d (by rw [ho d hde]; exact hd)
  have hcc : h₂ c = h c := by
    rw [g.rest c (by rintro (h1 | h1); exacts [hce h1.symm, hdep h1]), ho c (Ne.symm hce)]
  have hrefs₂ : ∀ d, (h₂ d).refs = (h d).refs := fun d => (g.refs d).trans (hrefs d)
  cases n with
  | zero => rw [getBB] at hq; cases hq
  | succ n =>
    rw [getBB] at hq ⊢
    rw [depsOf_congr hrefs₂]
    cases hd : depsOf (n + 1) h c with
    | none => rw [hd] at hq; cases hq
    | some ds =>
      rw [hd] at hq
      simp only [Option.bind_eq_bind, Option.bind_some] at hq ⊢
      have e1 : (ds.all fun d => (h d).valid) = true := by
        rw [List.all_eq_true]; exact fun d hd' => hb d (depsOf_depends hd d hd')
      have e2 : (ds.all fun d => (h₂ d).valid) = true := by
        rw [List.all_eq_true]; exact fun d hd' => hval d (hb d (depsOf_depends hd d hd'))
      rw [if_pos (by rw [hv, e1]; rfl)] at hq
      rw [if_pos (by rw [hval c hv, e2]; rfl), hcc]
      cases hq
      rfl

open C35 in
/-- Cell 0 references cell 1; both boxes are cached; a larger square is added to cell 1, which is queried. -/
example : ∃ h : Heap, (h 0).valid = true ∧ (∀ d, DependsOn h 0 d → (h d).valid = true) ∧ ¬ DependsOn h 1 0 ∧
    (getBB O ratTrig 9 h 0).map Prod.snd = some (some ((0, 0), (1, 1))) ∧
    ((getBB O ratTrig 9 (bAdd 1 [.polys (sq 5)] h).1 1).map Prod.snd) = some (some ((0, 0), (5, 5))) ∧
    Added (P := IdealPath) [.polys (sq 5)] [sq 5] [] [] := by
  refine ⟨(two.set 0 { two 0 with valid := true, cache := some ((0, 0), (1, 1)) }).set 1
    { two 1 with valid := true, cache := some ((0, 0), (1, 1)) }, rfl, fun d hd => ?_, fun hd => ?_,
    by decide +kernel, by decide +kernel, .polys .nil⟩
  · obtain ⟨x, ⟨r, hr, ht⟩, hx⟩ := Relation.TransGen.head'_iff.1 hd
    have hr : r ∈ [ref 1 0 0] := hr
    rw [List.mem_singleton] at hr
    subst hr
    have ht : some 1 = some x := ht
    cases ht
    rcases Relation.ReflTransGen.cases_head hx with rfl | ⟨y, ⟨r, hr, _⟩, _⟩
    · rfl
    · cases hr
  · obtain ⟨x, ⟨r, hr, _⟩, _⟩ := Relation.TransGen.head'_iff.1 hd
    cases hr

end Gdspy
