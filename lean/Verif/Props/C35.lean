import Verif.Model.BBox
import Verif.Props.C32
import Mathlib.Logic.Relation

/-!
# C35: the cache of bounding boxes
-/

set_option linter.unusedSectionVars false

namespace Gdspy.Spec

variable {K P : Type}

/-- Cell `a` has a reference to cell `b`. -/
def Refers (h : BHeap K P) (a b : Nat) : Prop := ∃ r ∈ (h a).refs, r.target = some b

/-- Cell `a` depends on cell `c`, directly or not. -/
def DependsOn (h : BHeap K P) (a c : Nat) : Prop := Relation.TransGen (Refers h) a c

/-- What `get_bounding_box` should return: the box of the hierarchy of the cell computed afresh, which by C34
is the smallest box around all polygons. None if the hierarchy is cyclic or deeper than `n`. -/
def freshBB [Field K] [LinearOrder K] (ops : PathOps K P) (t : Trig K) (n : Nat) (h : BHeap K P) (c : Nat) :
    Option (Option (Pt K × Pt K)) :=
  (treeOf n h c).map fun x => x.bbox ops t

variable [Field K] [LinearOrder K]

/-- The states reached by histories in which a cell is never changed while a cell that depends on it
has a cached box, and polygons or paths are not removed from a cell that has a cached box itself. When
`flatten` is called, all paths in or below the cell satisfy `q`, and all references to cells with paths `w`. -/
inductive Orderly (ops : PathOps K P) (t : Trig K) (w : RefData K → Prop) (q : P → Prop) : BHeap K P → Prop
  /-- New cells have no cached box (library.py:111-112). -/
  | start (h : BHeap K P) : (∀ c, (h c).valid = false) → Orderly ops t w q h
  | query (n : Nat) (h h' : BHeap K P) (c : Nat) (b : Option (Pt K × Pt K)) : Orderly ops t w q h →
      getBB ops t n h c = some (h', b) → Orderly ops t w q h'
  | add (h : BHeap K P) (c : Nat) (els : List (BElem K P)) : Orderly ops t w q h →
      (∀ a, (h a).valid = true → ¬ DependsOn h a c) →
      ((bAdd c els h).2 = none ∨ (h c).valid = false) → Orderly ops t w q (bAdd c els h).1
  | removePolygons (h : BHeap K P) (c : Nat) (test : Pgon K → Int → Int → Bool) : Orderly ops t w q h →
      (∀ a, (h a).valid = true → ¬ DependsOn h a c) → (h c).valid = false →
      Orderly ops t w q (bRemovePolygons c test h)
  | removePaths (h : BHeap K P) (c : Nat) (test : P → Bool) : Orderly ops t w q h →
      (∀ a, (h a).valid = true → ¬ DependsOn h a c) → (h c).valid = false →
      Orderly ops t w q (bRemovePaths c test h)
  | flatten (n : Nat) (h h' : BHeap K P) (c : Nat) (sl sd st : Option Int) : Orderly ops t w q h →
      (∀ x, treeOf n h c = some x → PathsOk w q x) → bFlatten ops t n c sl sd st h = some h' → Orderly ops t w q h'

end Gdspy.Spec

namespace Gdspy

open Spec

variable {K P : Type} [Field K] [LinearOrder K] [IsStrictOrderedRing K]

/-! ### Trees -/

theorem option_mapM_rel {α β γ : Type} {f : α → Option β} {g : α → Option γ} {R : β → γ → Prop} (l : List α)
    (hfg : ∀ a ∈ l, ∀ b, f a = some b → ∃ c, g a = some c ∧ R b c) (r : List β) (h : l.mapM f = some r) :
    ∃ s, l.mapM g = some s ∧ List.Forall₂ R r s := by
  induction l generalizing r with
  | nil =>
    rw [List.mapM_nil] at h
    cases h
    exact ⟨[], rfl, .nil⟩
  | cons a l ih =>
    rw [List.mapM_cons] at h
    cases hfa : f a with
    | none => rw [hfa] at h; cases h
    | some b =>
      rw [hfa] at h
      cases hl : l.mapM f with
      | none => rw [hl] at h; cases h
      | some r' =>
        rw [hl] at h
        cases h
        obtain ⟨c, hc, hR⟩ := hfg a List.mem_cons_self b hfa
        obtain ⟨s, hs, hF⟩ := ih (fun a' ha' => hfg a' (List.mem_cons_of_mem _ ha')) r' hl
        refine ⟨c :: s, ?_, .cons hR hF⟩
        rw [List.mapM_cons, hc, hs]
        rfl

theorem option_mapM_mono {α β : Type} {f g : α → Option β} (l : List α)
    (hfg : ∀ a ∈ l, ∀ b, f a = some b → g a = some b) (r : List β) (h : l.mapM f = some r) :
    l.mapM g = some r := by
  obtain ⟨s, hs, hF⟩ := option_mapM_rel (R := fun b c => b = c) l
    (fun a ha b hb => ⟨b, hfg a ha b hb, rfl⟩) r h
  have e : r = s := by
    clear hs h
    induction hF with
    | nil => rfl
    | cons h1 _ ih => rw [h1, ih]
  rw [hs, e]

theorem option_mapM_congr {α β : Type} {f g : α → Option β} (l : List α) (hfg : ∀ a ∈ l, f a = g a) :
    l.mapM f = l.mapM g := by
  induction l with
  | nil => rfl
  | cons a l ih =>
    rw [List.mapM_cons, List.mapM_cons, hfg a List.mem_cons_self,
      ih fun a' ha' => hfg a' (List.mem_cons_of_mem _ ha')]

/-- One reference of `treeOf`. -/
def treeRef (f : Nat → Option (HCell K P)) (r : BRef K) : Option (RefData K × Option (HCell K P)) :=
  match r.target with
  | none => some (r.data, none)
  | some d => (f d).map fun x => (r.data, some x)

theorem treeOf_succ (n : Nat) (h : BHeap K P) (c : Nat) : treeOf (n + 1) h c =
    ((h c).refs.mapM (treeRef (treeOf n h))).map
      fun refs => .mk [] (h c).polygons (h c).paths [] (mkRefs refs) := by
  rw [treeOf]
  show Option.bind ((h c).refs.mapM (treeRef (treeOf n h))) _ = _
  cases (h c).refs.mapM (treeRef (treeOf n h)) <;> rfl

theorem treeOf_inv {n : Nat} {h : BHeap K P} {c : Nat} {x : HCell K P} (hx : treeOf n h c = some x) :
    ∃ m refs, n = m + 1 ∧ (h c).refs.mapM (treeRef (treeOf m h)) = some refs ∧
      x = .mk [] (h c).polygons (h c).paths [] (mkRefs refs) := by
  cases n with
  | zero => rw [treeOf] at hx; cases hx
  | succ n =>
    rw [treeOf_succ] at hx
    cases hm : (h c).refs.mapM (treeRef (treeOf n h)) with
    | none => rw [hm] at hx; cases hx
    | some refs =>
      rw [hm] at hx
      cases hx
      exact ⟨n, refs, rfl, hm, rfl⟩

theorem treeRef_mono {f g : Nat → Option (HCell K P)} (hfg : ∀ d x, f d = some x → g d = some x) (r : BRef K)
    (b : RefData K × Option (HCell K P)) (h : treeRef f r = some b) : treeRef g r = some b := by
  unfold treeRef at h ⊢
  cases hr : r.target with
  | none => rw [hr] at h; exact h
  | some d =>
    rw [hr] at h
    simp only at h ⊢
    cases hd : f d with
    | none => rw [hd] at h; cases h
    | some y => rw [hfg d y hd, ← hd]; exact h

theorem treeOf_mono (n : Nat) : ∀ (h : BHeap K P) (c : Nat) (x : HCell K P), treeOf n h c = some x →
    treeOf (n + 1) h c = some x := by
  induction n with
  | zero => intro h c x hx; rw [treeOf] at hx; cases hx
  | succ n ih =>
    intro h c x hx
    obtain ⟨m, refs, hm, h1, h2⟩ := treeOf_inv hx
    cases hm
    rw [treeOf_succ, option_mapM_mono _ (fun r _ b hb => treeRef_mono (fun d x => ih h d x) r b hb) refs h1, h2]
    rfl

theorem treeOf_le {m n : Nat} (hmn : m ≤ n) {h : BHeap K P} {c : Nat} {x : HCell K P}
    (hx : treeOf m h c = some x) : treeOf n h c = some x := by
  induction hmn with
  | refl => exact hx
  | step _ ih => exact treeOf_mono _ _ _ _ ih

theorem treeOf_unique {m n : Nat} {h : BHeap K P} {c : Nat} {x y : HCell K P}
    (hx : treeOf m h c = some x) (hy : treeOf n h c = some y) : x = y := by
  have h1 := treeOf_le (le_max_left m n) hx
  have h2 := treeOf_le (le_max_right m n) hy
  rw [h1] at h2
  exact Option.some.inj h2

/-- The same polygons, paths and references. -/
def SameContent (h h' : BHeap K P) : Prop := ∀ c, (h' c).polygons = (h c).polygons ∧
  (h' c).paths = (h c).paths ∧ (h' c).refs = (h c).refs

theorem treeOf_content {h h' : BHeap K P} (hs : SameContent h h') (n c : Nat) : treeOf n h' c = treeOf n h c := by
  induction n generalizing c with
  | zero => rfl
  | succ n ih =>
    have : treeOf n h' = treeOf n h := funext ih
    rw [treeOf_succ, treeOf_succ, this, (hs c).1, (hs c).2.1, (hs c).2.2]

theorem treeRef_some {f : Nat → Option (HCell K P)} {r : BRef K} :
    (∃ b, treeRef f r = some b) ↔ ∀ d, r.target = some d → ∃ x, f d = some x := by
  unfold treeRef
  cases hr : r.target with
  | none => simp
  | some d => cases hf : f d <;> simp [hf]

theorem option_mapM_some {α β : Type} {f : α → Option β} (l : List α) :
    (∃ r, l.mapM f = some r) ↔ ∀ a ∈ l, ∃ b, f a = some b := by
  constructor
  · rintro ⟨r, h⟩
    induction l generalizing r with
    | nil => simp
    | cons a l ih =>
      rw [List.mapM_cons] at h
      cases hfa : f a with
      | none => rw [hfa] at h; cases h
      | some b =>
        rw [hfa] at h
        cases hl : l.mapM f with
        | none => rw [hl] at h; cases h
        | some r' =>
          intro a' ha'
          rcases List.mem_cons.1 ha' with rfl | ha'
          · exact ⟨b, hfa⟩
          · exact ih r' hl a' ha'
  · intro h
    induction l with
    | nil => exact ⟨[], rfl⟩
    | cons a l ih =>
      obtain ⟨b, hb⟩ := h a List.mem_cons_self
      obtain ⟨r, hr⟩ := ih fun a' ha' => h a' (List.mem_cons_of_mem _ ha')
      refine ⟨b :: r, ?_⟩
      rw [List.mapM_cons, hb, hr]
      rfl

theorem treeOf_some_iff (n : Nat) (h : BHeap K P) (c : Nat) :
    (∃ x, treeOf (n + 1) h c = some x) ↔ ∀ d, Refers h c d → ∃ x, treeOf n h d = some x := by
  rw [treeOf_succ]
  have : (∃ x, ((h c).refs.mapM (treeRef (treeOf n h))).map
      (fun refs => HCell.mk [] (h c).polygons (h c).paths [] (mkRefs refs)) = some x) ↔
      ∃ r, (h c).refs.mapM (treeRef (treeOf n h)) = some r := by
    cases (h c).refs.mapM (treeRef (treeOf n h)) <;> simp
  rw [this, option_mapM_some]
  simp only [treeRef_some]
  constructor
  · rintro h1 d ⟨r, hr, hd⟩
    exact h1 r hr d hd
  · intro h1 r hr d hd
    exact h1 d ⟨r, hr, hd⟩

theorem depsOf_some_iff (n : Nat) (h : BHeap K P) (c : Nat) :
    (∃ l, depsOf n h c = some l) ↔ ∃ x, treeOf n h c = some x := by
  induction n generalizing c with
  | zero => simp [depsOf, treeOf]
  | succ n ih =>
    rw [treeOf_some_iff]
    have : (∃ l, depsOf (n + 1) h c = some l) ↔
        ∃ l, ((h c).refs.filterMap BRef.target).mapM (fun d => (depsOf n h d).map fun l => d :: l) = some l := by
      rw [depsOf]
      cases ((h c).refs.filterMap BRef.target).mapM (fun d => (depsOf n h d).map fun l => d :: l) <;> simp
    rw [this, option_mapM_some]
    have h2 : ∀ d, (∃ b, (depsOf n h d).map (fun l => d :: l) = some b) ↔ ∃ x, treeOf n h d = some x := by
      intro d
      rw [← ih d]
      cases depsOf n h d <;> simp
    simp only [h2, List.mem_filterMap]
    rfl

/-! ### Queries -/

/-- All cached boxes in use are right. -/
def RightCaches (ops : PathOps K P) (t : Trig K) (h : BHeap K P) : Prop :=
  ∀ c, (h c).valid = true → ∃ n x, treeOf n h c = some x ∧ (h c).cache = x.bbox ops t

theorem refLoop_spec (ops : PathOps K P) (t : Trig K) (n : Nat)
    (query : BHeap K P → Nat → Option (BHeap K P × Option (Pt K × Pt K)))
    (hq : ∀ h c x, RightCaches ops t h → treeOf n h c = some x →
      ∃ h', query h c = some (h', x.bbox ops t) ∧ SameContent h h' ∧ RightCaches ops t h')
    (h : BHeap K P) (rs : List (BRef K)) (l : List (RefData K × Option (HCell K P)))
    (hr : RightCaches ops t h) (hl : rs.mapM (treeRef (treeOf n h)) = some l) :
    ∃ h', refLoop ops t query (treeOf n) h rs = some (h', (mkRefs l).boxes ops t) ∧ SameContent h h' ∧
      RightCaches ops t h' := by
  induction rs generalizing h l with
  | nil =>
    rw [List.mapM_nil] at hl
    cases hl
    exact ⟨h, rfl, fun c => ⟨rfl, rfl, rfl⟩, hr⟩
  | cons r rs ih =>
    rw [List.mapM_cons] at hl
    cases h1 : treeRef (treeOf n h) r with
    | none => rw [h1] at hl; cases hl
    | some b =>
      rw [h1] at hl
      cases h2 : rs.mapM (treeRef (treeOf n h)) with
      | none => rw [h2] at hl; cases hl
      | some l' =>
        rw [h2] at hl
        cases hl
        unfold treeRef at h1
        rw [refLoop]
        cases ht : r.target with
        | none =>
          rw [ht] at h1
          cases h1
          exact ih h l' hr h2
        | some d =>
          rw [ht] at h1
          simp only at h1
          cases hd : treeOf n h d with
          | none => rw [hd] at h1; cases h1
          | some x =>
            rw [hd] at h1
            cases h1
            simp only
            by_cases hc : r.data.rotation.all t.cardinal = true
            · obtain ⟨h', e1, e2, e3⟩ := hq h d x hr hd
              have e4 : rs.mapM (treeRef (treeOf n h')) = some l' := by
                rw [show treeOf n h' = treeOf n h from funext (treeOf_content e2 n)]
                exact h2
              obtain ⟨h'', g1, g2, g3⟩ := ih h' l' e3 e4
              refine ⟨h'', ?_, fun c => ⟨(g2 c).1.trans (e2 c).1, (g2 c).2.1.trans (e2 c).2.1,
                (g2 c).2.2.trans (e2 c).2.2⟩, g3⟩
              rw [if_pos hc, e1]
              simp only [Option.map_some, Option.bind_eq_bind, Option.bind_some, g1]
              rw [mkRefs, HRefs.boxes]
              simp only [if_pos hc]
              rfl
            · obtain ⟨h'', g1, g2, g3⟩ := ih h l' hr h2
              refine ⟨h'', ?_, g2, g3⟩
              rw [if_neg hc, hd]
              simp only [Option.map_some, Option.bind_eq_bind, Option.bind_some, g1]
              rw [mkRefs, HRefs.boxes]
              simp only [if_neg hc]

theorem getBB_right (ops : PathOps K P) (t : Trig K) (n : Nat) : ∀ (h : BHeap K P) (c : Nat) (x : HCell K P),
    RightCaches ops t h → treeOf n h c = some x →
    ∃ h', getBB ops t n h c = some (h', x.bbox ops t) ∧ SameContent h h' ∧ RightCaches ops t h' := by
  induction n with
  | zero => intro h c x _ hx; rw [treeOf] at hx; cases hx
  | succ n ih =>
    intro h c x hr hx
    obtain ⟨ds, hds⟩ := (depsOf_some_iff (n + 1) h c).2 ⟨x, hx⟩
    rw [getBB, hds]
    simp only [Option.bind_eq_bind, Option.bind_some]
    by_cases hv : ((h c).valid && ds.all fun d => (h d).valid) = true
    · rw [if_pos hv]
      obtain ⟨m, y, hy, hc⟩ := hr c (by simp at hv; exact hv.1)
      refine ⟨h, ?_, fun c => ⟨rfl, rfl, rfl⟩, hr⟩
      rw [hc, treeOf_unique hx hy]
    · rw [if_neg hv]
      obtain ⟨m, refs, hm, h1, h2⟩ := treeOf_inv hx
      cases hm
      obtain ⟨h', g1, g2, g3⟩ := refLoop_spec ops t n (getBB ops t n) ih h (h c).refs refs hr h1
      have hbox : x.bbox ops t = boxOf (((h c).polygons.flatMap PolySet.polygons
          ++ (h c).paths.flatMap ops.polys).flatten ++ (mkRefs refs).boxes ops t) := by
        rw [h2, HCell.bbox]
      have hs : SameContent h (h'.set c { h' c with valid := true, cache := x.bbox ops t }) := by
        intro d
        unfold BHeap.set
        by_cases hd : d = c
        · subst hd; simpa using g2 d
        · simpa [hd] using g2 d
      refine ⟨_, ?_, hs, ?_⟩
      · rw [g1]
        simp only [Option.bind_some, ← hbox]
      · intro d hdv
        by_cases hd : d = c
        · subst hd
          refine ⟨n + 1, x, (treeOf_content hs _ _).trans hx, ?_⟩
          simp [BHeap.set]
        · have e : (h'.set c { h' c with valid := true, cache := x.bbox ops t }) d = h' d := by
            simp [BHeap.set, hd]
          rw [e] at hdv ⊢
          obtain ⟨k, y, hy, hyc⟩ := g3 d hdv
          refine ⟨k, y, ?_, hyc⟩
          rw [treeOf_content hs, ← treeOf_content g2]
          exact hy

/-- The query returns if and only if the hierarchy ends within the limit of recursion. -/
theorem getBB_returns (ops : PathOps K P) (t : Trig K) (n : Nat) (h : BHeap K P) (c : Nat)
    (hx : treeOf n h c = none) : getBB ops t n h c = none := by
  cases n with
  | zero => rfl
  | succ n =>
    have : depsOf (n + 1) h c = none := by
      cases hd : depsOf (n + 1) h c with
      | none => rfl
      | some l =>
        obtain ⟨x, h'⟩ := (depsOf_some_iff (n + 1) h c).1 ⟨l, hd⟩
        rw [hx] at h'; cases h'
    rw [getBB, this]
    rfl

/-! ### Changes -/

theorem treeOf_set {h : BHeap K P} {c : Nat} (y : BCell K P) (n a : Nat)
    (ha : ¬ Relation.ReflTransGen (Refers h) a c) : treeOf n (h.set c y) a = treeOf n h a := by
  induction n generalizing a with
  | zero => rfl
  | succ n ih =>
    have hac : a ≠ c := by rintro rfl; exact ha .refl
    have e : (h.set c y) a = h a := by simp [BHeap.set, hac]
    rw [treeOf_succ, treeOf_succ, e]
    congr 1
    refine option_mapM_congr _ fun r hr => ?_
    unfold treeRef
    cases hd : r.target with
    | none => rfl
    | some d =>
      simp only
      rw [ih d fun hdc => ha (.head ⟨r, hr, hd⟩ hdc)]

theorem right_set {ops : PathOps K P} {t : Trig K} {h : BHeap K P} (hr : RightCaches ops t h) (c : Nat)
    (hc : ∀ a, (h a).valid = true → ¬ DependsOn h a c) (y : BCell K P) (hy : y.valid = false) :
    RightCaches ops t (h.set c y) := by
  intro a hv
  by_cases hac : a = c
  · subst hac
    simp [BHeap.set, hy] at hv
  · have e : (h.set c y) a = h a := by simp [BHeap.set, hac]
    rw [e] at hv ⊢
    obtain ⟨n, x, hx, hx'⟩ := hr a hv
    refine ⟨n, x, ?_, hx'⟩
    rw [treeOf_set y n a ?_]
    · exact hx
    · intro hac'
      rcases Relation.reflTransGen_iff_eq_or_transGen.1 hac' with h' | h'
      · exact hac h'.symm
      · exact hc a hv h'

theorem bAddLoop_flag (x : BCell K P) (els : List (BElem K P)) : (bAddLoop x els).1.valid = x.valid := by
  induction els generalizing x with
  | nil => rfl
  | cons e l ih => cases e <;> simp [bAddLoop, ih]

theorem bbox_perm {t : Trig K} (ht : ∀ a, t.cardinal a = true → t.cos a = 0 ∨ t.sin a = 0)
    (ops : PathOps K P) {x y : HCell K P} (hp : (x.flatPolys ops t).Perm (y.flatPolys ops t)) :
    x.bbox ops t = y.bbox ops t := by
  cases hb : y.bbox ops t with
  | none =>
    rw [C34_none_iff_empty ops t ht] at hb ⊢
    exact fun p hm => hb p (hp.mem_iff.1 hm)
  | some b =>
    refine C34_unique ops t ht _ b ?_
    have hx := C34_bbox_is_smallest ops t ht y b hb
    have hm : ∀ v, v ∈ (y.flatPolys ops t).flatten ↔ v ∈ (x.flatPolys ops t).flatten :=
      fun v => by
        simp only [List.mem_flatten]
        exact ⟨fun ⟨l, hl, hx⟩ => ⟨l, hp.mem_iff.2 hl, hx⟩, fun ⟨l, hl, hx⟩ => ⟨l, hp.mem_iff.1 hl, hx⟩⟩
    simpa only [IsBBox, hm] using hx

/-- Two resolved references with the same data and, up to order, the same polygons. -/
def SameRef (ops : PathOps K P) (t : Trig K) (a b : RefData K × Option (HCell K P)) : Prop :=
  a.1 = b.1 ∧ (a.2 = none ∧ b.2 = none ∨
    ∃ x y, a.2 = some x ∧ b.2 = some y ∧ (x.flatPolys ops t).Perm (y.flatPolys ops t))

theorem mkRefs_perm (ops : PathOps K P) (t : Trig K) {l l' : List (RefData K × Option (HCell K P))}
    (h : List.Forall₂ (SameRef ops t) l l') :
    ((mkRefs l).flatPolys ops t).Perm ((mkRefs l').flatPolys ops t) := by
  induction h with
  | nil => exact List.Perm.refl _
  | @cons a b l l' hab _ ih =>
    obtain ⟨a1, a2⟩ := a
    obtain ⟨b1, b2⟩ := b
    obtain ⟨h1, h2⟩ := hab
    simp only at h1 h2
    subst h1
    rcases h2 with ⟨rfl, rfl⟩ | ⟨x, y, rfl, rfl, hp⟩
    · simpa only [mkRefs, HRefs.flatPolys] using ih
    · simp only [mkRefs, HRefs.flatPolys]
      exact (transformPolys_perm t _ hp).append ih

theorem treeOf_flatten {t : Trig K} {ops : PathOps K P} {w : RefData K → Prop} {q : P → Prop} (hg : GeomPaths t ops w q)
    (hl : RelabelPaths ops q) {h : BHeap K P} {c m : Nat} {x0 : HCell K P} (hp : PathsOk w q x0)
    (h0 : treeOf m h c = some x0) (sl sd st : Option Int) (n : Nat) : ∀ (a : Nat) (x : HCell K P),
    treeOf n h a = some x → ∃ y, treeOf n (h.set c { h c with
      polygons := (x0.flatten ops t sl sd st).polygons, paths := (x0.flatten ops t sl sd st).paths,
      refs := [] }) a = some y ∧ (x.flatPolys ops t).Perm (y.flatPolys ops t) := by
  induction n with
  | zero => intro a x hx; rw [treeOf] at hx; cases hx
  | succ n ih =>
    intro a x hx
    by_cases hac : a = c
    · subst hac
      have e := treeOf_unique hx h0
      subst e
      refine ⟨_, by rw [treeOf_succ]; simp only [BHeap.set, if_true, List.mapM_nil]; rfl, ?_⟩
      have := C32_flatten_get_polygons hg hl sl sd st x hp
      rw [polys_none, polys_none] at this
      refine this.symm.trans (List.Perm.of_eq ?_)
      rfl
    · obtain ⟨k, refs, hk, h1, h2⟩ := treeOf_inv hx
      cases hk
      obtain ⟨refs', g1, g2⟩ := option_mapM_rel (R := SameRef ops t) (g := treeRef (treeOf n (h.set c { h c with
          polygons := (x0.flatten ops t sl sd st).polygons, paths := (x0.flatten ops t sl sd st).paths,
          refs := [] }))) (h a).refs (by
        intro r _ b hb
        unfold treeRef at hb ⊢
        cases ht : r.target with
        | none => rw [ht] at hb; cases hb; exact ⟨_, rfl, rfl, Or.inl ⟨rfl, rfl⟩⟩
        | some d =>
          rw [ht] at hb
          simp only at hb ⊢
          cases hd : treeOf n h d with
          | none => rw [hd] at hb; cases hb
          | some z =>
            rw [hd] at hb
            cases hb
            obtain ⟨y, hy, hyp⟩ := ih d z hd
            rw [hy]
            exact ⟨_, rfl, rfl, Or.inr ⟨z, y, rfl, rfl, hyp⟩⟩) refs h1
      refine ⟨.mk [] (h a).polygons (h a).paths [] (mkRefs refs'), ?_, ?_⟩
      · rw [treeOf_succ]
        simp only [BHeap.set, if_neg hac] at g1 ⊢
        rw [g1]
        rfl
      · rw [h2]
        simp only [HCell.flatPolys]
        exact (List.Perm.refl _).append (mkRefs_perm ops t g2)

/-- **C35 (flatten).** `flatten` does not touch the cache and need not: it makes no cached box wrong, neither
of the cell itself nor of the cells above it. -/
theorem C35_flatten {t : Trig K} (ht : ∀ a, t.cardinal a = true → t.cos a = 0 ∨ t.sin a = 0)
    {ops : PathOps K P} {w : RefData K → Prop} {q : P → Prop} (hg : GeomPaths t ops w q) (hl : RelabelPaths ops q) {h h' : BHeap K P}
    (hr : RightCaches ops t h) (n c : Nat) (hp : ∀ x, treeOf n h c = some x → PathsOk w q x)
    (sl sd st : Option Int) (hf : bFlatten ops t n c sl sd st h = some h') : RightCaches ops t h' := by
  unfold bFlatten at hf
  cases h0 : treeOf n h c with
  | none => rw [h0] at hf; cases hf
  | some x0 =>
    rw [h0] at hf
    cases hf
    intro a hv
    have e : (h.set c { h c with
        polygons := (x0.flatten ops t sl sd st).polygons, paths := (x0.flatten ops t sl sd st).paths,
        refs := [] } a).valid = (h a).valid ∧ (h.set c { h c with
        polygons := (x0.flatten ops t sl sd st).polygons, paths := (x0.flatten ops t sl sd st).paths,
        refs := [] } a).cache = (h a).cache := by
      unfold BHeap.set
      by_cases hac : a = c
      · subst hac; simp
      · simp [hac]
    rw [e.1] at hv
    rw [e.2]
    obtain ⟨k, x, hx, hxc⟩ := hr a hv
    obtain ⟨y, hy, hyp⟩ := treeOf_flatten hg hl (hp x0 h0) h0 sl sd st k a x hx
    exact ⟨k, y, hy, by rw [hxc]; exact bbox_perm ht ops hyp⟩

theorem orderly_right {t : Trig K} (ht : ∀ a, t.cardinal a = true → t.cos a = 0 ∨ t.sin a = 0)
    {ops : PathOps K P} {w : RefData K → Prop} {q : P → Prop} (hg : GeomPaths t ops w q) (hl : RelabelPaths ops q) {h : BHeap K P}
    (ho : Orderly ops t w q h) : RightCaches ops t h := by
  induction ho with
  | start h hv => intro c hc; rw [hv c] at hc; cases hc
  | query n h h' c b _ hq ih =>
    cases hx : treeOf n h c with
    | none => rw [getBB_returns ops t n h c hx] at hq; cases hq
    | some x =>
      obtain ⟨h'', g1, _, g3⟩ := getBB_right ops t n h c x ih hx
      rw [g1] at hq
      cases hq
      exact g3
  | add h c els _ hd hv ih =>
    unfold bAdd at hv ⊢
    cases hA : bAddLoop (h c) els with
    | mk x e =>
      cases e with
      | none => exact right_set ih c hd _ rfl
      | some e =>
        rw [hA] at hv
        have hv' : (h c).valid = false := by simpa using hv
        refine right_set ih c hd _ ?_
        have := bAddLoop_flag (h c) els
        rw [hA] at this
        rw [this, hv']
  | removePolygons h c test _ hd hv ih => exact right_set ih c hd _ hv
  | removePaths h c test _ hd hv ih => exact right_set ih c hd _ hv
  | flatten n h h' c sl sd st _ hp hf ih => exact C35_flatten ht hg hl ih n c hp sl sd st hf

/-- **C35 (partial: orderly histories).** If a cell is only changed while no cell that depends on it has
been queried, `get_bounding_box` returns the box computed afresh. It returns nothing (RecursionError) exactly when
a fresh computation would not either. Without that order the claim is false, see the theorems below. -/
theorem C35_fresh_partial {t : Trig K} (ht : ∀ a, t.cardinal a = true → t.cos a = 0 ∨ t.sin a = 0)
    {ops : PathOps K P} {w : RefData K → Prop} {q : P → Prop} (hg : GeomPaths t ops w q) (hl : RelabelPaths ops q) {h : BHeap K P}
    (ho : Orderly ops t w q h) (n c : Nat) : (getBB ops t n h c).map Prod.snd = freshBB ops t n h c := by
  unfold freshBB
  cases hx : treeOf n h c with
  | none => rw [getBB_returns ops t n h c hx]; rfl
  | some x =>
    obtain ⟨h', g1, _⟩ := getBB_right ops t n h c x (orderly_right ht hg hl ho) hx
    rw [g1]
    rfl

/-- A query leaves the contents of all cells as they are. -/
theorem C35_query_pure {t : Trig K} (ht : ∀ a, t.cardinal a = true → t.cos a = 0 ∨ t.sin a = 0)
    {ops : PathOps K P} {w : RefData K → Prop} {q : P → Prop} (hg : GeomPaths t ops w q) (hl : RelabelPaths ops q) {h h' : BHeap K P}
    (ho : Orderly ops t w q h) (n c : Nat) (b : Option (Pt K × Pt K)) (hb : getBB ops t n h c = some (h', b)) :
    ∀ d, (h' d).polygons = (h d).polygons ∧ (h' d).paths = (h d).paths ∧ (h' d).refs = (h d).refs := by
  cases hx : treeOf n h c with
  | none => rw [getBB_returns ops t n h c hx] at hb; cases hb
  | some x =>
    obtain ⟨h'', g1, g2, _⟩ := getBB_right ops t n h c x (orderly_right ht hg hl ho) hx
    rw [g1] at hb
    cases hb
    exact g2

/-! ### Stale caches -/

namespace C35

abbrev Heap := BHeap ℚ IdealPath

abbrev O := idealOps ratTrig

/-- A square of side `s` at the origin. -/
def sq (s : ℚ) : PolySet ℚ := ⟨[[(0, 0), (s, 0), (s, s), (0, s)]], [0], [0]⟩

/-- A reference to a cell, without transformation, with an origin. -/
def ref (d : Nat) (x y : ℚ) : BRef ℚ := ⟨⟨some (x, y), none, none, none, none⟩, some d⟩

/-- Cell 0 references cell 1. -/
def two : Heap := fun c => match c with
  | 0 => { refs := [ref 1 0 0] }
  | 1 => { polygons := [sq 1] }
  | _ => {}

/-- Cell 0 references cell 2 and then cell 1, which references cell 2 too. -/
def diamond : Heap := fun c => match c with
  | 0 => { refs := [ref 2 0 0, ref 1 0 0] }
  | 1 => { refs := [ref 2 10 10] }
  | 2 => { polygons := [sq 1] }
  | _ => {}

end C35

open C35 in
/-- An orderly history: query the cell below, extend it, query it again, query the cell above. -/
example : ∃ h1 b1 h2 b2 h3, getBB O ratTrig 9 two 1 = some (h1, b1) ∧
    getBB O ratTrig 9 (bAdd 1 [.polys (sq 5)] h1).1 1 = some (h2, b2) ∧
    getBB O ratTrig 9 h2 0 = some (h3, some ((0, 0), (5, 5))) ∧ Orderly O ratTrig (fun _ => True) (fun _ => True) h2 := by
  have h0 : Orderly O ratTrig (fun _ => True) (fun _ => True) two := .start _ (by intro c; unfold two; split <;> rfl)
  have hsome : ∀ (o : Option (Heap × Option (Pt ℚ × Pt ℚ))), o.isSome = true → ∃ h b, o = some (h, b) := by
    intro o ho
    obtain ⟨x, hx⟩ := Option.isSome_iff_exists.1 ho
    exact ⟨x.1, x.2, hx⟩
  obtain ⟨h1, b1, e1⟩ := hsome (getBB O ratTrig 9 two 1) (by decide +kernel)
  have hO1 := Orderly.query (w := fun _ => True) (q := fun _ => True) 9 two h1 1 b1 h0 e1
  have hh1 : h1 = ((getBB O ratTrig 9 two 1).getD (two, none)).1 := by rw [e1]; rfl
  have hadd : Orderly O ratTrig (fun _ => True) (fun _ => True) (bAdd 1 [.polys (sq 5)] h1).1 := by
    refine .add h1 1 _ hO1 ?_ (Or.inl rfl)
    intro a ha hd
    have hv : ∀ a, (h1 a).valid = true → a = 1 := by
      intro a
      have : (h1 a).valid = if a = 1 then true else (two a).valid := by
        rw [hh1]
        show (((getBB O ratTrig 9 two 1).getD (two, none)).1 a).valid = _
        by_cases h : a = 1
        · subst h; decide +kernel
        · have hset : ((getBB O ratTrig 9 two 1).getD (two, none)).1 =
              two.set 1 { two 1 with valid := true, cache := some ((0, 0), (1, 1)) } := by
            rfl
          rw [hset]
          simp [BHeap.set, h]
      rw [this]
      intro h
      by_contra hne
      rw [if_neg hne] at h
      unfold two at h
      split at h <;> cases h
    have := hv a ha
    subst this
    have hrefs : (h1 1).refs = [] := by rw [hh1]; rfl
    obtain ⟨b, ⟨r, hr, _⟩, _⟩ := Relation.TransGen.head'_iff.1 hd
    rw [hrefs] at hr
    cases hr
  obtain ⟨h2, b2, e2⟩ := hsome (getBB O ratTrig 9 (bAdd 1 [.polys (sq 5)] h1).1 1) (by rw [hh1]; decide +kernel)
  have hO2 := Orderly.query (w := fun _ => True) (q := fun _ => True) 9 _ h2 1 b2 hadd e2
  have hh2 : h2 = ((getBB O ratTrig 9 (bAdd 1 [.polys (sq 5)] h1).1 1).getD (two, none)).1 := by rw [e2]; rfl
  have hb3 : (getBB O ratTrig 9 h2 0).map Prod.snd = some (some ((0, 0), (5, 5))) := by
    rw [hh2, hh1]; decide +kernel
  cases e3 : getBB O ratTrig 9 h2 0 with
  | none => rw [e3] at hb3; cases hb3
  | some x =>
    rw [e3] at hb3
    have : x.2 = some ((0, 0), (5, 5)) := by simpa using hb3
    exact ⟨h1, b1, h2, b2, x.1, e1, e2, by rw [e3, ← this], hO2⟩

open C35 in
/-- **C35 is violated.** The cell above is queried, the cell below extended and queried: the cell above
then returns the old box, (0,0)-(1,1) instead of (0,0)-(5,5). -/
theorem C35_stale_after_child_query :
    (do let x ← getBB O ratTrig 9 two 0
        let y ← getBB O ratTrig 9 (bAdd 1 [.polys (sq 5)] x.1).1 1
        let z ← getBB O ratTrig 9 y.1 0
        let f ← freshBB O ratTrig 9 y.1 0
        some (z.2, f)) = some (some ((0, 0), (1, 1)), some ((0, 0), (5, 5))) := by
  decide +kernel

open C35 in
/-- **C35 is violated** even if only one cell is ever queried: cell 0 references cell 2 directly and,
later in its list, through cell 1. After cell 2 is extended, the query of cell 0 first renews the box of cell 2, and
then takes the cached box of cell 1 for valid: (11, 11) instead of (15, 15). -/
theorem C35_stale_diamond :
    (do let x ← getBB O ratTrig 9 diamond 0
        let h := (bAdd 2 [.polys (sq 5)] x.1).1
        let z ← getBB O ratTrig 9 h 0
        let f ← freshBB O ratTrig 9 h 0
        some (z.2, f)) = some (some ((0, 0), (11, 11)), some ((0, 0), (15, 15))) := by
  decide +kernel

open C35 in
/-- **C35 is violated** by removal: the box of a cell stays after its polygons are removed. -/
theorem C35_stale_remove :
    (do let x ← getBB O ratTrig 9 two 1
        let h := bRemovePolygons 1 (fun _ _ _ => true) x.1
        let z ← getBB O ratTrig 9 h 1
        let f ← freshBB O ratTrig 9 h 1
        some (z.2, f)) = some (some ((0, 0), (1, 1)), none) := by
  decide +kernel

open C35 in
/-- **C35 is violated** when a cell is flattened after a cell below was extended: `flatten` removes the
references that would have told that the box is out of date. -/
theorem C35_stale_flatten :
    (do let x ← getBB O ratTrig 9 two 0
        let h ← bFlatten O ratTrig 9 0 none none none (bAdd 1 [.polys (sq 5)] x.1).1
        let z ← getBB O ratTrig 9 h 0
        let f ← freshBB O ratTrig 9 h 0
        some (z.2, f)) = some (some ((0, 0), (1, 1)), some ((0, 0), (5, 5))) := by
  decide +kernel

open C35 in
/-- **C35 is violated** by an `add` that raises: the elements before the offending one are added, the box
stays. -/
theorem C35_stale_failed_add :
    (∀ h : Heap, (bAdd 1 [.polys (sq 5), .other] h).2 = some .valueError) ∧
    (do let x ← getBB O ratTrig 9 two 1
        let h := (bAdd 1 [.polys (sq 5), .other] x.1).1
        let z ← getBB O ratTrig 9 h 1
        let f ← freshBB O ratTrig 9 h 1
        some (z.2, f)) = some (some ((0, 0), (1, 1)), some ((0, 0), (5, 5))) :=
  ⟨fun _ => rfl, by decide +kernel⟩

end Gdspy
