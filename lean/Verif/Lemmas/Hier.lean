import Verif.Spec.Hier
import Mathlib.Tactic.Ring
import Mathlib.Tactic.Linarith
import Mathlib.Data.List.Perm.Basic
import Mathlib.Data.List.Nodup
import Mathlib.Algebra.Order.Field.Rat

/-!
Lemmas about cell hierarchies.
-/

set_option linter.unusedSectionVars false

namespace Gdspy

open Spec

variable {K P : Type}

/-! ## Affine maps -/

section Affine

variable [Field K]

theorem Aff_app_comp (A B : Aff K) (p : Pt K) : (A.comp B).app p = A.app (B.app p) := by
  simp only [Aff.app, Aff.comp, Prod.mk.injEq]
  constructor <;> ring

theorem Aff_app_opt {α : Type} (o : Option α) (f : α → Aff K) (p : Pt K) :
    (Aff.opt o f).app p = onSome o (fun a q => (f a).app q) p := by
  cases o with
  | none => simp [Aff.opt, Aff.id, Aff.app, onSome]
  | some a => rfl

theorem onSome_congr {α β : Type} {o : Option α} {f g : α → β → β} (b : β) (h : ∀ a, f a b = g a b) :
    onSome o f b = onSome o g b := by
  cases o with
  | none => rfl
  | some a => exact h a

theorem app_shift (v p : Pt K) : (Aff.shift v).app p = addPt p v := by
  simp [Aff.shift, Aff.app, addPt]

theorem app_rotate (c s : K) (p : Pt K) : (Aff.rotate c s).app p = rotPt c s p := by
  simp only [Aff.rotate, Aff.app, rotPt, Prod.mk.injEq]
  constructor <;> ring

theorem app_scale (m : K) (p : Pt K) : (Aff.scale m).app p = scalePt m p := by
  simp only [Aff.scale, Aff.app, scalePt, Prod.mk.injEq]
  constructor <;> ring

theorem app_mirror (r : RefData K) (p : Pt K) :
    (Aff.mirror r).app p = if r.xrefl = some true then xreflPt p else p := by
  unfold Aff.mirror
  split
  · simp [Aff.reflect, Aff.app, xreflPt]
  · simp [Aff.id, Aff.app]

theorem app_place (t : Trig K) (r : RefData K) (p : Pt K) :
    (Aff.place t r).app p = onSome r.origin (fun o q => addPt q o)
      (onSome r.rotation (fun a => rotPt (t.cos a) (t.sin a)) p) := by
  unfold Aff.place
  rw [Aff_app_comp, Aff_app_opt, Aff_app_opt]
  rw [onSome_congr (o := r.rotation) (g := fun a => rotPt (t.cos a) (t.sin a)) p
    (fun a => app_rotate _ _ _)]
  exact onSome_congr _ (fun a => app_shift _ _)

/-- Scaling and reflecting commute. -/
theorem scale_mirror (r : RefData K) (m : Option K) (p : Pt K) :
    onSome m scalePt (if r.xrefl = some true then xreflPt p else p)
      = if r.xrefl = some true then xreflPt (onSome m scalePt p) else onSome m scalePt p := by
  split
  · cases m with
    | none => rfl
    | some m => simp only [onSome, scalePt, xreflPt, Prod.mk.injEq]; constructor <;> ring
  · rfl

theorem refPt_eq (t : Trig K) (r : RefData K) (p : Pt K) :
    refPt t r p = (((Aff.place t r).comp (Aff.mirror r)).comp (Aff.opt r.magnification .scale)).app p := by
  rw [Aff_app_comp, Aff_app_comp, app_place, app_mirror, Aff_app_opt]
  rw [onSome_congr (o := r.magnification) (g := scalePt) p (fun a => app_scale _ _), ← scale_mirror]
  rfl

theorem arrPt_eq (t : Trig K) (r : RefData K) (spc p : Pt K) :
    arrPt t r spc p = (((Aff.place t r).comp (Aff.mirror r)).comp
      ((Aff.shift spc).comp (Aff.opt r.magnification .scale))).app p := by
  rw [Aff_app_comp, Aff_app_comp, app_place, app_mirror, Aff_app_comp, Aff_app_opt, app_shift]
  rw [onSome_congr (o := r.magnification) (g := scalePt) p (fun a => app_scale _ _)]
  unfold arrPt
  cases r.magnification <;> rfl

/-- `_transform_polygons` applies every placement to every polygon. -/
theorem transformPolys_eq (t : Trig K) (r : RefData K) (l : List (Pgon K)) :
    transformPolys t r l = (placements t r).flatMap fun A => l.map fun p => p.map A.app := by
  unfold transformPolys placements
  cases r.array with
  | none =>
    simp only [List.flatMap_cons, List.flatMap_nil, List.append_nil]
    have : refPt t r = (((Aff.place t r).comp (Aff.mirror r)).comp (Aff.opt r.magnification .scale)).app :=
      funext (refPt_eq t r)
    rw [this]
  | some q =>
    obtain ⟨cols, rows, s⟩ := q
    have : ∀ spc, arrPt t r spc = (((Aff.place t r).comp (Aff.mirror r)).comp
      ((Aff.shift spc).comp (Aff.opt r.magnification .scale))).app := fun spc => funext (arrPt_eq t r spc)
    simp only [this, lattice, List.flatMap_assoc, List.flatMap_map]

theorem transformPolys_nil (t : Trig K) (r : RefData K) : transformPolys t r [] = [] := by
  rw [transformPolys_eq]
  simp

theorem transformDictVal_eq [DecidableEq K] (t : Trig K) (r : RefData K) (h : NoZeroMag r)
    (l : List (Pgon K)) : transformDictVal t r l = transformPolys t r l := by
  unfold transformDictVal transformPolys
  cases ha : r.array with
  | none => rfl
  | some q =>
    obtain ⟨cols, rows, s⟩ := q
    have hm : r.magnification ≠ some 0 := by
      rcases h with h | h
      · rw [ha] at h; simp at h
      · exact h
    have : arrPtDict t r = arrPt t r := by
      funext spc p
      unfold arrPtDict
      rw [if_neg hm]
    simp only [this]

end Affine

/-! ## Dictionaries -/

section Dict

variable {κ α : Type} [DecidableEq κ] [BEq κ] [LawfulBEq κ]

theorem lookup_cons_ite {β : Type} (d : List (κ × β)) (j k : κ) (v : β) :
    ((k, v) :: d).lookup j = if j = k then some v else d.lookup j := by
  rw [List.lookup_cons]
  by_cases h : j = k
  · rw [if_pos h, beq_iff_eq.2 h]
  · rw [if_neg h, beq_eq_false_iff_ne.2 h]

theorem dictExtend_getD (k j : κ) (v : List α) (d : List (κ × List α)) :
    ((dictExtend k v d).lookup j).getD [] = (d.lookup j).getD [] ++ if j = k then v else [] := by
  induction d with
  | nil =>
    rw [dictExtend, lookup_cons_ite]
    split <;> simp
  | cons p d ih =>
    obtain ⟨k', v'⟩ := p
    unfold dictExtend
    split
    · rename_i h
      rw [lookup_cons_ite, lookup_cons_ite, h]
      by_cases hj : j = k
      · simp [hj]
      · simp [hj]
    · rename_i h
      rw [lookup_cons_ite, lookup_cons_ite]
      by_cases hj : j = k'
      · simp [hj, h]
      · simp only [hj, if_false]
        exact ih

theorem dictExtend_keys (k : κ) (v : List α) (d : List (κ × List α)) :
    (dictExtend k v d).map Prod.fst
      = if k ∈ d.map Prod.fst then d.map Prod.fst else d.map Prod.fst ++ [k] := by
  induction d with
  | nil => simp [dictExtend]
  | cons p d ih =>
    obtain ⟨k', v'⟩ := p
    unfold dictExtend
    split
    · rename_i h; simp [h]
    · rename_i h
      rw [List.map_cons, ih]
      simp only [List.map_cons, List.mem_cons]
      by_cases hk : k ∈ d.map Prod.fst
      · rw [if_pos hk, if_pos (Or.inr hk)]
      · rw [if_neg hk, if_neg (by rintro (he | he); exacts [h he.symm, hk he])]
        rfl

theorem dictExtend_nodup {k : κ} {v : List α} {d : List (κ × List α)} (h : (d.map Prod.fst).Nodup) :
    ((dictExtend k v d).map Prod.fst).Nodup := by
  rw [dictExtend_keys]
  split
  · exact h
  · rename_i hk
    rw [List.nodup_append]
    refine ⟨h, List.nodup_singleton k, ?_⟩
    intro a ha b hb
    rw [List.mem_singleton] at hb
    subst hb
    rintro rfl
    exact hk ha

theorem dictExtend_perm (k : κ) (v : List α) (d : List (κ × List α)) :
    ((dictExtend k v d).flatMap Prod.snd).Perm (d.flatMap Prod.snd ++ v) := by
  induction d with
  | nil => simp [dictExtend]
  | cons p d ih =>
    obtain ⟨k', v'⟩ := p
    unfold dictExtend
    split
    · simp only [List.flatMap_cons, List.append_assoc]
      exact List.Perm.append_left _ List.perm_append_comm
    · simp only [List.flatMap_cons, List.append_assoc]
      exact List.Perm.append_left _ ih

/-- The entries of a list of pairs with a given key. -/
def sel {β : Type} (j : κ) (l : List (κ × β)) : List β := (l.filter fun q => q.1 = j).map Prod.snd

theorem sel_append {β : Type} (j : κ) (l m : List (κ × β)) : sel j (l ++ m) = sel j l ++ sel j m := by
  simp [sel]

theorem sel_cons {β : Type} (j k : κ) (v : β) (l : List (κ × β)) :
    sel j ((k, v) :: l) = (if j = k then [v] else []) ++ sel j l := by
  unfold sel
  rw [List.filter_cons]
  by_cases h : j = k
  · simp [h]
  · have : ¬ k = j := fun e => h e.symm
    simp [h, this]

theorem sel_flatMap {β γ : Type} (j : κ) (f : γ → List (κ × β)) (l : List γ) :
    sel j (l.flatMap f) = l.flatMap fun x => sel j (f x) := by
  induction l with
  | nil => rfl
  | cons x l ih => rw [List.flatMap_cons, List.flatMap_cons, sel_append, ih]

theorem sel_map_key {β : Type} (j k : κ) (l : List β) :
    sel j (l.map fun x => (k, x)) = if j = k then l else [] := by
  induction l with
  | nil => simp [sel]
  | cons x l ih =>
    rw [List.map_cons, sel_cons, ih]
    by_cases h : j = k <;> simp [h]

theorem sel_map_snd {β γ : Type} (j : κ) (f : β → γ) (l : List (κ × β)) :
    sel j (l.map fun q => (q.1, f q.2)) = (sel j l).map f := by
  induction l with
  | nil => rfl
  | cons q l ih =>
    obtain ⟨k, v⟩ := q
    rw [List.map_cons, sel_cons, sel_cons, ih]
    by_cases h : j = k <;> simp [h]

theorem foldl_extend_getD (l : List (κ × List α)) : ∀ (d : List (κ × List α)) (j : κ),
    ((l.foldl (fun d p => dictExtend p.1 p.2 d) d).lookup j).getD []
      = (d.lookup j).getD [] ++ (sel j l).flatten := by
  induction l with
  | nil => intro d j; simp [sel]
  | cons p l ih =>
    intro d j
    obtain ⟨k, v⟩ := p
    rw [List.foldl_cons, ih, dictExtend_getD, sel_cons, List.append_assoc]
    by_cases h : j = k <;> simp [h]

theorem foldl_extend_nodup (l : List (κ × List α)) : ∀ (d : List (κ × List α)),
    (d.map Prod.fst).Nodup → ((l.foldl (fun d p => dictExtend p.1 p.2 d) d).map Prod.fst).Nodup := by
  induction l with
  | nil => intro d h; exact h
  | cons p l ih => intro d h; exact ih _ (dictExtend_nodup h)

theorem foldl_extend_perm (l : List (κ × List α)) : ∀ (d : List (κ × List α)),
    ((l.foldl (fun d p => dictExtend p.1 p.2 d) d).flatMap Prod.snd).Perm
      (d.flatMap Prod.snd ++ l.flatMap Prod.snd) := by
  induction l with
  | nil => intro d; simp
  | cons p l ih =>
    intro d
    rw [List.foldl_cons, List.flatMap_cons]
    refine (ih _).trans ?_
    rw [← List.append_assoc]
    exact List.Perm.append_right _ (dictExtend_perm _ _ _)

/-- In a dictionary, the entries with a key are the value of the key. -/
theorem sel_flatten_of_nodup {d : List (κ × List α)} (h : (d.map Prod.fst).Nodup) (j : κ) :
    (sel j d).flatten = (d.lookup j).getD [] := by
  induction d with
  | nil => simp [sel]
  | cons p d ih =>
    obtain ⟨k, v⟩ := p
    rw [List.map_cons, List.nodup_cons] at h
    rw [sel_cons, lookup_cons_ite]
    by_cases hj : j = k
    · have : sel j d = [] := by
        unfold sel
        rw [List.map_eq_nil_iff, List.filter_eq_nil_iff]
        intro q hq
        simp only [decide_eq_true_eq]
        intro he
        exact h.1 (List.mem_map.2 ⟨q, hq, by rw [he, hj]⟩)
      simp [hj ▸ this, hj]
    · simp [hj, ih h.2]

theorem lookup_map_snd {β γ : Type} (f : β → γ) (d : List (κ × β)) (j : κ) :
    (d.map fun p => (p.1, f p.2)).lookup j = (d.lookup j).map f := by
  induction d with
  | nil => rfl
  | cons p d ih =>
    obtain ⟨k, v⟩ := p
    rw [List.map_cons, lookup_cons_ite, lookup_cons_ite, ih]
    split <;> rfl

end Dict

/-! ## Conditions -/

mutual
theorem allCell_mono {p p' : PolySet K → Prop} {r r' : RefData K → Prop} (hp : ∀ x, p x → p' x)
    (hr : ∀ x, r x → r' x) : (c : HCell K P) → AllCell p r c → AllCell p' r' c
  | .mk _ _ _ _ refs, h => by
    rw [AllCell] at h ⊢
    exact ⟨fun ps hps => hp ps (h.1 ps hps), allRefs_mono hp hr refs h.2⟩

theorem allRefs_mono {p p' : PolySet K → Prop} {r r' : RefData K → Prop} (hp : ∀ x, p x → p' x)
    (hr : ∀ x, r x → r' x) : (c : HRefs K P) → AllRefs p r c → AllRefs p' r' c
  | .nil, _ => by rw [AllRefs]; trivial
  | .cell d c rest, h => by
    rw [AllRefs] at h ⊢
    exact ⟨hr d h.1, allCell_mono hp hr c h.2.1, allRefs_mono hp hr rest h.2.2⟩
  | .name d _ rest, h => by
    rw [AllRefs] at h ⊢
    exact ⟨hr d h.1, allRefs_mono hp hr rest h.2⟩
end

/-! ## Polygons of paths and sets -/

theorem pathDict_nodup (ops : PathOps K P) (p : P) : ((ops.dict p).map Prod.fst).Nodup :=
  foldl_extend_nodup _ _ (by simp)

theorem pathDict_getD (ops : PathOps K P) (p : P) (j : Int × Int) :
    ((ops.dict p).lookup j).getD [] = (sel j (ops.elems p)).flatten := by
  unfold PathOps.dict
  rw [foldl_extend_getD]
  simp

theorem pathPolys_perm (ops : PathOps K P) (p : P) :
    (ops.polys p).Perm ((ops.elems p).flatMap Prod.snd) := by
  have := foldl_extend_perm (ops.elems p) []
  simpa [PathOps.polys, PathOps.dict] using this

/-- The polygons of a set with their specification, by index. -/
theorem tagged_eq {ps : PolySet K} (h : Aligned ps) :
    ps.tagged.map (fun q => (SpecKey.ld q.1.1 q.1.2, q.2))
      = (List.range ps.polygons.length).map fun i =>
        (SpecKey.ld (ps.layers.getD i 0) (ps.datatypes.getD i 0), ps.polygons.getD i []) := by
  obtain ⟨h1, h2⟩ := h
  unfold PolySet.tagged
  apply List.ext_getElem
  · simp [h1, h2]
  · intro i hi hi'
    simp only [List.length_map, List.length_range] at hi'
    simp [List.getD_eq_getElem?_getD, h1, h2, hi']

theorem indexed_snd (ps : PolySet K) :
    ((List.range ps.polygons.length).map fun i =>
      (SpecKey.ld (ps.layers.getD i 0) (ps.datatypes.getD i 0), ps.polygons.getD i [])).map Prod.snd
      = ps.polygons := by
  apply List.ext_getElem
  · simp
  · intro i hi hi'
    simp [List.getD_eq_getElem?_getD, hi']

end Gdspy
