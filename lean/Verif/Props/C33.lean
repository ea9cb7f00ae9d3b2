import Verif.Props.C30
import Mathlib.Algebra.BigOperators.Group.List.Basic
import Mathlib.Algebra.BigOperators.Ring.List

/-!
# C33: area of a hierarchy
-/

set_option linter.unusedSectionVars false

namespace Gdspy

open Spec

variable {K P : Type} [Field K] [LinearOrder K] [IsStrictOrderedRing K]

/-! ### Area under affine maps -/

/-- Determinant of the linear part. -/
def Aff.det (A : Aff K) : K := A.a * A.d - A.b * A.c

theorem det_comp (A B : Aff K) : Aff.det (A.comp B) = Aff.det A * Aff.det B := by
  simp only [Aff.det, Aff.comp]
  ring

theorem fan_app (A : Aff K) (p0 : Pt K) : ∀ l : List (Pt K),
    fan (A.app p0) (l.map A.app) = Aff.det A * fan p0 l
  | [] => by simp [fan]
  | [_] => by simp [fan]
  | a :: b :: l => by
    have ih := fan_app A p0 (b :: l)
    rw [List.map_cons] at ih
    rw [List.map_cons, List.map_cons, fan, fan, ih]
    simp only [Aff.app, Aff.det]
    ring

theorem polyArea_app (A : Aff K) (p : Pgon K) : polyArea (p.map A.app) = |Aff.det A| * polyArea p := by
  cases p with
  | nil => simp [polyArea]
  | cons p0 l =>
    rw [List.map_cons]
    simp only [polyArea]
    rw [fan_app, abs_mul]
    ring

theorem det_opt {α : Type} (o : Option α) (f : α → Aff K) :
    Aff.det (Aff.opt o f) = (o.map fun a => Aff.det (f a)).getD 1 := by
  cases o with
  | none => simp [Aff.opt, Aff.det, Aff.id]
  | some a => rfl

/-- The factor of the magnification. -/
def magSq (r : RefData K) : K := (r.magnification.map fun m => m ^ 2).getD 1

theorem magSq_nonneg (r : RefData K) : 0 ≤ magSq r := by
  unfold magSq
  cases r.magnification with
  | none => simp
  | some m => exact sq_nonneg m

theorem det_place {t : Trig K} (ht : ∀ a, t.cos a ^ 2 + t.sin a ^ 2 = 1) (r : RefData K) :
    Aff.det (Aff.place t r) = 1 := by
  unfold Aff.place
  rw [det_comp, det_opt, det_opt]
  have h1 : (r.origin.map fun v => Aff.det (Aff.shift v)).getD 1 = 1 := by
    cases r.origin <;> simp [Aff.det, Aff.shift]
  have h2 : (r.rotation.map fun a => Aff.det (Aff.rotate (t.cos a) (t.sin a))).getD 1 = 1 := by
    cases r.rotation with
    | none => rfl
    | some a =>
      simp only [Option.map_some, Option.getD_some, Aff.det, Aff.rotate]
      rw [← ht a]
      ring
  rw [h1, h2, one_mul]

theorem absdet_mirror (r : RefData K) : |Aff.det (Aff.mirror r)| = 1 := by
  unfold Aff.mirror
  split <;> simp [Aff.det, Aff.reflect, Aff.id]

theorem det_mag (r : RefData K) : Aff.det (Aff.opt r.magnification .scale) = magSq r := by
  rw [det_opt]
  unfold magSq
  cases r.magnification with
  | none => rfl
  | some m =>
    simp only [Option.map_some, Option.getD_some, Aff.det, Aff.scale]
    ring

/-- Every placement of a reference multiplies areas by the square of the magnification. -/
theorem absdet_placement {t : Trig K} (ht : ∀ a, t.cos a ^ 2 + t.sin a ^ 2 = 1) (r : RefData K) :
    ∀ A ∈ placements t r, |Aff.det A| = magSq r := by
  intro A hA
  unfold placements at hA
  cases ha : r.array with
  | none =>
    rw [ha] at hA
    simp only [List.mem_singleton] at hA
    subst hA
    rw [det_comp, det_comp, det_place ht, det_mag, one_mul, abs_mul, absdet_mirror, one_mul,
      abs_of_nonneg (magSq_nonneg r)]
  | some q =>
    obtain ⟨cols, rows, s⟩ := q
    rw [ha] at hA
    simp only [List.mem_flatMap, List.mem_map] at hA
    obtain ⟨i, -, j, -, rfl⟩ := hA
    have : Aff.det (Aff.shift (s.1 * (i : K), s.2 * (j : K))) = 1 := by simp [Aff.det, Aff.shift]
    rw [det_comp, det_comp, det_comp, det_place ht, det_mag, this, one_mul, one_mul, abs_mul,
      absdet_mirror, one_mul, abs_of_nonneg (magSq_nonneg r)]

theorem placements_length (t : Trig K) (r : RefData K) :
    ((placements t r).length : K) * magSq r = refFactor r := by
  unfold placements refFactor magSq
  cases r.array with
  | none => cases r.magnification <;> simp
  | some q =>
    obtain ⟨cols, rows, s⟩ := q
    have : ((List.range cols).flatMap fun (i : Nat) => (List.range rows).map fun (j : Nat) =>
      ((Aff.place t r).comp (Aff.mirror r)).comp
        ((Aff.shift (s.1 * (i : K), s.2 * (j : K))).comp (Aff.opt r.magnification .scale))).length
        = cols * rows := by
      simp [List.length_flatMap]
    simp only
    rw [this]
    push_cast
    cases r.magnification <;> simp

/-- Sum of the areas of a list of polygons. -/
def areas (l : List (Pgon K)) : K := (l.map polyArea).sum

theorem areas_append (l m : List (Pgon K)) : areas (l ++ m) = areas l + areas m := by
  simp [areas]

theorem areas_perm {l m : List (Pgon K)} (h : l.Perm m) : areas l = areas m :=
  (h.map _).sum_eq

theorem areas_app (A : Aff K) (l : List (Pgon K)) :
    areas (l.map fun p => p.map A.app) = |Aff.det A| * areas l := by
  unfold areas
  induction l with
  | nil => simp
  | cons p l ih => simp only [List.map_cons, List.sum_cons, ih, polyArea_app]; ring

theorem areas_transform {t : Trig K} (ht : ∀ a, t.cos a ^ 2 + t.sin a ^ 2 = 1) (r : RefData K)
    (l : List (Pgon K)) : areas (transformPolys t r l) = areas l * refFactor r := by
  rw [← placements_length t r, transformPolys_eq]
  have h := absdet_placement ht r
  generalize placements t r = As at h
  induction As with
  | nil => simp [areas]
  | cons A As ih =>
    rw [List.flatMap_cons, areas_append, areas_app, h A List.mem_cons_self,
      ih fun B hB => h B (List.mem_cons_of_mem _ hB)]
    push_cast [List.length_cons]
    ring

theorem areas_flatMap {α : Type} (f : α → List (Pgon K)) (l : List α) :
    areas (l.flatMap f) = (l.map fun x => areas (f x)).sum := by
  induction l with
  | nil => rfl
  | cons x l ih => rw [List.flatMap_cons, areas_append, ih, List.map_cons, List.sum_cons]

mutual
theorem area_flat (ops : PathOps K P) {t : Trig K} (ht : ∀ a, t.cos a ^ 2 + t.sin a ^ 2 = 1) :
    (c : HCell K P) → c.area ops = areas (c.flatPolys ops t)
  | .mk name polys paths labels refs => by
    rw [HCell.area, HCell.flatPolys, areas_append, areas_append, areas_flatMap, areas_flatMap,
      areaRefs_flat ops ht refs]
    rfl

theorem areaRefs_flat (ops : PathOps K P) {t : Trig K} (ht : ∀ a, t.cos a ^ 2 + t.sin a ^ 2 = 1) :
    (c : HRefs K P) → c.area ops = areas (c.flatPolys ops t)
  | .nil => by rw [HRefs.area, HRefs.flatPolys]; rfl
  | .cell r c rest => by
    rw [HRefs.area, HRefs.flatPolys, areas_append, areas_transform ht, area_flat ops ht c,
      areaRefs_flat ops ht rest]
  | .name _ _ rest => by
    rw [HRefs.area, HRefs.flatPolys]
    exact areaRefs_flat ops ht rest
end

/-- **C33.** The area of a cell is the sum of the areas of all the polygons returned by
`get_polygons()`, for every hierarchy. -/
theorem C33_area_is_sum (ops : PathOps K P) (t : Trig K) (ht : ∀ a, t.cos a ^ 2 + t.sin a ^ 2 = 1)
    (c : HCell K P) : c.area ops = ((c.polys ops t none).map polyArea).sum := by
  rw [polys_none]
  exact area_flat ops ht c

/-- **C33.** A reference contributes the area of its cell times the square of the magnification,
an array that much for each column and row, whatever the other parameters are. -/
theorem C33_reference_factor (t : Trig K) (ht : ∀ a, t.cos a ^ 2 + t.sin a ^ 2 = 1) (r : RefData K)
    (l : List (Pgon K)) :
    ((transformPolys t r l).map polyArea).sum
      = (l.map polyArea).sum * (r.magnification.getD 1) ^ 2
        * (match r.array with | none => 1 | some (cols, rows, _) => (cols : K) * (rows : K)) := by
  have h := areas_transform ht r l
  unfold areas at h
  rw [h]
  unfold refFactor
  cases r.array with
  | none => cases r.magnification <;> simp
  | some q =>
    cases r.magnification
    · simp
    · simp; ring

/-! ### Areas by specification -/

section Dict

variable {κ : Type} [DecidableEq κ] [BEq κ] [LawfulBEq κ]

theorem dictAdd_sel (k j : κ) (v : K) (d : List (κ × K)) :
    (sel j (dictAdd k v d)).sum = (sel j d).sum + if j = k then v else 0 := by
  induction d with
  | nil =>
    rw [dictAdd, sel_cons]
    by_cases h : j = k <;> simp [sel, h]
  | cons p d ih =>
    obtain ⟨k', v'⟩ := p
    unfold dictAdd
    split
    · rename_i h
      subst h
      rw [sel_cons, sel_cons]
      by_cases h : j = k' <;> simp [h]
      ring
    · rename_i h
      rw [sel_cons, sel_cons, List.sum_append, List.sum_append, ih]
      ring

theorem dictAdd_sum (k : κ) (v : K) (d : List (κ × K)) :
    ((dictAdd k v d).map Prod.snd).sum = (d.map Prod.snd).sum + v := by
  induction d with
  | nil => simp [dictAdd]
  | cons p d ih =>
    obtain ⟨k', v'⟩ := p
    unfold dictAdd
    split
    · simp only [List.map_cons, List.sum_cons]; ring
    · simp only [List.map_cons, List.sum_cons, ih]; ring

theorem dictAdd_keys (k : κ) (v : K) (d : List (κ × K)) :
    (dictAdd k v d).map Prod.fst
      = if k ∈ d.map Prod.fst then d.map Prod.fst else d.map Prod.fst ++ [k] := by
  induction d with
  | nil => simp [dictAdd]
  | cons p d ih =>
    obtain ⟨k', v'⟩ := p
    unfold dictAdd
    by_cases h : k' = k
    · subst h
      simp
    · rw [if_neg h, List.map_cons, ih]
      have : ¬ k = k' := fun e => h e.symm
      by_cases h2 : k ∈ d.map Prod.fst
      · rw [if_pos h2, if_pos (by simp only [List.map_cons]; exact List.mem_cons_of_mem _ h2)]
        rfl
      · rw [if_neg h2, if_neg (by simp only [List.map_cons, List.mem_cons]; tauto)]
        rfl

theorem dictAdd_nodup {k : κ} {v : K} {d : List (κ × K)} (h : (d.map Prod.fst).Nodup) :
    ((dictAdd k v d).map Prod.fst).Nodup := by
  rw [dictAdd_keys]
  split
  · exact h
  · rename_i hk
    rw [List.nodup_append]
    refine ⟨h, by simp, ?_⟩
    intro a ha b hb
    rw [List.mem_singleton] at hb
    subst hb
    rintro rfl
    exact hk ha

theorem dictAddAll_sel (j : κ) (e : List (κ × K)) : ∀ d : List (κ × K),
    (sel j (dictAddAll d e)).sum = (sel j d).sum + (sel j e).sum := by
  induction e with
  | nil => intro d; simp [dictAddAll, sel]
  | cons p e ih =>
    intro d
    obtain ⟨k, v⟩ := p
    have : dictAddAll d ((k, v) :: e) = dictAddAll (dictAdd k v d) e := rfl
    rw [this, ih, dictAdd_sel, sel_cons, List.sum_append]
    by_cases h : j = k <;> simp [h]
    ring

theorem dictAddAll_sum (e : List (κ × K)) : ∀ d : List (κ × K),
    ((dictAddAll d e).map Prod.snd).sum = (d.map Prod.snd).sum + (e.map Prod.snd).sum := by
  induction e with
  | nil => intro d; simp [dictAddAll]
  | cons p e ih =>
    intro d
    obtain ⟨k, v⟩ := p
    have : dictAddAll d ((k, v) :: e) = dictAddAll (dictAdd k v d) e := rfl
    rw [this, ih, dictAdd_sum]
    simp only [List.map_cons, List.sum_cons]
    ring

theorem dictAddAll_nodup (e : List (κ × K)) : ∀ d : List (κ × K), (d.map Prod.fst).Nodup →
    ((dictAddAll d e).map Prod.fst).Nodup := by
  induction e with
  | nil => intro d h; exact h
  | cons p e ih => intro d h; exact ih _ (dictAdd_nodup h)

theorem foldAll_sel (j : κ) (es : List (List (κ × K))) : ∀ d : List (κ × K),
    (sel j (es.foldl dictAddAll d)).sum = (sel j d).sum + (es.map fun e => (sel j e).sum).sum := by
  induction es with
  | nil => intro d; simp
  | cons e es ih =>
    intro d
    rw [List.foldl_cons, ih, dictAddAll_sel, List.map_cons, List.sum_cons]
    ring

theorem foldAll_sum (es : List (List (κ × K))) : ∀ d : List (κ × K),
    ((es.foldl dictAddAll d).map Prod.snd).sum
      = (d.map Prod.snd).sum + (es.map fun e => (e.map Prod.snd).sum).sum := by
  induction es with
  | nil => intro d; simp
  | cons e es ih =>
    intro d
    rw [List.foldl_cons, ih, dictAddAll_sum, List.map_cons, List.sum_cons]
    ring

theorem foldAll_nodup (es : List (List (κ × K))) : ∀ d : List (κ × K), (d.map Prod.fst).Nodup →
    ((es.foldl dictAddAll d).map Prod.fst).Nodup := by
  induction es with
  | nil => intro d h; exact h
  | cons e es ih => intro d h; exact ih _ (dictAddAll_nodup _ _ h)

theorem sel_sum_lookup {d : List (κ × K)} (h : (d.map Prod.fst).Nodup) (j : κ) :
    (sel j d).sum = (d.lookup j).getD 0 := by
  induction d with
  | nil => simp [sel]
  | cons p d ih =>
    obtain ⟨k, v⟩ := p
    rw [List.map_cons, List.nodup_cons] at h
    rw [sel_cons, lookup_cons_ite, List.sum_append, ih h.2]
    by_cases hj : j = k
    · subst hj
      have : d.lookup j = none := by
        rw [List.lookup_eq_none_iff]
        intro p hp
        rw [bne_iff_ne]
        intro he
        exact h.1 (List.mem_map.2 ⟨p, hp, he.symm⟩)
      simp [this]
    · simp [hj]

end Dict

theorem sel_map_val {κ β γ : Type} [DecidableEq κ] (j : κ) (f : β → γ) (l : List (κ × β)) :
    sel j (l.map fun q => (q.1, f q.2)) = (sel j l).map f := sel_map_snd j f l

theorem sets_areaDict (ps : PolySet K) :
    ps.areaDict = dictAddAll [] (ps.tagged.map fun q => (q.1, polyArea q.2)) := by
  unfold PolySet.areaDict dictAddAll
  rw [List.foldl_map]

theorem paths_areaDict (ops : PathOps K P) (p : P) :
    ops.areaDict p = dictAddAll []
      (((ops.dict p).flatMap fun q => q.2.map fun x => (q.1, x)).map fun q => (q.1, polyArea q.2)) := by
  unfold PathOps.areaDict dictAddAll
  congr 1
  rw [List.map_flatMap]
  simp only [List.map_map]
  rfl

theorem sel_ld {β : Type} (l dt : Int) (m : List ((Int × Int) × β)) :
    sel (SpecKey.ld l dt) (m.map fun q => (SpecKey.ld q.1.1 q.1.2, q.2)) = sel (l, dt) m := by
  induction m with
  | nil => rfl
  | cons q m ih =>
    obtain ⟨⟨a, b⟩, v⟩ := q
    rw [List.map_cons, sel_cons, sel_cons, ih]
    simp

theorem sel_expand {κ α : Type} [DecidableEq κ] (j : κ) (d : List (κ × List α)) :
    sel j (d.flatMap fun q => q.2.map fun x => (q.1, x)) = (sel j d).flatten := by
  induction d with
  | nil => rfl
  | cons q d ih =>
    obtain ⟨k, v⟩ := q
    rw [List.flatMap_cons, sel_append, ih, sel_map_key, sel_cons, List.flatten_append]
    split <;> simp

mutual
theorem areaDict_nodup (ops : PathOps K P) : (c : HCell K P) → ((c.areaDict ops).map Prod.fst).Nodup
  | .mk name polys paths labels refs => by
    rw [HCell.areaDict]
    exact areaDictRefs_nodup ops refs _ (foldAll_nodup _ _ (foldAll_nodup _ _ (by simp)))

theorem areaDictRefs_nodup (ops : PathOps K P) : (c : HRefs K P) → ∀ d : List ((Int × Int) × K),
    (d.map Prod.fst).Nodup → ((c.areaDict ops d).map Prod.fst).Nodup
  | .nil, d, h => by rw [HRefs.areaDict]; exact h
  | .cell r c rest, d, h => by
    rw [HRefs.areaDict]
    exact areaDictRefs_nodup ops rest _ (dictAddAll_nodup _ _ h)
  | .name _ _ rest, d, h => by
    rw [HRefs.areaDict]
    exact areaDictRefs_nodup ops rest d h
end

theorem own_areas {polys : List (PolySet K)} (h : ∀ ps ∈ polys, Aligned ps) (l dt : Int) :
    (polys.map fun ps => (sel (l, dt) ps.areaDict).sum).sum
      = areas (sel (SpecKey.ld l dt) (polys.flatMap fun ps =>
        (List.range ps.polygons.length).map fun i =>
          (SpecKey.ld (ps.layers.getD i 0) (ps.datatypes.getD i 0), ps.polygons.getD i []))) := by
  rw [sel_flatMap, areas_flatMap]
  refine congrArg List.sum (List.map_congr_left ?_)
  intro ps hps
  rw [sets_areaDict, dictAddAll_sel, sel_map_val, ← tagged_eq (h ps hps), sel_ld]
  simp [sel, areas]

theorem path_areas (ops : PathOps K P) (paths : List P) (l dt : Int) :
    (paths.map fun p => (sel (l, dt) (ops.areaDict p)).sum).sum
      = areas (sel (SpecKey.ld l dt) (paths.flatMap fun p => (ops.elems p).flatMap fun e =>
        e.2.map fun pts => (SpecKey.ld e.1.1 e.1.2, pts))) := by
  rw [sel_flatMap, areas_flatMap]
  refine congrArg List.sum (List.map_congr_left ?_)
  intro p _
  rw [paths_areaDict, dictAddAll_sel, sel_map_val, sel_expand, sel_elems,
    sel_flatten_of_nodup (pathDict_nodup ops p), pathDict_getD]
  simp [sel, areas]

mutual
theorem areaDict_flat (ops : PathOps K P) {t : Trig K} (ht : ∀ a, t.cos a ^ 2 + t.sin a ^ 2 = 1)
    (l dt : Int) : (c : HCell K P) → AllCell Aligned (fun _ => True) c →
    (sel (l, dt) (c.areaDict ops)).sum = areas (sel (.ld l dt) (flat ops t none c))
  | .mk name polys paths labels refs, h => by
    rw [AllCell] at h
    rw [HCell.areaDict, flat, if_neg (by simp), sel_append, sel_append, areas_append, areas_append,
      areaDictRefs_flat ops ht l dt refs h.2, foldAll_sel, foldAll_sel, List.map_map, List.map_map,
      ← own_areas h.1, ← path_areas]
    simp [sel, Function.comp_def]

theorem areaDictRefs_flat (ops : PathOps K P) {t : Trig K} (ht : ∀ a, t.cos a ^ 2 + t.sin a ^ 2 = 1)
    (l dt : Int) : (c : HRefs K P) → AllRefs Aligned (fun _ => True) c →
    ∀ d : List ((Int × Int) × K), (sel (l, dt) (c.areaDict ops d)).sum
      = (sel (l, dt) d).sum + areas (sel (.ld l dt) (flatRefs ops t none c))
  | .nil, _, d => by rw [HRefs.areaDict, flatRefs]; simp [sel, areas]
  | .cell r c rest, h, d => by
    rw [AllRefs] at h
    rw [HRefs.areaDict, flatRefs, areaDictRefs_flat ops ht l dt rest h.2.2, dictAddAll_sel,
      sel_map_val (f := fun v => v * refFactor r), sel_append, areas_append, placed_sel,
      areas_transform ht, ← areaDict_flat ops ht l dt c h.2.1, List.sum_map_mul_right, List.map_id']
    ring
  | .name _ _ rest, h, d => by
    rw [AllRefs] at h
    rw [HRefs.areaDict, flatRefs]
    exact areaDictRefs_flat ops ht l dt rest h.2 d
end

/-- **C33.** The entry of `area(by_spec=True)` for a layer and datatype (0 if there is none) is the
sum of the areas of the polygons returned by `get_polygons((layer, datatype))`. -/
theorem C33_area_by_spec (ops : PathOps K P) (t : Trig K) (ht : ∀ a, t.cos a ^ 2 + t.sin a ^ 2 = 1)
    (l dt : Int) (c : HCell K P) (h : AllCell Aligned (fun _ => True) c) :
    ((c.areaDict ops).lookup (l, dt)).getD 0 = ((c.polysOf ops t none l dt).map polyArea).sum := by
  rw [← sel_sum_lookup (areaDict_nodup ops c), areaDict_flat ops ht l dt c h,
    polysOf_flat ops t none l dt c h]
  rfl

theorem tagged_snd {ps : PolySet K} (h : Aligned ps) : ps.tagged.map Prod.snd = ps.polygons := by
  unfold PolySet.tagged
  rw [List.map_snd_zip]
  simp [h.1, h.2]

mutual
theorem areaDict_total (ops : PathOps K P) : (c : HCell K P) → AllCell Aligned (fun _ => True) c →
    ((c.areaDict ops).map Prod.snd).sum = c.area ops
  | .mk name polys paths labels refs, h => by
    rw [AllCell] at h
    rw [HCell.areaDict, HCell.area, areaDictRefs_total ops refs h.2, foldAll_sum, foldAll_sum,
      List.map_map, List.map_map, List.map_nil, List.sum_nil, zero_add]
    refine congrArg₂ HAdd.hAdd (congrArg₂ HAdd.hAdd ?_ ?_) rfl
    · refine congrArg List.sum (List.map_congr_left ?_)
      intro ps hps
      simp only [Function.comp]
      rw [sets_areaDict, dictAddAll_sum, List.map_map]
      unfold PolySet.area
      conv_rhs => rw [← tagged_snd (h.1 ps hps), List.map_map]
      simp [Function.comp_def]
    · refine congrArg List.sum (List.map_congr_left ?_)
      intro p _
      simp only [Function.comp]
      rw [paths_areaDict, dictAddAll_sum, List.map_map]
      unfold PathOps.area PathOps.polys
      simp only [List.map_nil, List.sum_nil, zero_add, List.map_flatMap, List.map_map]
      rfl

theorem areaDictRefs_total (ops : PathOps K P) : (c : HRefs K P) → AllRefs Aligned (fun _ => True) c →
    ∀ d : List ((Int × Int) × K),
    ((c.areaDict ops d).map Prod.snd).sum = (d.map Prod.snd).sum + c.area ops
  | .nil, _, d => by rw [HRefs.areaDict, HRefs.area, add_zero]
  | .cell r c rest, h, d => by
    rw [AllRefs] at h
    rw [HRefs.areaDict, HRefs.area, areaDictRefs_total ops rest h.2.2, dictAddAll_sum, List.map_map,
      ← areaDict_total ops c h.2.1]
    have : (List.map (Prod.snd ∘ fun p : (Int × Int) × K => (p.1, p.2 * refFactor r)) (c.areaDict ops)).sum
        = ((c.areaDict ops).map Prod.snd).sum * refFactor r := by
      rw [← List.sum_map_mul_right]
      simp [Function.comp_def]
    rw [this]
    ring
  | .name _ _ rest, h, d => by
    rw [AllRefs] at h
    rw [HRefs.areaDict, HRefs.area]
    exact areaDictRefs_total ops rest h.2 d
end

/-- **C33.** The areas by specification add up to the total area. -/
theorem C33_by_spec_total (ops : PathOps K P) (c : HCell K P) (h : AllCell Aligned (fun _ => True) c) :
    ((c.areaDict ops).map Prod.snd).sum = c.area ops :=
  areaDict_total ops c h

/-- A hierarchy with an array of magnification 2 and rotations. -/
example : sampleTop.area (idealOps ratTrig) = 66 := by decide +kernel

example : ∀ a, ratTrig.cos a ^ 2 + ratTrig.sin a ^ 2 = 1 := by
  intro a
  simp only [ratTrig]
  split_ifs with h1 h2 h3 h4 h5 h6 <;> first | norm_num; done | (exfalso; grind)

end Gdspy
