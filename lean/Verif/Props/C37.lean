import Verif.Props.C32
import Verif.Props.C41

/-!
# C37: transformed cell copies
-/

set_option linter.unusedSectionVars false

namespace Gdspy

open Spec

variable {K P : Type} [Field K] [LinearOrder K]

/-- The reference that has the arguments of `Cell.copy`. -/
def CopyArgs.asRef (a : CopyArgs K) : RefData K :=
  ⟨a.translation, a.rotation, a.scale, some a.xrefl, none⟩

theorem copyPt_eq (t : Trig K) (a : CopyArgs K) (p : Pt K) : copyPt t a p = refPt t a.asRef p := by
  unfold copyPt refPt CopyArgs.asRef
  simp only [sub_zero, add_zero, Option.some.injEq]
  have h1 : (if a.xrefl = true then (p.1 * 1, p.2 * -1) else p)
      = if a.xrefl = true then xreflPt p else p := rfl
  rw [h1]
  have h2 : ∀ q : Pt K, onSome a.rotation
      (fun b p => addPt (rotPt (t.cos b) (t.sin b) (p.1, p.2)) (0, 0)) q
      = onSome a.rotation (fun b => rotPt (t.cos b) (t.sin b)) q := by
    intro q
    refine onSome_congr q ?_
    intro b
    simp [addPt]
  rw [h2]
  rfl

theorem refPt_congr {t : Trig K} (h : t.cos 0 = 1 ∧ t.sin 0 = 0) {r s : RefData K}
    (h1 : r.rotation.getD 0 = s.rotation.getD 0) (h2 : r.magnification.getD 1 = s.magnification.getD 1)
    (h3 : r.origin.getD (0, 0) = s.origin.getD (0, 0)) (h4 : isRefl r = isRefl s) (p : Pt K) :
    refPt t r p = refPt t s p := by
  rw [refPt_norm h, refPt_norm h, h1, h2, h3, h4]

theorem arrPt_congr {t : Trig K} (h : t.cos 0 = 1 ∧ t.sin 0 = 0) {r s : RefData K}
    (h1 : r.rotation.getD 0 = s.rotation.getD 0) (h2 : r.magnification.getD 1 = s.magnification.getD 1)
    (h3 : r.origin.getD (0, 0) = s.origin.getD (0, 0)) (h4 : isRefl r = isRefl s) (spc p : Pt K) :
    arrPt t r spc p = arrPt t s spc p := by
  rw [arrPt_norm h, arrPt_norm h, h1, h2, h3, h4]

theorem transformPolys_congr {t : Trig K} (h : t.cos 0 = 1 ∧ t.sin 0 = 0) {r s : RefData K}
    (h1 : r.rotation.getD 0 = s.rotation.getD 0) (h2 : r.magnification.getD 1 = s.magnification.getD 1)
    (h3 : r.origin.getD (0, 0) = s.origin.getD (0, 0)) (h4 : isRefl r = isRefl s)
    (h5 : r.array = s.array) (l : List (Pgon K)) : transformPolys t r l = transformPolys t s l := by
  unfold transformPolys
  rw [h5]
  have e1 : refPt t r = refPt t s := funext (refPt_congr h h1 h2 h3 h4)
  have e2 : arrPt t r = arrPt t s := funext fun spc => funext (arrPt_congr h h1 h2 h3 h4 spc)
  rw [e1, e2]

/-- The references `Cell.copy` gets right: reflection False (neither True nor None), and for arrays
no scaling. -/
def CopyOk (a : CopyArgs K) (r : RefData K) : Prop :=
  r.origin ≠ none ∧ r.xrefl = some false ∧ (r.array = none ∨ a.scale.getD 1 = 1)

/-- A condition on the references of one cell. -/
def EachRef (q : RefData K → Prop) : HRefs K P → Prop
  | .nil => True
  | .cell r _ rest => q r ∧ EachRef q rest
  | .name r _ rest => q r ∧ EachRef q rest

theorem copyRef_ok [IsStrictOrderedRing K] {t : Trig K} (ht : Spec.Trig.Laws t) (a : CopyArgs K)
    (r : RefData K) (h : CopyOk a r) : ∃ r', copyRef t a r = .ok r' ∧
      ∀ l, transformPolys t r' l = transformPolys t a.asRef (transformPolys t r l) := by
  obtain ⟨ho, hx, hs⟩ := h
  cases ho' : r.origin with
  | none => exact absurd ho' ho
  | some o =>
    refine ⟨_, by rw [copyRef, ho'], ?_⟩
    intro l
    rw [C41_references_compose t ht a.asRef r rfl]
    have hr : isRefl a.asRef = a.xrefl := by
      unfold isRefl CopyArgs.asRef
      cases a.xrefl <;> rfl
    have hr2 : isRefl r = false := by
      unfold isRefl
      rw [hx]
      rfl
    have hsg : (if isRefl a.asRef = true then (-1 : K) else 1) = a.r := by
      rw [hr]
      rfl
    refine transformPolys_congr ht.zero ?_ ?_ ?_ ?_ ?_ l
    · simp only [copyAttrs, composeRef, hsg, Option.getD_some]
      have : a.asRef.rotation = a.rotation := rfl
      rw [this]
      split
      · rename_i h0
        rw [Option.getD_none, add_comm]
        exact h0.symm
      · rw [Option.getD_some]
        ring
    · simp only [copyAttrs, composeRef, Option.getD_some]
      have : a.asRef.magnification = a.scale := rfl
      rw [this]
      split
      · rename_i h0
        rw [Option.getD_none, h0]
      · rfl
    · simp only [composeRef, hsg, Option.getD_some, copyPos, ho']
      have e1 : a.asRef.magnification = a.scale := rfl
      have e2 : a.asRef.rotation = a.rotation := rfl
      have e3 : a.asRef.origin = a.translation := rfl
      rw [e1, e2, e3, Prod.mk.injEq]
      constructor <;> ring
    · have : isRefl (composeRef t a.asRef r) = a.xrefl := by
        show decide (some (xor (isRefl a.asRef) (isRefl r)) = some true) = _
        rw [hr, hr2]
        cases a.xrefl <;> rfl
      rw [this]
      show decide (some (decide (a.r * (if r.xrefl = none then (-1 : K) else 1) < 0)) = some true) = _
      rw [hx]
      unfold CopyArgs.r
      have : ¬ (some false = (none : Option Bool)) := by simp
      rw [if_neg this]
      cases a.xrefl <;> simp
    · show r.array = _
      simp only [composeRef]
      rcases hs with hs | hs
      · rw [hs]
        rfl
      · have e1 : a.asRef.magnification = a.scale := rfl
        rw [e1, hs]
        simp

/-! ### Elements -/

theorem dictExtend_map {κ α β : Type} [DecidableEq κ] (g : α → β) (k : κ) (v : List α)
    (d : List (κ × List α)) :
    dictExtend k (v.map g) (d.map fun q => (q.1, q.2.map g))
      = (dictExtend k v d).map fun q => (q.1, q.2.map g) := by
  induction d with
  | nil => rfl
  | cons p d ih =>
    obtain ⟨k', v'⟩ := p
    rw [List.map_cons, dictExtend, dictExtend, ih]
    split <;> simp

theorem foldl_dictExtend_map {κ α β : Type} [DecidableEq κ] (g : α → β) (l : List (κ × List α)) :
    ∀ d : List (κ × List α),
    (l.map fun q => (q.1, q.2.map g)).foldl (fun d e => dictExtend e.1 e.2 d)
        (d.map fun q => (q.1, q.2.map g))
      = (l.foldl (fun d e => dictExtend e.1 e.2 d) d).map fun q => (q.1, q.2.map g) := by
  induction l with
  | nil => intro d; rfl
  | cons e l ih =>
    intro d
    rw [List.map_cons, List.foldl_cons, List.foldl_cons, dictExtend_map, ih]

theorem dict_mapElems {ops : PathOps K P} {f : Pt K → Pt K} {p p' : P}
    (h : ops.elems p' = mapElems f (ops.elems p)) :
    ops.dict p' = (ops.dict p).map fun q => (q.1, q.2.map (List.map f)) := by
  unfold PathOps.dict
  rw [h]
  exact foldl_dictExtend_map (List.map f) (ops.elems p) []

theorem polys_mapElems {ops : PathOps K P} {f : Pt K → Pt K} {p p' : P}
    (h : ops.elems p' = mapElems f (ops.elems p)) :
    ops.polys p' = (ops.polys p).map (List.map f) := by
  unfold PathOps.polys
  rw [dict_mapElems h, List.flatMap_map, List.map_flatMap]

theorem tagged_mapPts (f : Pt K → Pt K) (ps : PolySet K) :
    (ps.mapPts f).tagged = ps.tagged.map fun q => (q.1, q.2.map f) := by
  unfold PolySet.tagged PolySet.mapPts
  simp only
  rw [List.zip_map_right]
  rfl

theorem path_of_mapElems {ops : PathOps K P} {f : Pt K → Pt K} {p p' : P}
    (h : ops.elems p' = mapElems f (ops.elems p)) (l dt : Int) :
    (if (ops.elems p').any (fun e => e.1 = (l, dt)) then ((ops.dict p').lookup (l, dt)).getD [] else [])
      = (if (ops.elems p).any (fun e => e.1 = (l, dt)) then ((ops.dict p).lookup (l, dt)).getD []
          else []).map (List.map f) := by
  have h1 : (ops.elems p').any (fun e => e.1 = (l, dt)) = (ops.elems p).any fun e => e.1 = (l, dt) := by
    rw [h]
    unfold mapElems
    rw [List.any_map]
    rfl
  rw [h1, dict_mapElems h, lookup_map_snd]
  split
  · cases (ops.dict p).lookup (l, dt) <;> rfl
  · rfl

theorem transformPolys_one (t : Trig K) {R : RefData K} (hR : R.array = none) (l : List (Pgon K)) :
    transformPolys t R l = l.map (List.map (refPt t R)) := by
  unfold transformPolys
  rw [hR]

/-! ### References -/

theorem mapData_ok [IsStrictOrderedRing K] (ops : PathOps K P) {t : Trig K} (ht : Spec.Trig.Laws t)
    (a : CopyArgs K) : (refs : HRefs K P) → EachRef (CopyOk a) refs →
    ∃ refs', refs.mapData (copyRef t a) = .ok refs' ∧
      refs'.flatPolys ops t = (refs.flatPolys ops t).map (List.map (refPt t a.asRef)) ∧
      ∀ l dt, refs'.polysOf ops t none l dt
        = (refs.polysOf ops t none l dt).map (List.map (refPt t a.asRef))
  | .nil, _ => ⟨.nil, rfl, by simp only [HRefs.flatPolys, List.map_nil],
      fun l dt => by simp only [HRefs.polysOf, List.map_nil]⟩
  | .cell r c rest, h => by
    obtain ⟨r', hr', hl⟩ := copyRef_ok ht a r h.1
    obtain ⟨rest', h1, h2, h3⟩ := mapData_ok ops ht a rest h.2
    refine ⟨.cell r' c rest', ?_, ?_, ?_⟩
    · rw [HRefs.mapData, hr', h1]
      rfl
    · rw [HRefs.flatPolys, HRefs.flatPolys, hl, h2, transformPolys_one t rfl, List.map_append]
    · intro l dt
      rw [HRefs.polysOf, HRefs.polysOf, hl, h3, transformPolys_one t rfl, List.map_append]
  | .name r s rest, h => by
    obtain ⟨r', hr', -⟩ := copyRef_ok ht a r h.1
    obtain ⟨rest', h1, h2, h3⟩ := mapData_ok ops ht a rest h.2
    refine ⟨.name r' s rest', ?_, ?_, ?_⟩
    · rw [HRefs.mapData, hr', h1]
      rfl
    · rw [HRefs.flatPolys, HRefs.flatPolys, h2]
    · intro l dt
      rw [HRefs.polysOf, HRefs.polysOf, h3]

theorem refPt_trivial (t : Trig K) (p : Pt K) : refPt t (⟨none, none, none, some false, none⟩) p = p := rfl

/-- **C37.** `Cell.copy` with translation, rotation, scale and reflection returns a cell whose polygons
are, in the same order, the images of the polygons of the original under that transformation (the
one a reference with these attributes performs), for all queries. The references of the cell must
have x_reflection False and, if the cell is scaled, must not be arrays; transforming the paths of
the cell must move their polygons accordingly (no condition if there are no paths). -/
theorem C37_copy_partial [IsStrictOrderedRing K] {t : Trig K} (ht : Spec.Trig.Laws t) {ops : PathOps K P}
    {w : RefData K → Prop} {q : P → Prop} (hg : GeomPaths t ops w q) (name : Str) (a : CopyArgs K) (c : HCell K P)
    (hw : c.paths = [] ∨ w a.asRef) (hq : ∀ p ∈ c.paths, q p) (hr : EachRef (CopyOk a) c.references) :
    ∃ c', c.copy ops t name a = .ok c' ∧ c'.name = name ∧
      c'.polys ops t none = (c.polys ops t none).map (List.map (refPt t a.asRef)) ∧
      ∀ l dt, c'.polysOf ops t none l dt
        = (c.polysOf ops t none l dt).map (List.map (refPt t a.asRef)) := by
  obtain ⟨name', polys, paths, labels, refs⟩ := c
  unfold HCell.copy
  split
  · obtain ⟨refs', h1, h2, h3⟩ := mapData_ok ops ht a refs hr
    refine ⟨.mk name (polys.map (PolySet.mapPts (copyPt t a)))
      (paths.map (ops.transform a.translation a.rotation a.scale (some a.xrefl) none))
      (labels.map (copyLabel t a)) refs', ?_, rfl, ?_, ?_⟩
    · simp only [HCell.references, h1]
      rfl
    · have hp : ∀ p ∈ paths, ops.elems (ops.transform a.translation a.rotation a.scale (some a.xrefl) none p)
          = mapElems (refPt t a.asRef) (ops.elems p) := by
        intro p hp
        have e : refPt t a.asRef = _ := funext fun v => refPt_eq t a.asRef v
        rw [e]
        exact hg.ref a.asRef p (hw.resolve_left (List.ne_nil_of_mem hp)) (hq p hp)
      rw [polys_none, polys_none, HCell.flatPolys, HCell.flatPolys, h2, List.map_append, List.map_append]
      refine congrArg₂ List.append (congrArg₂ List.append ?_ ?_) rfl
      · rw [List.flatMap_map, List.map_flatMap]
        refine List.flatMap_congr ?_
        intro ps _
        unfold PolySet.mapPts
        simp only
        rw [funext (copyPt_eq t a)]
      · rw [List.flatMap_map, List.map_flatMap]
        refine List.flatMap_congr ?_
        intro p hpm
        exact polys_mapElems (hp p hpm)
    · have hp : ∀ p ∈ paths, ops.elems (ops.transform a.translation a.rotation a.scale (some a.xrefl) none p)
          = mapElems (refPt t a.asRef) (ops.elems p) := by
        intro p hp
        have e : refPt t a.asRef = _ := funext fun v => refPt_eq t a.asRef v
        rw [e]
        exact hg.ref a.asRef p (hw.resolve_left (List.ne_nil_of_mem hp)) (hq p hp)
      intro l dt
      rw [HCell.polysOf, HCell.polysOf, if_neg (by simp [below]), if_neg (by simp [below])]
      rw [show nextDepth none = none from rfl, h3, List.map_append, List.map_append]
      refine congrArg₂ List.append (congrArg₂ List.append ?_ ?_) rfl
      · rw [List.flatMap_map]
        have e : (polys.flatMap fun ps => (PolySet.mapPts (copyPt t a) ps).tagged)
            = (polys.flatMap PolySet.tagged).map fun q => (q.1, q.2.map (refPt t a.asRef)) := by
          rw [List.map_flatMap]
          refine List.flatMap_congr ?_
          intro ps _
          rw [tagged_mapPts, funext (copyPt_eq t a)]
        rw [e, List.filter_map, List.map_map, List.map_map]
        rfl
      · rw [List.flatMap_map, List.map_flatMap]
        refine List.flatMap_congr ?_
        intro p hpm
        exact path_of_mapElems (hp p hpm) l dt
  · rename_i hn
    refine ⟨.mk name polys paths labels refs, rfl, rfl, ?_, ?_⟩
    all_goals
      have e : refPt t a.asRef = id := by
        obtain ⟨tr, ro, sc, x⟩ := a
        simp only [Bool.or_eq_true, not_or, Bool.not_eq_true, Option.isSome_eq_false_iff,
          Option.isNone_iff_eq_none] at hn
        obtain ⟨⟨⟨rfl, rfl⟩, rfl⟩, rfl⟩ := hn
        rfl
      simp only [e, List.map_id_fun, List.map_id]
    · rw [polys_none, polys_none, HCell.flatPolys, HCell.flatPolys]
    · intro l dt
      rw [HCell.polysOf, HCell.polysOf]

/-- **C37.** A reference with origin None makes a transformed copy raise TypeError. -/
theorem C37_origin_none (ops : PathOps K P) (t : Trig K) (name : Str) (a : CopyArgs K)
    (ha : a.xrefl = true ∨ a.scale ≠ none ∨ a.rotation ≠ none ∨ a.translation ≠ none)
    (n : Str) (polys : List (PolySet K)) (paths : List P) (labels : List (HLabel K)) (r : RefData K)
    (hr : r.origin = none) (d : HCell K P) (rest : HRefs K P) :
    (HCell.mk n polys paths labels (.cell r d rest)).copy ops t name a = .error .typeError := by
  unfold HCell.copy
  rw [if_pos]
  · simp only [HCell.references, HRefs.mapData]
    rw [copyRef, hr]
    rfl
  · simp only [Bool.or_eq_true, Option.isSome_iff_ne_none, ne_eq]
    tauto

/-- A cell with one square, and references to it. -/
def copySample (r : RefData ℚ) : HCell ℚ IdealPath := .mk ['C'] [] [] [] (.cell r sampleLeaf .nil)

/-- The polygons of a copy. -/
def copyPolys (a : CopyArgs ℚ) (c : HCell ℚ IdealPath) : List (Pgon ℚ) :=
  match c.copy (idealOps ratTrig) ratTrig ['D'] a with
  | .ok c' => c'.flatPolys (idealOps ratTrig) ratTrig
  | .error _ => []

/-- **C37.** The claim fails for a reference with x_reflection True: a translated copy loses the
reflection. -/
theorem C37_reflected_reference_wrong : ∃ (r : RefData ℚ) (a : CopyArgs ℚ), r.xrefl = some true ∧
    copyPolys a (copySample r)
      ≠ ((copySample r).flatPolys (idealOps ratTrig) ratTrig).map (List.map (refPt ratTrig a.asRef)) :=
  ⟨⟨some (0, 0), none, none, some true, none⟩, ⟨some (5, 0), none, none, false⟩, rfl, by decide +kernel⟩

/-- **C37.** It fails for a reference with x_reflection None: a translated copy is reflected. -/
theorem C37_none_reflection_wrong : ∃ (r : RefData ℚ) (a : CopyArgs ℚ), r.xrefl = none ∧
    copyPolys a (copySample r)
      ≠ ((copySample r).flatPolys (idealOps ratTrig) ratTrig).map (List.map (refPt ratTrig a.asRef)) :=
  ⟨⟨some (0, 0), none, none, none, none⟩, ⟨some (5, 0), none, none, false⟩, rfl, by decide +kernel⟩

/-- **C37.** It fails for a scaled copy of a cell with an array: the spacing is not scaled. -/
theorem C37_scaled_array_wrong : ∃ (r : RefData ℚ) (a : CopyArgs ℚ), r.xrefl = some false ∧
    r.array = some (2, 1, (3, 0)) ∧ a.scale = some 2 ∧
    copyPolys a (copySample r)
      ≠ ((copySample r).flatPolys (idealOps ratTrig) ratTrig).map (List.map (refPt ratTrig a.asRef)) :=
  ⟨⟨some (0, 0), none, none, some false, some (2, 1, (3, 0))⟩, ⟨none, none, some 2, false⟩, rfl, rfl, rfl,
    by decide +kernel⟩

/-- A cell with a rotated, magnified reference and a copy with all four transformations. -/
example : EachRef (P := IdealPath) (CopyOk (K := ℚ) ⟨some (5, 0), some 90, some 2, true⟩)
    (.cell ⟨some (1, 2), some 30, some 3, some false, none⟩ sampleLeaf .nil) := by
  simp [EachRef, CopyOk]

example : copyPolys ⟨some (5, 0), some 90, some 2, true⟩
      (copySample ⟨some (1, 2), some 90, some 3, some false, none⟩)
    = [[(9, 2), (9 + 6, 2), (15, -4), (9, -4)]] := by decide +kernel

end Gdspy
