import Verif.Model.HierRobust
import Verif.Props.C32Flex
import Verif.Props.C61Robust

/-!
# C32, C37: cells with RobustPaths

Flattening and copying cells whose paths are `RobustPath`s.
-/

set_option linter.unusedSectionVars false

namespace Gdspy.Spec

variable {K : Type} [Field K] [LinearOrder K] [FloorRing K]

/-- References that do not magnify; reflected ones only if `mirrored`. -/
def RigidRef (mirrored : Prop) (r : RefData K) : Prop :=
  r.magnification = none ∧ (r.xrefl = some true → mirrored)

/-- Paths without cached polygons, with flush ends (if nothing is reflected, also extended, tuple or round ones), whose
polygons are not cut. -/
structure RobustOk (mirrored : Prop) (ctx : FlexCtx K) (r : Robust K) : Prop where
  fresh : r.cache = none
  paths : r.paths.length = r.n
  layers : r.layers.length = r.n
  datatypes : r.datatypes.length = r.n
  ends : PlainEnds ctx.num 1 r
  flush : mirrored → ∀ c ∈ r.ends, c = .flush
  whole : Whole ctx r

end Gdspy.Spec

namespace Gdspy

open Spec

variable {K : Type} [Field K] [LinearOrder K] [IsStrictOrderedRing K] [FloorRing K]

/-! ### The dictionary -/

theorem robustPolys_element (ctx : FlexCtx K) (r : Robust K) (d : PolyDict K) (k : List (Sub K) × FlexEnd K × Int × Int) :
    r.pathPolys ctx d k = match r.element ctx k with
      | .error e => (d, some e)
      | .ok x => (addDict d x.1 x.2, none) := by
  unfold Robust.pathPolys Robust.element
  cases robustOutline ctx r.tolerance r.maxEvals k.2.1 k.1 with
  | error e => rfl
  | ok p =>
    simp only [bind, Except.bind]
    cases flexPieces ctx r.precision r.maxPoints p <;> rfl

theorem forRobust_elements (ctx : FlexCtx K) (r : Robust K) (is : List (List (Sub K) × FlexEnd K × Int × Int))
    (d : PolyDict K) :
    (∀ l, is.mapM (r.element ctx) = .ok l →
      forOut (r.pathPolys ctx) d is = (l.foldl (fun d e => dictExtend e.1 e.2 d) d, none)) ∧
    (∀ e, is.mapM (r.element ctx) = .error e → (forOut (r.pathPolys ctx) d is).2 = some e) := by
  induction is generalizing d with
  | nil =>
    constructor
    · intro l h
      cases h
      rfl
    · intro e h
      cases h
  | cons i is ih =>
    simp only [List.mapM_cons]
    unfold forOut
    rw [robustPolys_element]
    cases r.element ctx i with
    | error e =>
      constructor
      · intro l h; cases h
      · intro e' h; cases h; rfl
    | ok x =>
      simp only
      obtain ⟨h1, h2⟩ := ih (addDict d x.1 x.2)
      cases hm : is.mapM (r.element ctx) with
      | error e =>
        constructor
        · intro l h; cases h
        · intro e' h; cases h; exact h2 _ hm
      | ok l =>
        constructor
        · intro l' h
          cases h
          rw [h1 _ hm, List.foldl_cons, dictExtend_addDict]
        · intro e' h; cases h

/-- The dictionary that `get_polygons(True)` returns is the one the hierarchy model works with; a path that raises has no
polygons there. -/
theorem robustOps_dict (ctx : FlexCtx K) {r : Robust K} (hc : r.cache = none) :
    (∀ d, (r.getPolygons ctx).2 = .ok d → (robustOps ctx).dict r = d) ∧
    (∀ e, (r.getPolygons ctx).2 = .error e → (robustOps ctx).dict r = []) := by
  obtain ⟨h1, h2⟩ := forRobust_elements ctx r (List.zip r.paths (List.zip r.ends (List.zip r.layers r.datatypes))) []
  unfold Robust.getPolygons PathOps.dict robustOps Robust.compute
  rw [hc]
  simp only
  generalize forOut (r.pathPolys ctx) [] _ = x at h1 h2 ⊢
  obtain ⟨d, er⟩ := x
  cases he : r.elements ctx with
  | error e =>
    have := h2 e he
    simp only at this
    subst this
    constructor
    · intro d h; cases h
    · intro d h; simp only [hc]; rfl
  | ok l =>
    have := h1 l he
    simp only [Prod.mk.injEq] at this
    obtain ⟨rfl, rfl⟩ := this
    constructor
    · intro d h; cases h; simp only [hc]
    · intro e h; cases h

/-! ### Transformations -/

theorem zip_ends {r : Robust K} {k : List (Sub K) × FlexEnd K × Int × Int}
    (hk : k ∈ List.zip r.paths (List.zip r.ends (List.zip r.layers r.datatypes))) :
    (k.1, k.2.1) ∈ List.zip r.paths r.ends := by
  obtain ⟨i, hi, hk⟩ := List.mem_iff_getElem.1 hk
  simp only [List.getElem_zip] at hk
  simp only [List.length_zip, lt_inf_iff] at hi
  rw [← hk]
  refine List.mem_iff_getElem.2 ⟨i, by simp only [List.length_zip, lt_inf_iff]; omega, ?_⟩
  simp only [List.getElem_zip]

theorem robustElements_moved {ctx : FlexCtx K} (ht : Num.Polar ctx.num) (hl : Num.Laws ctx.num) {A : Aff K} {e : K}
    (h : Similar A 1 e) {r r' : Robust K} (hr : MovedBy A r r') (hp : PlainEnds ctx.num e r) (hm : Whole ctx r) :
    r'.elements ctx = (r.elements ctx).map (mapElems A.app) := by
  have hz : List.zip r'.paths (List.zip r'.ends (List.zip r'.layers r'.datatypes)) =
      (List.zip r.paths (List.zip r.ends (List.zip r.layers r.datatypes))).map fun k => (k.1.map (Sub.moved A), k.2) := by
    rw [hr.paths, hr.ends, hr.layers, hr.datatypes, List.zip_map_left]
    rfl
  have hk : ∀ k ∈ List.zip r.paths (List.zip r.ends (List.zip r.layers r.datatypes)),
      r'.element ctx (k.1.map (Sub.moved A), k.2) =
        (r.element ctx k).map fun x => (x.1, x.2.map (List.map A.app)) := by
    intro k hk
    have ho := robustOutline_image ht hl h r.tolerance r.maxEvals (hp _ (zip_ends hk))
    have hpc := pieces_image (ctx := ctx) (A := A) (prec := r.precision) (m := r.maxPoints)
      (o := robustOutline ctx r.tolerance r.maxEvals k.2.1 k.1) (hm.imp id (And.imp id fun hm p => hm _ (zip_ends hk) p))
    unfold Robust.element
    simp only [hr.tolerance, hr.maxEvals, hr.precision, hr.maxPoints, ho]
    rw [← bind_assoc, hpc, ← bind_assoc]
    cases (robustOutline ctx r.tolerance r.maxEvals k.2.1 k.1 >>= flexPieces ctx r.precision r.maxPoints) <;> rfl
  unfold Robust.elements
  rw [hz]
  generalize List.zip r.paths (List.zip r.ends (List.zip r.layers r.datatypes)) = is at hk
  induction is with
  | nil => rfl
  | cons i is ih =>
    simp only [List.map_cons, List.mapM_cons]
    rw [hk i (by simp), ih fun j hj => hk j (by simp [hj])]
    cases r.element ctx i with
    | error e => rfl
    | ok x =>
      cases is.mapM (r.element ctx) with
      | error e => rfl
      | ok xs => rfl

/-- The conditions hold for the moved path, too. -/
theorem robustOk_moved {mirrored : Prop} {ctx : FlexCtx K} (ht : Num.Polar ctx.num) (hl : Num.Laws ctx.num) {A : Aff K}
    {e : K} (h : Similar A 1 e) {r r' : Robust K} (hr : MovedBy A r r') (hp : PlainEnds ctx.num e r)
    (hn : r'.cache = none) (hok : RobustOk mirrored ctx r) : RobustOk mirrored ctx r' := by
  have hz : List.zip r'.paths r'.ends = (List.zip r.paths r.ends).map fun k => (k.1.map (Sub.moved A), k.2) := by
    rw [hr.paths, hr.ends, List.zip_map_left]
    rfl
  refine ⟨hn, by rw [hr.paths, hr.n, List.length_map]; exact hok.paths, by rw [hr.layers, hr.n]; exact hok.layers,
    by rw [hr.datatypes, hr.n]; exact hok.datatypes, ?_, by rw [hr.ends]; exact hok.flush, ?_⟩
  · intro k hk
    rw [hz, List.mem_map] at hk
    obtain ⟨k, hk, rfl⟩ := hk
    refine (hok.ends k hk).imp id (And.imp id (Or.imp id (And.imp id fun hd => ?_)))
    intro s l hs
    cases hk1 : k.1 with
    | nil => simp only [hk1, List.map_nil] at hs; cases hs
    | cons s0 l0 =>
      simp only [hk1, List.map_cons, List.cons.injEq] at hs
      obtain ⟨rfl, rfl⟩ := hs
      have hlast : (l0.map (Sub.moved A)).getLastD (s0.moved A) = (l0.getLastD s0).moved A := by
        rw [List.getLastD_eq_getLast?, List.getLastD_eq_getLast?, List.getLast?_map]
        cases l0.getLast? <;> rfl
      obtain ⟨h0, h1⟩ := hd s0 l0 hk1
      have hne : ∀ v : Pt K, v ≠ (0, 0) → A.lin v ≠ (0, 0) := by
        intro v hv h0
        refine hv (h.inj ?_)
        have h1 := congrArg Prod.fst h0
        have h2 := congrArg Prod.snd h0
        simp only [Aff.lin] at h1 h2
        simp only [Aff.app, h1, h2, mul_zero, add_zero, zero_add]
      rw [hlast, (moved_image ctx.num A s0).grad, (moved_image ctx.num A _).grad]
      exact ⟨hne _ h0, hne _ h1⟩
  · refine hok.whole.imp (fun h => by rw [hr.maxPoints]; exact h) (And.imp id fun hw => ?_)
    intro k hk p hp'
    rw [hz, List.mem_map] at hk
    obtain ⟨k, hk, rfl⟩ := hk
    simp only [hr.tolerance, hr.maxEvals, robustOutline_image ht hl h r.tolerance r.maxEvals (hp k hk)] at hp'
    cases ho : robustOutline ctx r.tolerance r.maxEvals k.2 k.1 with
    | error e => rw [ho] at hp'; cases hp'
    | ok q =>
      rw [ho] at hp'
      cases hp'
      rw [List.length_map, hr.maxPoints]
      exact hw k hk q ho

/-- The paths described by `RobustOk` move as references ask for. -/
theorem robustOps_geom {ctx : FlexCtx K} (ht : Num.Polar ctx.num) (hl : Num.Laws ctx.num) {t : Trig K}
    (hd : Degrees t ctx.num) (mirrored : Prop) :
    GeomPaths t (robustOps ctx) (RigidRef mirrored) (RobustOk mirrored ctx) := by
  have key : ∀ (r : RefData K) (s : Option (Pt K)) (f : Robust K), RigidRef mirrored r → RobustOk mirrored ctx f →
      (robustOps ctx).elems ((robustOps ctx).transform r.origin r.rotation r.magnification r.xrefl s f) =
        mapElems (pathMap ctx.num r.origin (r.rotation.map fun a => a * (2 * ctx.num.halfpi) / 180) none
          (r.xrefl.getD false) s).app ((robustOps ctx).elems f) ∧
      RobustOk mirrored ctx ((robustOps ctx).transform r.origin r.rotation r.magnification r.xrefl s f) := by
    intro r s f hr hf
    have hp : PlainEnds ctx.num (if r.xrefl.getD false then -1 else 1) f := by
      cases hx : r.xrefl with
      | none => exact hf.ends
      | some b =>
        cases b with
        | false => exact hf.ends
        | true =>
          intro k hk
          exact .inl (hf.flush (hr.2 hx) _ (List.of_mem_zip hk).2)
    have hA := pathMap_similar hl r.origin (r.rotation.map fun a => a * (2 * ctx.num.halfpi) / 180) none
      (r.xrefl.getD false) s (by simp)
    have hm := movedBy_transform ctx.num r.origin (r.rotation.map fun a => a * (2 * ctx.num.halfpi) / 180) none
      (r.xrefl.getD false) s f
    have he : s.map (psmul ((none : Option K).getD 1)) = s := by
      cases s with
      | none => rfl
      | some p => simp [psmul]
    rw [he] at hm
    have hn : (f.transform ctx.num r.origin (r.rotation.map fun a => a * (2 * ctx.num.halfpi) / 180) none
        (r.xrefl.getD false) s).cache = none := by
      unfold Robust.transform
      cases r.origin <;> cases r.rotation <;> cases r.xrefl.getD false <;> cases s <;> rfl
    have hx : (robustOps ctx).transform r.origin r.rotation r.magnification r.xrefl s f =
        f.transform ctx.num r.origin (r.rotation.map fun a => a * (2 * ctx.num.halfpi) / 180) none
          (r.xrefl.getD false) s := by
      unfold robustOps
      simp only [hr.1]
    rw [hx]
    refine ⟨?_, robustOk_moved ht hl hA hm hp hn hf⟩
    unfold robustOps
    simp only [hf.fresh, hn, robustElements_moved ht hl hA hm hp hf.whole]
    cases f.elements ctx <;> rfl
  have hmap : ∀ (r : RefData K) (s : Option (Pt K)), RigidRef mirrored r →
      pathMap ctx.num r.origin (r.rotation.map fun a => a * (2 * ctx.num.halfpi) / 180) none (r.xrefl.getD false) s =
      ((Aff.place t r).comp (Aff.mirror r)).comp ((Aff.opt s .shift).comp (Aff.opt r.magnification .scale)) := by
    intro r s hr
    have hm : Aff.mirror r = (if r.xrefl.getD false then .reflect else .id : Aff K) := by
      unfold Aff.mirror
      cases hx : r.xrefl with
      | none => rfl
      | some b => cases b <;> rfl
    have hrot : (Aff.opt (r.rotation.map fun a => a * (2 * ctx.num.halfpi) / 180)
        fun a => Aff.rotate (ctx.num.cos a) (ctx.num.sin a)) = Aff.opt r.rotation fun a => .rotate (t.cos a) (t.sin a) := by
      unfold Aff.opt
      cases r.rotation with
      | none => rfl
      | some a => simp only [Option.map_some, Option.getD_some, (hd a).1, (hd a).2]
    have hid : (Aff.opt (none : Option K) .scale : Aff K) = .id := rfl
    have hid' : ∀ A : Aff K, A.comp (Aff.id : Aff K) = A := by
      intro A
      obtain ⟨a, b, c, d, e, f⟩ := A
      simp [Aff.comp, Aff.id]
    have hassoc : ∀ A B C : Aff K, A.comp (B.comp C) = (A.comp B).comp C := by
      intro A B C
      simp only [Aff.comp, Aff.mk.injEq]
      refine ⟨?_, ?_, ?_, ?_, ?_, ?_⟩ <;> ring
    unfold pathMap Aff.place
    rw [hm, hrot, hr.1, hid, hid', hassoc]
  constructor
  · intro r p hr hp
    have := (key r none p hr hp).1
    rw [this, hmap r none hr]
    have hid : (Aff.opt (none : Option (Pt K)) .shift).comp (Aff.opt r.magnification .scale) =
        Aff.opt r.magnification .scale := by
      generalize (Aff.opt r.magnification .scale : Aff K) = A
      obtain ⟨a, b, c, d, e, f⟩ := A
      simp [Aff.opt, Aff.comp, Aff.id]
    rw [hid]
  · intro r s p hr hp
    have := (key r (some s) p hr hp).1
    rw [this, hmap r (some s) hr]
    rfl
  · intro r s p hr hp
    exact (key r s p hr hp).2

/-- Setting layers and datatypes of such paths changes just those. -/
theorem robustOps_relabel (mirrored : Prop) (ctx : FlexCtx K) : RelabelPaths (robustOps ctx) (RobustOk mirrored ctx) := by
  intro l d r hr
  have hx : ∀ (m : List Int) (x : Option Int), m.length = r.n →
      overwrite r.n x m = m.map fun a => x.getD a := by
    intro m x hm
    cases x with
    | none => simp [overwrite]
    | some y => simp only [overwrite, Option.getD_some]; rw [List.map_const', hm]
  have hz : List.zip (r.relabel l d).paths
        (List.zip (r.relabel l d).ends (List.zip (r.relabel l d).layers (r.relabel l d).datatypes)) =
      (List.zip r.paths (List.zip r.ends (List.zip r.layers r.datatypes))).map
        fun k => (k.1, k.2.1, l.getD k.2.2.1, d.getD k.2.2.2) := by
    simp only [Robust.relabel, hx _ _ hr.layers, hx _ _ hr.datatypes]
    rw [List.zip_map, List.zip_map_right, List.zip_map_right]
    rfl
  have hk : ∀ k : List (Sub K) × FlexEnd K × Int × Int,
      (r.relabel l d).element ctx (k.1, k.2.1, l.getD k.2.2.1, d.getD k.2.2.2) =
        (r.element ctx k).map fun e => ((l.getD e.1.1, d.getD e.1.2), e.2) := by
    intro k
    unfold Robust.element
    simp only [Robust.relabel]
    cases robustOutline ctx r.tolerance r.maxEvals k.2.1 k.1 with
    | error e => rfl
    | ok p =>
      simp only [bind, Except.bind]
      cases flexPieces ctx r.precision r.maxPoints p <;> rfl
  have he : (r.relabel l d).elements ctx =
      (r.elements ctx).map (List.map fun e => ((l.getD e.1.1, d.getD e.1.2), e.2)) := by
    unfold Robust.elements
    rw [hz]
    generalize List.zip r.paths (List.zip r.ends (List.zip r.layers r.datatypes)) = is
    induction is with
    | nil => rfl
    | cons i is ih =>
      simp only [List.map_cons, List.mapM_cons]
      rw [hk, ih]
      cases r.element ctx i with
      | error e => rfl
      | ok x =>
        cases is.mapM (r.element ctx) with
        | error e => rfl
        | ok xs => rfl
  unfold robustOps
  simp only [hr.fresh, show (r.relabel l d).cache = none from hr.fresh, he]
  cases r.elements ctx <;> rfl

/-! ### Cells -/

/-- **C32 (RobustPaths, partial).** In a hierarchy with RobustPaths, `flatten` keeps all polygons with their layers and
datatypes (except those overwritten), the area and the bounding box. Partial: no magnified references above paths, and
reflected ones only above paths with flush ends; no cached polygons; polygons that are not cut. -/
theorem C32_robust_partial {ctx : FlexCtx K} (ht : Num.Polar ctx.num) (hl : Num.Laws ctx.num) {t : Trig K}
    (htl : Spec.Trig.Laws t) (hd : Degrees t ctx.num) {mirrored : Prop} {c : HCell K (Robust K)}
    (hc : PathsOk (RigidRef mirrored) (RobustOk mirrored ctx) c) (sl sd st : Option Int) :
    (c.flatten (robustOps ctx) t sl sd st).references = .nil ∧
    (flat (robustOps ctx) t none (c.flatten (robustOps ctx) t sl sd st)).Perm
      ((flat (robustOps ctx) t none c).map fun e => (relabelKey sl sd e.1, e.2)) ∧
    ((c.flatten (robustOps ctx) t sl sd st).polys (robustOps ctx) t none).Perm (c.polys (robustOps ctx) t none) ∧
    (c.flatten (robustOps ctx) t sl sd st).area (robustOps ctx) = c.area (robustOps ctx) ∧
    (c.flatten (robustOps ctx) t sl sd st).bbox (robustOps ctx) t = c.bbox (robustOps ctx) t := by
  have hg := robustOps_geom ht hl hd mirrored
  have hr := robustOps_relabel mirrored ctx
  exact ⟨rfl, (C32_flatten_polygons hg hr sl sd st c hc).2, C32_flatten_get_polygons hg hr sl sd st c hc,
    C32_flatten_area htl.pyth hg hr sl sd st c hc, C32_flatten_bbox htl.card hg hr sl sd st c hc⟩

/-- **C37 (RobustPaths, partial).** A transformed copy of a cell with RobustPaths has the images of its polygons, for the
paths and references for which that holds. -/
theorem C37_robust_partial {ctx : FlexCtx K} (ht : Num.Polar ctx.num) (hl : Num.Laws ctx.num) {t : Trig K}
    (htl : Spec.Trig.Laws t) (hd : Degrees t ctx.num) {mirrored : Prop} (name : Str) (a : CopyArgs K)
    {c : HCell K (Robust K)} (hw : c.paths = [] ∨ RigidRef mirrored a.asRef)
    (hq : ∀ p ∈ c.paths, RobustOk mirrored ctx p) (hr : EachRef (CopyOk a) c.references) :
    ∃ c', c.copy (robustOps ctx) t name a = .ok c' ∧ c'.name = name ∧
      c'.polys (robustOps ctx) t none = (c.polys (robustOps ctx) t none).map (List.map (refPt t a.asRef)) ∧
      ∀ l dt, c'.polysOf (robustOps ctx) t none l dt =
        (c.polysOf (robustOps ctx) t none l dt).map (List.map (refPt t a.asRef)) :=
  C37_copy_partial htl (robustOps_geom ht hl hd mirrored) name a c hw hq hr

/-- The hypotheses hold for a cell with an array of rotated references to a cell with a path with a round end. -/
example : PathsOk (RigidRef False) (RobustOk False realCtx)
    (.mk ['T'] [] [] [] (.cell ⟨some (1, 2), some 30, none, none, some (2, 3, (50, 60))⟩
      (.mk ['P'] [] [realRobust] [] .nil) .nil) : HCell ℝ (Robust ℝ)) := by
  simp only [PathsOk, PathsOkRefs]
  refine ⟨by simp, .inl ⟨rfl, by simp⟩, ⟨?_, trivial⟩, trivial⟩
  intro p hp
  rw [List.mem_singleton] at hp
  subst hp
  refine ⟨rfl, rfl, rfl, rfl, ?_, False.elim, .inl (Nat.zero_le _)⟩
  intro k hk
  simp only [realRobust, List.zip_cons_cons, List.zip_nil_right, List.mem_cons, List.not_mem_nil, or_false] at hk
  rcases hk with rfl | rfl
  · exact .inr ⟨rfl, .inr ⟨rfl, realLine_dirs⟩⟩
  · exact .inl rfl

/-- The hypotheses hold for a reflected reference to a cell with a path with flush ends. -/
example : PathsOk (RigidRef True) (RobustOk True realCtx)
    (.mk ['T'] [] [] [] (.cell ⟨some (1, 2), some 30, none, some true, none⟩
      (.mk ['P'] [] [{ realRobust with ends := [.flush, .flush] }] [] .nil) .nil) : HCell ℝ (Robust ℝ)) := by
  simp only [PathsOk, PathsOkRefs]
  refine ⟨by simp, .inl ⟨rfl, fun _ => trivial⟩, ⟨?_, trivial⟩, trivial⟩
  intro p hp
  rw [List.mem_singleton] at hp
  subst hp
  refine ⟨rfl, rfl, rfl, rfl, ?_, ?_, .inl (Nat.zero_le _)⟩
  · intro k hk
    simp only [realRobust, List.zip_cons_cons, List.zip_nil_right, List.mem_cons, List.not_mem_nil, or_false] at hk
    rcases hk with rfl | rfl <;> exact .inl rfl
  · intro _ c hc
    simp only [List.mem_cons, List.not_mem_nil, or_false, or_self] at hc
    exact hc

/-! ### Cells that change when they are flattened -/

/-- A path from (0, 0) to (10, 0). -/
def robustTen (fin : FlexEnd ℚ) : Robust ℚ :=
  ({ tenRobust with ends := [fin] } : Robust ℚ).after capCtx [.segment (10, 0) .none .none false]

/-- A cell with a path, and one that refers to it. -/
def robustCell (p : Robust ℚ) : HCell ℚ (Robust ℚ) := .mk ['P'] [] [p] [] .nil

def overRobust (r : RefData ℚ) (p : Robust ℚ) : HCell ℚ (Robust ℚ) := .mk ['T'] [] [] [] (.cell r (robustCell p) .nil)

/-- **C32**, violated: flattening a magnified array of a cell with a RobustPath moves the copies: the spacing 30 is
magnified, too. -/
theorem C32_flatten_robust_array :
    let c := overRobust ⟨none, none, some 2, none, some (2, 1, (30, 0))⟩ (robustTen .flush)
    c.polys (robustOps capCtx) ratTrig none =
      [[(20, 2), (0, 2), (0, -2), (20, -2)], [(50, 2), (30, 2), (30, -2), (50, -2)]] ∧
    (c.flatten (robustOps capCtx) ratTrig none none none).polys (robustOps capCtx) ratTrig none =
      [[(20, 2), (0, 2), (0, -2), (20, -2)], [(80, 2), (60, 2), (60, -2), (80, -2)]] := by
  decide +kernel

/-- **C32**, violated: flattening a reflected reference to a RobustPath with extended ends changes its outline and its
area. -/
theorem C32_flatten_robust_reflected :
    let c := overRobust ⟨none, none, none, some true, none⟩ (robustTen .extended)
    c.polys (robustOps capCtx) ratTrig none =
      [[(11, 1), (11, -1), (10, -1), (0, -1), (-1, -1), (-1, 1), (0, 1), (10, 1)]] ∧
    (c.flatten (robustOps capCtx) ratTrig none none none).polys (robustOps capCtx) ratTrig none =
      [[(11, -1), (11, 1), (10, -1), (0, -1), (-1, 1), (-1, -1), (0, 1), (10, 1)]] ∧
    c.area (robustOps capCtx) = 24 ∧
    (c.flatten (robustOps capCtx) ratTrig none none none).area (robustOps capCtx) = 20 := by
  decide +kernel

/-- **C32**, violated: `flatten(single_layer=5)` after the polygons of a RobustPath have been asked for leaves them on the
layer before. -/
theorem C32_flatten_robust_stale :
    let c := (robustCell ((robustTen .flush).getPolygons capCtx).1).flatten (robustOps capCtx) ratTrig (some 5) none none
    c.paths.map Robust.layers = [[5]] ∧
    c.polysOf (robustOps capCtx) ratTrig none 5 0 = [] ∧
    c.polysOf (robustOps capCtx) ratTrig none 0 0 = [[(10, 1), (0, 1), (0, -1), (10, -1)]] ∧
    ((robustCell (robustTen .flush)).flatten (robustOps capCtx) ratTrig (some 5) none none).polysOf (robustOps capCtx)
      ratTrig none 5 0 = [[(10, 1), (0, 1), (0, -1), (10, -1)]] := by
  decide +kernel

end Gdspy
