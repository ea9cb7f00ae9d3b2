import Verif.Model.HierFlex
import Verif.Props.C32
import Verif.Props.C37
import Verif.Props.C61
import Verif.Props.C47
import Verif.Lemmas.RealNum

/-!
# C32, C37: cells with FlexPaths

Flattening and copying cells whose paths are `FlexPath`s.
-/

set_option linter.unusedSectionVars false

namespace Gdspy.Spec

variable {K : Type} [Field K] [LinearOrder K] [FloorRing K]

/-- The functions of an angle in degrees are those of the angle in radians. -/
def Degrees (t : Trig K) (n : Num K) : Prop :=
  ∀ a, t.cos a = n.cos (a * (2 * n.halfpi) / 180) ∧ t.sin a = n.sin (a * (2 * n.halfpi) / 180)

/-- References that do not reflect; with a magnification, if there is one, that is positive, and allowed only if `scaled`. -/
def PlainRef (scaled : Prop) (r : RefData K) : Prop :=
  r.xrefl.getD false = false ∧ ∀ s, r.magnification = some s → scaled ∧ 0 < s

/-- Paths without cached polygons, with straight corners and ends (round ends too if nothing is scaled), whose polygons
are not cut. If they are scaled: their ends are not given as numbers, and their widths are scaled too. -/
structure FlexOk (scaled : Prop) (ctx : FlexCtx K) (f : Flex K) : Prop where
  fresh : f.cache = none
  layers : f.layers.length = f.n
  datatypes : f.datatypes.length = f.n
  corners : ∀ c ∈ f.corners, StraightCorner c
  ends : ∀ c ∈ f.ends, StraightEnd c ∨
    (c = .round ∧ ¬ scaled ∧ (f.points.length = 2 ∨ ∀ r ∈ f.offsets, ∀ o ∈ r, o = 0))
  scaled : scaled → (f.widthTransform = true ∨ f.gdsiiPath = false) ∧ ∀ c ∈ f.ends, ∀ a b, c ≠ .pair a b
  whole : f.maxPoints ≤ 4 ∨ (2 ≤ ctx.fuel ∧ ∃ l, (unlimited f).elements ctx = .ok l ∧
    ∀ x ∈ l, ∀ p ∈ x.2, p.length ≤ f.maxPoints)

end Gdspy.Spec

namespace Gdspy

open Spec

variable {K : Type} [Field K] [LinearOrder K] [IsStrictOrderedRing K] [FloorRing K]

/-! ### The dictionary -/

theorem dictExtend_addDict (d : PolyDict K) (key : Int × Int) (l : List (Pgon K)) : dictExtend key l d = addDict d key l := by
  induction d with
  | nil => rfl
  | cons x r ih =>
    obtain ⟨k, v⟩ := x
    unfold dictExtend addDict
    simp only [ih]

theorem pathPolys_element (ctx : FlexCtx K) (f : Flex K) (o : Nat → Py (Pgon K)) (d : PolyDict K) (k : Nat) :
    f.pathPolys ctx o d k = match f.element ctx o k with
      | .error e => (d, some e)
      | .ok x => (addDict d x.1 x.2, none) := rfl

theorem forPolys_elements (ctx : FlexCtx K) (f : Flex K) (o : Nat → Py (Pgon K)) (is : List Nat) (d : PolyDict K) :
    (∀ l, is.mapM (f.element ctx o) = .ok l →
      forOut (f.pathPolys ctx o) d is = (l.foldl (fun d e => dictExtend e.1 e.2 d) d, none)) ∧
    (∀ e, is.mapM (f.element ctx o) = .error e → (forOut (f.pathPolys ctx o) d is).2 = some e) := by
  induction is generalizing d with
  | nil =>
    constructor
    · intro l h
      cases h
      rfl
    · intro e h
      cases h
  | cons i is ih =>
    simp only [List.mapM_cons]
    unfold forOut
    rw [pathPolys_element]
    cases f.element ctx o i with
    | error e =>
      constructor
      · intro l h; cases h
      · intro e' h; cases h; rfl
    | ok x =>
      simp only
      obtain ⟨h1, h2⟩ := ih (addDict d x.1 x.2)
      cases hm : is.mapM (f.element ctx o) with
      | error e =>
        constructor
        · intro l h; cases h
        · intro e' h; cases h; exact h2 _ hm
      | ok l =>
        constructor
        · intro l' h
          cases h
          rw [h1 _ hm, List.foldl_cons, dictExtend_addDict]
        · intro e' h; cases h

theorem element_dedup (ctx : FlexCtx K) (f : Flex K) (o : Nat → Py (Pgon K)) :
    f.dedup.element ctx o = f.element ctx o := by
  funext k
  unfold Flex.dedup
  simp only
  split <;> rfl

theorem dedup_n (f : Flex K) : f.dedup.n = f.n := by
  unfold Flex.dedup
  simp only
  split <;> rfl

theorem compute_elements (ctx : FlexCtx K) (f : Flex K) :
    (∀ l, f.elements ctx = .ok l → (f.compute ctx).2 = (l.foldl (fun d e => dictExtend e.1 e.2 d) [], none)) ∧
    (∀ e, f.elements ctx = .error e → (f.compute ctx).2.2 = some e) := by
  unfold Flex.elements Flex.compute Flex.outlines
  by_cases h2 : f.points.length = 2
  · obtain ⟨p, q, hp⟩ := List.length_eq_two.1 h2
    rw [if_pos h2, if_pos h2, hp]
    simp only
    by_cases hpq : p = q
    · rw [if_pos hpq, if_pos hpq]
      constructor
      · intro l h; cases h; rfl
      · intro e h; cases h
    · rw [if_neg hpq, if_neg hpq]
      exact forPolys_elements ctx f _ _ _
  · rw [if_neg h2, if_neg h2]
    simp only
    have := forPolys_elements ctx f.dedup (f.dedup.manyOf ctx) (List.range f.dedup.n) []
    rw [element_dedup, dedup_n] at this
    rw [dedup_n]
    exact this

/-- The dictionary that `get_polygons(True)` returns is the one the hierarchy model works with; a path that raises has no
polygons there. -/
theorem flexOps_dict (ctx : FlexCtx K) {f : Flex K} (hc : f.cache = none) :
    (∀ d, (f.getPolygons ctx).2 = .ok d → (flexOps ctx).dict f = d) ∧
    (∀ e, (f.getPolygons ctx).2 = .error e → (flexOps ctx).dict f = []) := by
  obtain ⟨h1, h2⟩ := compute_elements ctx f
  unfold Flex.getPolygons PathOps.dict flexOps
  rw [hc]
  simp only
  generalize f.compute ctx = x at h1 h2 ⊢
  obtain ⟨g, d, er⟩ := x
  cases he : f.elements ctx with
  | error e =>
    have := h2 e he
    simp only at this
    subst this
    constructor
    · intro d h; cases h
    · intro d h; simp only [hc]; rfl
  | ok l =>
    have := h1 l he
    simp only [Prod.mk.injEq] at this
    obtain ⟨rfl, rfl⟩ := this
    constructor
    · intro d h; cases h; simp only [hc]
    · intro e h; cases h

/-! ### Transformations -/

theorem mapM_rel {α β γ : Type} {R : β → γ → Prop} {f : α → Py β} {g : α → Py γ} (l : List α)
    (h : ∀ a ∈ l, PyRel R (f a) (g a)) : PyRel (List.Forall₂ R) (l.mapM f) (l.mapM g) := by
  induction l with
  | nil => exact .ok .nil
  | cons a l ih =>
    simp only [List.mapM_cons]
    refine (h a (by simp)).bind fun x y _ hxy => ?_
    refine (ih fun b hb => h b (by simp [hb])).bind fun xs ys _ hxs => ?_
    exact .ok (.cons hxy hxs)

theorem outlines_moved {ctx : FlexCtx K} (ht : Num.Polar ctx.num) (hl : Num.Laws ctx.num) {A : Aff K} {k e : K}
    (h : Similar A k e) {f : Flex K} (hf : Plain k f) :
    ((moved A k e f).outlines ctx).1 = (f.outlines ctx).1 ∧
      ∀ i ∈ (f.outlines ctx).1, PyRel (ImageOf A e) ((f.outlines ctx).2 i) (((moved A k e f).outlines ctx).2 i) := by
  by_cases h2 : f.points.length = 2
  · obtain ⟨p, q, hp⟩ := List.length_eq_two.1 h2
    have hp' : (moved A k e f).points = [A.app p, A.app q] := by unfold moved; rw [hp]; rfl
    unfold Flex.outlines
    rw [if_pos h2, if_pos (by rw [hp']; rfl), hp, hp']
    have hi : Function.Injective A.app := fun _ _ => h.inj
    simp only [hi.eq_iff]
    by_cases hpq : p = q
    · rw [if_pos hpq, if_pos hpq]
      exact ⟨rfl, by simp⟩
    · rw [if_neg hpq, if_neg hpq]
      exact ⟨rfl, fun i _ => twoOf_moved ht hl h hf hp hpq i⟩
  · have h2' : ¬ (moved A k e f).points.length = 2 := by
      intro h3; apply h2; rw [← h3]; unfold moved; simp
    unfold Flex.outlines
    rw [if_neg h2, if_neg h2', dedup_moved h]
    refine ⟨rfl, fun i _ => ?_⟩
    have hd : f.dedup.corners = f.corners ∧ f.dedup.ends = f.ends := by
      unfold Flex.dedup; split <;> exact ⟨rfl, rfl⟩
    have ho : ∀ r ∈ f.dedup.offsets, r ∈ f.offsets := by
      unfold Flex.dedup
      split
      · exact fun r hr => hr
      · intro r hr
        simp only [List.mem_map] at hr
        obtain ⟨x, hx, rfl⟩ := hr
        have := (dedupRows_sublist _).subset hx
        exact (List.of_mem_zip (List.of_mem_zip this).2).2
    refine manyOf_moved ht hl h (by rw [hd.1]; exact hf.corners) (fun c hc => ?_) i
    rw [hd.2] at hc
    exact (hf.ends c hc).imp id fun ⟨h1, h2', h3⟩ => ⟨h1, h2', f.dedup_chain, fun r hr => (h3.resolve_left h2) r (ho r hr)⟩

theorem elements_moved_small {ctx : FlexCtx K} (ht : Num.Polar ctx.num) (hl : Num.Laws ctx.num) {A : Aff K} {k e : K}
    (h : Similar A k e) {f : Flex K} (hf : Plain k f) (hm : f.maxPoints ≤ 4) :
    PyRel (DictRel (ImageOf A e)) (f.elements ctx) ((moved A k e f).elements ctx) := by
  obtain ⟨h1, h2⟩ := outlines_moved ht hl h hf (ctx := ctx)
  unfold Flex.elements
  rw [h1]
  refine mapM_rel _ fun i hi => ?_
  unfold Flex.element
  refine (h2 i hi).bind fun x y _ hxy => ?_
  have e1 : (moved A k e f).maxPoints = f.maxPoints := rfl
  have e2 : (moved A k e f).layers = f.layers := rfl
  have e3 : (moved A k e f).datatypes = f.datatypes := rfl
  rw [e1, e2, e3, flexPieces_small _ _ hm, flexPieces_small _ _ hm]
  simp only [bind, Except.bind]
  cases idx f.layers i with
  | error e => exact .error e
  | ok l =>
    cases idx f.datatypes i with
    | error e => exact .error e
    | ok dt => exact .ok ⟨rfl, .cons hxy .nil⟩

theorem outlines_unlimited (ctx : FlexCtx K) (f : Flex K) : (unlimited f).outlines ctx = f.outlines ctx := by
  have hu : (unlimited f).dedup = unlimited f.dedup := by
    unfold Flex.dedup unlimited
    simp only
    split <;> rfl
  unfold Flex.outlines
  rw [hu]
  rfl

theorem elements_within {ctx : FlexCtx K} (hc : 2 ≤ ctx.fuel) {f : Flex K} {l : List ((Int × Int) × List (Pgon K))}
    (h : (unlimited f).elements ctx = .ok l) (hm : ∀ x ∈ l, ∀ p ∈ x.2, p.length ≤ f.maxPoints) : f.elements ctx = .ok l := by
  unfold Flex.elements at h ⊢
  rw [outlines_unlimited] at h
  generalize (f.outlines ctx).1 = is at h ⊢
  induction is generalizing l with
  | nil => exact h
  | cons i is ih =>
    simp only [List.mapM_cons] at h ⊢
    obtain ⟨x, hx, h⟩ := bind_ok_inv h
    obtain ⟨xs, hxs, h⟩ := bind_ok_inv h
    cases h
    rw [ih (fun y hy => hm y (by simp [hy])) hxs]
    have : f.element ctx (f.outlines ctx).2 i = .ok x := by
      unfold Flex.element at hx ⊢
      obtain ⟨p, hp, hx⟩ := bind_ok_inv hx
      rw [hp]
      rw [flexPieces_small _ _ (show (unlimited f).maxPoints ≤ 4 from Nat.zero_le _)] at hx
      simp only [bind, Except.bind] at hx ⊢
      cases h1 : idx f.layers i with
      | error e => rw [show (unlimited f).layers = f.layers from rfl, h1] at hx; cases hx
      | ok a =>
        cases h2 : idx f.datatypes i with
        | error e =>
          rw [show (unlimited f).layers = f.layers from rfl, show (unlimited f).datatypes = f.datatypes from rfl, h1, h2] at hx
          cases hx
        | ok b =>
          rw [show (unlimited f).layers = f.layers from rfl, show (unlimited f).datatypes = f.datatypes from rfl, h1, h2] at hx
          cases hx
          rw [flexPieces_within hc _ (hm ((a, b), [p]) (by simp) p (by simp))]
          rfl
    rw [this]
    rfl

theorem elements_moved {ctx : FlexCtx K} (ht : Num.Polar ctx.num) (hl : Num.Laws ctx.num) {A : Aff K} {k e : K}
    (h : Similar A k e) {f : Flex K} (hf : Plain k f)
    (hw : f.maxPoints ≤ 4 ∨ (2 ≤ ctx.fuel ∧ ∃ l, (unlimited f).elements ctx = .ok l ∧
      ∀ x ∈ l, ∀ p ∈ x.2, p.length ≤ f.maxPoints)) :
    PyRel (DictRel (ImageOf A e)) (f.elements ctx) ((moved A k e f).elements ctx) ∧
    (f.maxPoints ≤ 4 ∨ (2 ≤ ctx.fuel ∧ ∃ l, (unlimited (moved A k e f)).elements ctx = .ok l ∧
      ∀ x ∈ l, ∀ p ∈ x.2, p.length ≤ f.maxPoints)) := by
  rcases hw with hw | ⟨hc, l, hl', hw⟩
  · exact ⟨elements_moved_small ht hl h hf hw, .inl hw⟩
  · have h1 := elements_moved_small ht hl h (f := unlimited f) ⟨hf.corners, hf.ends⟩ (Nat.zero_le _) (ctx := ctx)
    rw [hl'] at h1
    have hu : moved A k e (unlimited f) = unlimited (moved A k e f) := rfl
    rw [hu] at h1
    generalize hg : (unlimited (moved A k e f)).elements ctx = r at h1
    cases h1 with
    | ok h1 =>
      rename_i l'
      have h2 := dictRel_length h1 hw
      refine ⟨?_, .inr ⟨hc, l', rfl, h2⟩⟩
      rw [elements_within hc hl' hw, elements_within hc hg h2]
      exact .ok h1

/-- The paths described by `FlexOk` move as references ask for. -/
theorem flexOps_geom {ctx : FlexCtx K} (ht : Num.Polar ctx.num) (hl : Num.Laws ctx.num) {t : Trig K}
    (hd : Degrees t ctx.num) (scaled : Prop) : GeomPaths t (flexOps ctx) (PlainRef scaled) (FlexOk scaled ctx) := by
  have key : ∀ (r : RefData K) (s : Option (Pt K)) (f : Flex K), PlainRef scaled r → FlexOk scaled ctx f →
      (flexOps ctx).elems ((flexOps ctx).transform r.origin r.rotation r.magnification r.xrefl s f) =
        mapElems (pathMap ctx.num r.origin (r.rotation.map fun a => a * (2 * ctx.num.halfpi) / 180) r.magnification false s).app
          ((flexOps ctx).elems f) ∧
      FlexOk scaled ctx ((flexOps ctx).transform r.origin r.rotation r.magnification r.xrefl s f) := by
    intro r s f hr hf
    have hs : ∀ m, r.magnification = some m → 0 < m := fun m hm => (hr.2 m hm).2
    have hp : Plain (r.magnification.getD 1) f := by
      refine ⟨hf.corners, fun c hc => (hf.ends c hc).imp id fun ⟨h1, h2, h3⟩ => ⟨h1, ?_, h3⟩⟩
      cases hm : r.magnification with
      | none => rfl
      | some m => exact absurd (hr.2 m hm).1 h2
    have hw : r.magnification = none ∨ f.widthTransform = true ∨ f.gdsiiPath = false := by
      cases hm : r.magnification with
      | none => exact .inl rfl
      | some m => exact .inr (hf.scaled (hr.2 m hm).1).1
    have he : r.magnification = none ∨ ∀ c ∈ f.ends, ∀ a b, c ≠ .pair a b := by
      cases hm : r.magnification with
      | none => exact .inl rfl
      | some m => exact .inr (hf.scaled (hr.2 m hm).1).2
    obtain ⟨h1, h2⟩ := elements_moved ht hl
      (pathMap_similar hl r.origin (r.rotation.map fun a => a * (2 * ctx.num.halfpi) / 180) r.magnification false s hs)
      hp hf.whole
    rw [transform_moved r.origin hs false s hw he (by simp)] at h1 h2
    simp only [Bool.false_eq_true, if_false] at h1 h2
    have h3 := pyRel_one h1
    have hx : (flexOps ctx).transform r.origin r.rotation r.magnification r.xrefl s f =
        f.transform ctx.num r.origin (r.rotation.map fun a => a * (2 * ctx.num.halfpi) / 180) r.magnification false s := by
      unfold flexOps
      simp only [hr.1]
    rw [hx]
    refine ⟨?_, ⟨rfl, hf.layers, hf.datatypes, hf.corners, ?_, hf.scaled, h2⟩⟩
    · unfold flexOps
      simp only [hf.fresh, show (f.transform ctx.num r.origin (r.rotation.map fun a => a * (2 * ctx.num.halfpi) / 180)
        r.magnification false s).cache = none from rfl, h3]
      cases f.elements ctx <;> rfl
    · intro c hc
      refine (hf.ends c hc).imp id fun ⟨h4, h5, h6⟩ => ⟨h4, h5, ?_⟩
      unfold Flex.transform
      refine h6.imp (fun h => by simpa using h) fun h => ?_
      cases hm : r.magnification with
      | none => exact h
      | some m =>
        intro row hrow o ho
        simp only [List.mem_map] at hrow
        obtain ⟨row', hrow', rfl⟩ := hrow
        simp only [List.mem_map] at ho
        obtain ⟨o', ho', rfl⟩ := ho
        rw [h row' hrow' o' ho', zero_mul]
  have hmap : ∀ (r : RefData K) (s : Option (Pt K)), PlainRef scaled r →
      pathMap ctx.num r.origin (r.rotation.map fun a => a * (2 * ctx.num.halfpi) / 180) r.magnification false s =
      ((Aff.place t r).comp (Aff.mirror r)).comp ((Aff.opt s .shift).comp (Aff.opt r.magnification .scale)) := by
    intro r s hr
    have hm : Aff.mirror r = (Aff.id : Aff K) := by
      unfold Aff.mirror
      rw [if_neg]
      intro h
      have := hr.1
      rw [h] at this
      cases this
    have hrot : (Aff.opt (r.rotation.map fun a => a * (2 * ctx.num.halfpi) / 180)
        fun a => Aff.rotate (ctx.num.cos a) (ctx.num.sin a)) = Aff.opt r.rotation fun a => .rotate (t.cos a) (t.sin a) := by
      unfold Aff.opt
      cases r.rotation with
      | none => rfl
      | some a => simp only [Option.map_some, Option.getD_some, (hd a).1, (hd a).2]
    have hid : ∀ A : Aff K, (Aff.id : Aff K).comp A = A ∧ A.comp (Aff.id : Aff K) = A := by
      intro A
      obtain ⟨a, b, c, d, e, f⟩ := A
      simp [Aff.comp, Aff.id]
    unfold pathMap Aff.place
    rw [hm, hrot, (hid _).2]
    simp only [Bool.false_eq_true, if_false]
    rw [(hid _).1]
  constructor
  · intro r p hr hp
    have := (key r none p hr hp).1
    rw [this, hmap r none hr]
    have hid : (Aff.opt (none : Option (Pt K)) .shift).comp (Aff.opt r.magnification .scale) =
        Aff.opt r.magnification .scale := by
      generalize (Aff.opt r.magnification .scale : Aff K) = A
      obtain ⟨a, b, c, d, e, f⟩ := A
      simp [Aff.opt, Aff.comp, Aff.id]
    rw [hid]
  · intro r s p hr hp
    have := (key r (some s) p hr hp).1
    rw [this, hmap r (some s) hr]
    rfl
  · intro r s p hr hp
    exact (key r s p hr hp).2

theorem element_relabel (ctx : FlexCtx K) {f : Flex K} (hl : f.layers.length = f.n) (hd : f.datatypes.length = f.n)
    (l d : Option Int) (o : Nat → Py (Pgon K)) {i : Nat} (hi : i < f.n) :
    (f.relabel l d).element ctx o i = (f.element ctx o i).map fun e => ((l.getD e.1.1, d.getD e.1.2), e.2) := by
  have hx : ∀ (m : List Int) (x : Option Int), m.length = f.n →
      idx (overwrite f.n x m) i = (idx m i).map fun a => x.getD a := by
    intro m x hm
    have : i < m.length := by omega
    cases x with
    | none => simp only [overwrite, idx, Option.getD_none]; rw [List.getElem?_eq_getElem this]; rfl
    | some y => simp only [overwrite, idx, Option.getD_some]; rw [List.getElem?_eq_getElem this, List.getElem?_replicate, if_pos hi]; rfl
  unfold Flex.element
  simp only [Flex.relabel]
  cases o i with
  | error e => rfl
  | ok p =>
    simp only [bind, Except.bind]
    cases flexPieces ctx f.precision f.maxPoints p with
    | error e => rfl
    | ok ps =>
      simp only
      rw [hx _ _ hl, hx _ _ hd]
      cases idx f.layers i with
      | error e => rfl
      | ok a =>
        cases idx f.datatypes i with
        | error e => rfl
        | ok b => rfl

/-- Setting layers and datatypes of such paths changes just those. -/
theorem flexOps_relabel (scaled : Prop) (ctx : FlexCtx K) : RelabelPaths (flexOps ctx) (FlexOk scaled ctx) := by
  intro l d f hf
  have hi : ∀ i ∈ (f.outlines ctx).1, i < f.n := by
    unfold Flex.outlines
    intro i
    split
    · split
      · split <;> simp
      · simp
    · simp
  have ho : (f.relabel l d).outlines ctx = f.outlines ctx := by
    have hdd : (f.relabel l d).dedup = f.dedup.relabel l d := by
      unfold Flex.dedup Flex.relabel
      simp only
      split <;> rfl
    unfold Flex.outlines
    rw [hdd]
    rfl
  have he : (f.relabel l d).elements ctx =
      (f.elements ctx).map (List.map fun e => ((l.getD e.1.1, d.getD e.1.2), e.2)) := by
    unfold Flex.elements
    rw [ho]
    generalize (f.outlines ctx).1 = is at hi ⊢
    induction is with
    | nil => rfl
    | cons i is ih =>
      simp only [List.mapM_cons]
      rw [element_relabel ctx hf.layers hf.datatypes l d _ (hi i (by simp)), ih fun j hj => hi j (by simp [hj])]
      cases f.element ctx (f.outlines ctx).2 i with
      | error e => rfl
      | ok x =>
        cases is.mapM (f.element ctx (f.outlines ctx).2) with
        | error e => rfl
        | ok xs => rfl
  unfold flexOps
  simp only [hf.fresh, show (f.relabel l d).cache = none from hf.fresh, he]
  cases f.elements ctx <;> rfl

/-! ### Cells -/

/-- **C32 (FlexPaths, partial).** In a hierarchy with FlexPaths, `flatten` keeps all polygons with their layers and
datatypes (except those overwritten), the area and the bounding box. Partial: no reflected references above paths; no
cached polygons; natural, miter or bevel corners, and flush, extended or (if there are no magnifications) round or tuple ends;
polygons that are not cut. -/
theorem C32_flex_partial {ctx : FlexCtx K} (ht : Num.Polar ctx.num) (hl : Num.Laws ctx.num) {t : Trig K}
    (htl : Spec.Trig.Laws t) (hd : Degrees t ctx.num) {scaled : Prop} {c : HCell K (Flex K)}
    (hc : PathsOk (PlainRef scaled) (FlexOk scaled ctx) c) (sl sd st : Option Int) :
    (c.flatten (flexOps ctx) t sl sd st).references = .nil ∧
    (flat (flexOps ctx) t none (c.flatten (flexOps ctx) t sl sd st)).Perm
      ((flat (flexOps ctx) t none c).map fun e => (relabelKey sl sd e.1, e.2)) ∧
    ((c.flatten (flexOps ctx) t sl sd st).polys (flexOps ctx) t none).Perm (c.polys (flexOps ctx) t none) ∧
    (c.flatten (flexOps ctx) t sl sd st).area (flexOps ctx) = c.area (flexOps ctx) ∧
    (c.flatten (flexOps ctx) t sl sd st).bbox (flexOps ctx) t = c.bbox (flexOps ctx) t := by
  have hg := flexOps_geom ht hl hd scaled
  have hr := flexOps_relabel scaled ctx
  exact ⟨rfl, (C32_flatten_polygons hg hr sl sd st c hc).2, C32_flatten_get_polygons hg hr sl sd st c hc,
    C32_flatten_area htl.pyth hg hr sl sd st c hc, C32_flatten_bbox htl.card hg hr sl sd st c hc⟩

/-- **C37 (FlexPaths, partial).** A transformed copy of a cell with FlexPaths has the images of its polygons, for the paths and
references for which that holds. -/
theorem C37_flex_partial {ctx : FlexCtx K} (ht : Num.Polar ctx.num) (hl : Num.Laws ctx.num) {t : Trig K}
    (htl : Spec.Trig.Laws t) (hd : Degrees t ctx.num) {scaled : Prop} (name : Str) (a : CopyArgs K)
    {c : HCell K (Flex K)} (hw : c.paths = [] ∨ PlainRef scaled a.asRef) (hq : ∀ p ∈ c.paths, FlexOk scaled ctx p)
    (hr : EachRef (CopyOk a) c.references) :
    ∃ c', c.copy (flexOps ctx) t name a = .ok c' ∧ c'.name = name ∧
      c'.polys (flexOps ctx) t none = (c.polys (flexOps ctx) t none).map (List.map (refPt t a.asRef)) ∧
      ∀ l dt, c'.polysOf (flexOps ctx) t none l dt =
        (c.polysOf (flexOps ctx) t none l dt).map (List.map (refPt t a.asRef)) :=
  C37_copy_partial htl (flexOps_geom ht hl hd scaled) name a c hw hq hr

theorem realNum_degrees : Degrees realTrig realNum := by
  intro a
  have : a * (2 * realNum.halfpi) / 180 = a * Real.pi / 180 := by
    simp only [realNum]; ring
  rw [this]
  exact ⟨rfl, rfl⟩

/-- A path with a corner and two parallel elements. -/
noncomputable def cornerPath : Flex ℝ :=
  { points := [(0, 0), (10, 0), (10, 10)]
    widths := [[2, 1], [2, 1], [4, 1]]
    offsets := [[-3, 3], [-3, 3], [-3, 3]]
    n := 2
    ends := [.flush, .extended]
    corners := [.natural, .bevel]
    bendRadius := [none, none]
    layers := [1, 2]
    datatypes := [0, 0]
    tolerance := 1 / 100
    precision := 1 / 1000
    maxPoints := 0
    gdsiiPath := false
    widthTransform := true
    cache := none }

/-- The hypotheses hold for a cell with an array of magnified, rotated references to a cell with that path. -/
example (ctx : FlexCtx ℝ) : PathsOk (PlainRef True) (FlexOk True ctx)
    (.mk ['T'] [] [] [] (.cell ⟨some (1, 2), some 30, some 3, none, some (2, 3, (50, 60))⟩
      (.mk ['P'] [] [cornerPath] [] .nil) .nil) : HCell ℝ (Flex ℝ)) := by
  simp only [PathsOk, PathsOkRefs]
  refine ⟨by simp, .inl ⟨rfl, ?_⟩, ⟨?_, trivial⟩, trivial⟩
  · intro s hs
    cases hs
    exact ⟨trivial, by norm_num⟩
  · intro p hp
    rw [List.mem_singleton] at hp
    subst hp
    refine ⟨rfl, rfl, rfl, ?_, ?_, fun _ => ⟨.inl rfl, ?_⟩, .inl (Nat.zero_le _)⟩
    · intro c hc
      simp only [cornerPath, List.mem_cons, List.not_mem_nil, or_false] at hc
      rcases hc with rfl | rfl <;> simp [StraightCorner]
    · intro c hc
      simp only [cornerPath, List.mem_cons, List.not_mem_nil, or_false] at hc
      rcases hc with rfl | rfl <;> simp [StraightEnd]
    · intro c hc
      simp only [cornerPath, List.mem_cons, List.not_mem_nil, or_false] at hc
      rcases hc with rfl | rfl <;> simp

/-! ### Cells that change when they are flattened -/

/-- A path from (0, 0) to (10, 0) with the offset `o`. -/
def offsetTen (o : ℚ) : Flex ℚ := { tenFlex [(0, 0), (10, 0)] .flush with offsets := [[o], [o]] }

/-- A cell with a path, and one that refers to it. -/
def pathCell (p : Flex ℚ) : HCell ℚ (Flex ℚ) := .mk ['P'] [] [p] [] .nil

def overCell (r : RefData ℚ) (p : Flex ℚ) : HCell ℚ (Flex ℚ) := .mk ['T'] [] [] [] (.cell r (pathCell p) .nil)

/-- **C32**, violated: `flatten(single_layer=5)` after the polygons of the path have been asked for. The polygons are
still found on the layer before, and none on layer 5, although the path says that it is on layer 5. -/
theorem C32_flatten_stale_layers :
    let asked := ((offsetTen 0).getPolygons tenCtx).1
    let c := (pathCell asked).flatten (flexOps tenCtx) ratTrig (some 5) none none
    c.paths.map Flex.layers = [[5]] ∧
    c.polysOf (flexOps tenCtx) ratTrig none 5 0 = [] ∧
    c.polysOf (flexOps tenCtx) ratTrig none 0 0 = [[(0, -1), (0, 1), (10, 1), (10, -1)]] ∧
    ((pathCell (offsetTen 0)).flatten (flexOps tenCtx) ratTrig (some 5) none none).polysOf (flexOps tenCtx) ratTrig none 5 0 =
      [[(0, -1), (0, 1), (10, 1), (10, -1)]] := by
  decide +kernel

/-- **C32**, violated: flattening a reflected reference to a path with an offset moves the path to the other side. -/
theorem C32_flatten_reflected_offset :
    let c := overCell ⟨some (0, 0), none, none, some true, none⟩ (offsetTen 3)
    c.polys (flexOps tenCtx) ratTrig none = [[(0, -2), (0, -4), (10, -4), (10, -2)]] ∧
    (c.flatten (flexOps tenCtx) ratTrig none none none).polys (flexOps tenCtx) ratTrig none =
      [[(0, 2), (0, 4), (10, 4), (10, 2)]] := by
  decide +kernel

/-- **C32**, violated: flattening a magnified reference to a path whose ends are given as numbers does not scale these. -/
theorem C32_flatten_magnified_ends :
    let c := overCell ⟨some (0, 0), none, some 2, none, none⟩ (tenFlex [(0, 0), (5, 0)] (.pair 3 4))
    c.polys (flexOps tenCtx) ratTrig none ≠ (c.flatten (flexOps tenCtx) ratTrig none none none).polys (flexOps tenCtx) ratTrig none := by
  decide +kernel

end Gdspy
