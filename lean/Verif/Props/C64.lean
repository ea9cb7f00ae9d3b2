import Verif.Spec.Svg
import Verif.Props.C35
import Verif.Lemmas.Struct

/-!
# C64: the SVG document draws the layout
-/

set_option linter.unusedSectionVars false

namespace Gdspy

open Spec

variable {K P : Type} [Field K] [LinearOrder K] [IsStrictOrderedRing K]

/-! ### Transformations -/

theorem svgApp_append (t : Trig K) (l m : List (SvgT K)) (p : Pt K) :
    svgApp t (l ++ m) p = svgApp t l (svgApp t m p) := by
  unfold svgApp
  rw [List.foldr_append]

/-- The transformation written for a reference is the placement of the cell, on scaled coordinates. -/
theorem svgApp_ref (t : Trig K) (s : K) (r : RefData K) (tr : List (SvgT K)) (h : refTransforms s r = .ok tr)
    (p : Pt K) : svgApp t (tr ++ magTransforms r) (s * p.1, s * p.2) =
      (s * ((((Aff.place t r).comp (Aff.mirror r)).comp (Aff.opt r.magnification .scale)).app p).1,
       s * ((((Aff.place t r).comp (Aff.mirror r)).comp (Aff.opt r.magnification .scale)).app p).2) := by
  obtain ⟨o, a, m, x, arr⟩ := r
  cases o with
  | none => cases h
  | some o =>
    cases h
    rcases x with _ | _ | _ <;> cases a <;> cases m <;>
      simp [svgApp, svgPt, magTransforms, Aff.place, Aff.mirror, Aff.opt, Aff.app, Aff.comp, Aff.id, Aff.shift,
        Aff.rotate, Aff.scale, Aff.reflect] <;> constructor <;> ring

/-- The same for one column and row of an array. -/
theorem svgApp_arr (t : Trig K) (s : K) (r : RefData K) (tr : List (SvgT K)) (h : refTransforms s r = .ok tr)
    (v : Pt K) (i j : K) (p : Pt K) :
    svgApp t (tr ++ [.translate (s * v.1 * i) (s * v.2 * j)] ++ magTransforms r) (s * p.1, s * p.2) =
      (s * ((((Aff.place t r).comp (Aff.mirror r)).comp
          ((Aff.shift (v.1 * i, v.2 * j)).comp (Aff.opt r.magnification .scale))).app p).1,
       s * ((((Aff.place t r).comp (Aff.mirror r)).comp
          ((Aff.shift (v.1 * i, v.2 * j)).comp (Aff.opt r.magnification .scale))).app p).2) := by
  obtain ⟨o, a, m, x, arr⟩ := r
  cases o with
  | none => cases h
  | some o =>
    cases h
    rcases x with _ | _ | _ <;> cases a <;> cases m <;>
      simp [svgApp, svgPt, magTransforms, Aff.place, Aff.mirror, Aff.opt, Aff.app, Aff.comp, Aff.id, Aff.shift,
        Aff.rotate, Aff.scale, Aff.reflect] <;> constructor <;> ring

/-! ### Drawing -/

/-- Polygons with their specification, scaled. -/
def scaleTags (s : K) (l : List (SpecKey × Pgon K)) : List (SpecKey × Pgon K) :=
  moveTags (fun p => (s * p.1, s * p.2)) l

/-- The polygons drawn, with the keys of `get_polygons`. -/
def drawKeys (l : List ((Int × Int) × Pgon K)) : List (SpecKey × Pgon K) :=
  l.map fun q => (SpecKey.ld q.1.1 q.1.2, q.2)

theorem svgDraw_append (t : Trig K) (g : List (Str × List (SvgEl K))) (n : Nat) (a b : List (SvgEl K)) :
    svgDraw t g n (a ++ b) = svgDraw t g n a ++ svgDraw t g n b := by
  cases n with
  | zero => rfl
  | succ n => simp only [svgDraw, List.flatMap_append]

theorem svgDraw_flatten (t : Trig K) (g : List (Str × List (SvgEl K))) (n : Nat) (l : List (List (SvgEl K))) :
    svgDraw t g n l.flatten = l.flatMap (svgDraw t g n) := by
  induction l with
  | nil => cases n <;> rfl
  | cons a l ih => rw [List.flatten_cons, svgDraw_append, ih, List.flatMap_cons]

theorem flatten_map_single {α β : Type} (f : α → β) (l : List α) : (l.map fun x => [f x]).flatten = l.map f := by
  induction l with
  | nil => rfl
  | cons a l ih => rw [List.map_cons, List.flatten_cons, ih, List.map_cons, List.singleton_append]

theorem dictExtend_tags {κ α β : Type} [DecidableEq κ] (f : κ → α → β) (k : κ) (v : List α) (d : List (κ × List α)) :
    ((dictExtend k v d).flatMap fun e => e.2.map (f e.1)).Perm ((d.flatMap fun e => e.2.map (f e.1)) ++ v.map (f k)) := by
  induction d with
  | nil => simp [dictExtend]
  | cons e d ih =>
    obtain ⟨k', v'⟩ := e
    unfold dictExtend
    split
    · rename_i h
      subst h
      simp only [List.flatMap_cons, List.map_append, List.append_assoc]
      exact List.Perm.append_left _ List.perm_append_comm
    · simp only [List.flatMap_cons, List.append_assoc]
      exact List.Perm.append_left _ ih

theorem dictFold_tags {κ α β : Type} [DecidableEq κ] (f : κ → α → β) (l : List (κ × List α)) (d : List (κ × List α)) :
    ((l.foldl (fun d e => dictExtend e.1 e.2 d) d).flatMap fun e => e.2.map (f e.1)).Perm
      ((d.flatMap fun e => e.2.map (f e.1)) ++ l.flatMap fun e => e.2.map (f e.1)) := by
  induction l generalizing d with
  | nil => simp
  | cons e l ih =>
    rw [List.foldl_cons, List.flatMap_cons, ← List.append_assoc]
    exact (ih _).trans (List.Perm.append_right _ (dictExtend_tags f e.1 e.2 d))

theorem draw_polySets (t : Trig K) (g : List (Str × List (SvgEl K))) (n : Nat) (s : K) (l : List (PolySet K))
    (ha : ∀ ps ∈ l, Aligned ps) :
    drawKeys (svgDraw t g (n + 1) (l.flatMap (polySetSvg s))) = scaleTags s (setTags l) := by
  have one : ∀ ps : PolySet K, Aligned ps →
      drawKeys (svgDraw t g (n + 1) (polySetSvg s ps)) = scaleTags s (setTags [ps]) := by
    intro ps ⟨h1, h2⟩
    unfold polySetSvg setTags scaleTags moveTags drawKeys
    rw [svgDraw, List.flatMap_map, List.flatMap_cons, List.flatMap_nil, List.append_nil, List.map_map]
    have e : (ps.polygons.zip (ps.layers.zip ps.datatypes)) = (List.range ps.polygons.length).map fun i =>
        (ps.polygons.getD i [], ps.layers.getD i 0, ps.datatypes.getD i 0) := by
      apply List.ext_getElem
      · simp [h1, h2]
      · intro i hi1 hi2
        have hi : i < ps.polygons.length := by simpa using hi2
        simp [List.getElem_zip, hi, h1, h2]
    rw [e, List.flatMap_map]
    simp [Function.comp_def, List.flatMap_def, List.map_map]
    exact flatten_map_single _ _
  induction l with
  | nil => rfl
  | cons ps l ih =>
    rw [List.flatMap_cons, svgDraw_append]
    have h1 := one ps (ha ps List.mem_cons_self)
    have h2 := ih fun q hq => ha q (List.mem_cons_of_mem _ hq)
    unfold drawKeys at h1 h2 ⊢
    rw [List.map_append, h1, h2, show ps :: l = [ps] ++ l from rfl, setTags_append]
    simp [scaleTags, moveTags]

theorem draw_paths (ops : PathOps K P) (t : Trig K) (g : List (Str × List (SvgEl K))) (n : Nat) (s : K)
    (l : List P) :
    (drawKeys (svgDraw t g (n + 1) (l.flatMap (pathSvg ops s)))).Perm (scaleTags s (pathTags ops l)) := by
  induction l with
  | nil => exact List.Perm.refl _
  | cons p l ih =>
    rw [List.flatMap_cons, svgDraw_append]
    unfold drawKeys at ih ⊢
    rw [List.map_append]
    have e : scaleTags s (pathTags ops (p :: l)) = scaleTags s (pathTags ops [p]) ++ scaleTags s (pathTags ops l) := by
      simp [scaleTags, moveTags, pathTags]
    rw [e]
    refine List.Perm.append ?_ ih
    have h1 : (svgDraw t g (n + 1) (pathSvg ops s p)).map (fun q => (SpecKey.ld q.1.1 q.1.2, q.2)) =
        scaleTags s ((ops.dict p).flatMap fun e => e.2.map fun pts => (SpecKey.ld e.1.1 e.1.2, pts)) := by
      unfold pathSvg scaleTags moveTags
      rw [svgDraw, List.flatMap_assoc, List.map_flatMap, List.map_flatMap]
      congr 1
      funext e
      rw [List.flatMap_map]
      simp [List.flatMap_def, List.map_map, Function.comp_def]
      exact flatten_map_single _ _
    rw [h1]
    unfold scaleTags moveTags
    refine List.Perm.map _ ?_
    have := dictFold_tags (fun (k : Int × Int) (pts : Pgon K) => (SpecKey.ld k.1 k.2, pts)) (ops.elems p) []
    simpa [pathTags, PathOps.dict] using this

theorem py_mapM_cons {α β : Type} {f : α → Py β} {a : α} {l : List α} {r : List β}
    (h : (a :: l).mapM f = .ok r) : ∃ b s, f a = .ok b ∧ l.mapM f = .ok s ∧ r = b :: s := by
  rw [List.mapM_cons] at h
  cases hb : f a with
  | error e => rw [hb] at h; cases h
  | ok b =>
    rw [hb] at h
    cases hs : l.mapM f with
    | error e => rw [hs] at h; cases h
    | ok s =>
      rw [hs] at h
      cases h
      exact ⟨b, s, rfl, rfl, rfl⟩

theorem draw_labels (t : Trig K) (g : List (Str × List (SvgEl K))) (n : Nat) (s : K) (l : List (HLabel K × Nat))
    (r : List (SvgEl K)) (h : l.mapM (labelSvg s) = .ok r) : svgDraw t g (n + 1) r = [] := by
  induction l generalizing r with
  | nil => rw [List.mapM_nil] at h; cases h; rfl
  | cons a l ih =>
    obtain ⟨b, r', hb, hr, rfl⟩ := py_mapM_cons h
    unfold labelSvg at hb
    cases ha : labelAnchor a.2 with
    | error e => rw [ha] at hb; cases hb
    | ok x =>
      rw [ha] at hb
      cases hb
      rw [show ∀ (e : SvgEl K), e :: r' = [e] ++ r' from fun _ => rfl, svgDraw_append, ih r' hr]
      rfl

theorem draw_uses {ι : Type} (t : Trig K) (g : List (Str × List (SvgEl K))) (n : Nat) (s : K) (id : Str)
    (els : List (SvgEl K)) (hg : (g.find? fun x => x.1 = id) = some (id, els)) (F : List (SpecKey × Pgon K))
    (hF : (drawKeys (svgDraw t g n els)).Perm (scaleTags s F)) (I : List ι) (T : ι → List (SvgT K)) (A : ι → Aff K)
    (hT : ∀ i p, svgApp t (T i) (s * p.1, s * p.2) = (s * ((A i).app p).1, s * ((A i).app p).2)) :
    (drawKeys (svgDraw t g (n + 1) (I.map fun i => .use (T i) id))).Perm
      (scaleTags s ((I.map A).flatMap fun B => F.map fun q => (q.1, q.2.map B.app))) := by
  induction I with
  | nil => exact List.Perm.refl _
  | cons i I ih =>
    rw [List.map_cons, show ∀ (e : SvgEl K) l, e :: l = [e] ++ l from fun _ _ => rfl, svgDraw_append,
      List.map_cons, List.flatMap_cons]
    unfold drawKeys scaleTags moveTags at ih hF ⊢
    rw [List.map_append, List.map_append]
    refine List.Perm.append ?_ ih
    have e1 : svgDraw t g (n + 1) [.use (T i) id] =
        (svgDraw t g n els).map fun q => (q.1, q.2.map (svgApp t (T i))) := by
      rw [svgDraw, List.flatMap_cons, List.flatMap_nil, List.append_nil]
      simp only [hg]
    have := hF.map fun q => (q.1, q.2.map (svgApp t (T i)))
    rw [e1]
    simp only [List.map_map, Function.comp_def, hT] at this ⊢
    exact this

theorem draw_missing (t : Trig K) (g : List (Str × List (SvgEl K))) (n : Nat) (s : K) (r : RefData K) (name : Str)
    (hg : (g.find? fun x => x.1 = svgId name) = none) (U : List (SvgEl K)) (hU : refSvg s r name = .ok U) :
    svgDraw t g (n + 1) U = [] := by
  unfold refSvg at hU
  cases ht : refTransforms s r with
  | error e => rw [ht] at hU; cases hU
  | ok tr =>
    rw [ht] at hU
    have go : ∀ U : List (SvgEl K), (∀ e ∈ U, ∃ tr, e = .use tr (svgId name)) → svgDraw t g (n + 1) U = [] := by
      intro U hU
      rw [svgDraw, List.flatMap_eq_nil_iff]
      intro e he
      obtain ⟨tr, rfl⟩ := hU e he
      simp only [hg]
    cases ha : r.array with
    | none =>
      rw [py_bind_ok, ha] at hU
      cases hU
      exact go _ (by simp)
    | some a =>
      rw [py_bind_ok, ha] at hU
      cases hU
      refine go _ ?_
      intro e he
      simp only [List.mem_flatMap, List.mem_map] at he
      obtain ⟨_, _, _, _, rfl⟩ := he
      exact ⟨_, rfl⟩

theorem draw_ref (t : Trig K) (g : List (Str × List (SvgEl K))) (n : Nat) (s : K) (r : RefData K) (name : Str)
    (els : List (SvgEl K)) (hg : (g.find? fun x => x.1 = svgId name) = some (svgId name, els))
    (F : List (SpecKey × Pgon K)) (hF : (drawKeys (svgDraw t g n els)).Perm (scaleTags s F)) (U : List (SvgEl K))
    (hU : refSvg s r name = .ok U) : (drawKeys (svgDraw t g (n + 1) U)).Perm
      (scaleTags s ((placements t r).flatMap fun B => F.map fun q => (q.1, q.2.map B.app))) := by
  unfold refSvg at hU
  cases ht : refTransforms s r with
  | error e => rw [ht] at hU; cases hU
  | ok tr =>
    rw [ht] at hU
    unfold placements
    cases ha : r.array with
    | none =>
      rw [py_bind_ok, ha] at hU
      cases hU
      exact draw_uses t g n s (svgId name) els hg F hF [()] (fun _ => tr ++ magTransforms r)
        (fun _ => ((Aff.place t r).comp (Aff.mirror r)).comp (Aff.opt r.magnification .scale))
        (fun _ p => svgApp_ref t s r tr ht p)
    | some a =>
      obtain ⟨cols, rows, v⟩ := a
      rw [py_bind_ok, ha] at hU
      cases hU
      have := draw_uses t g n s (svgId name) els hg F hF
        ((List.range cols).flatMap fun i => (List.range rows).map fun j => (i, j))
        (fun ij : Nat × Nat => tr ++ [.translate (s * v.1 * (ij.1 : K)) (s * v.2 * (ij.2 : K))] ++ magTransforms r)
        (fun ij => ((Aff.place t r).comp (Aff.mirror r)).comp
          ((Aff.shift (v.1 * (ij.1 : K), v.2 * (ij.2 : K))).comp (Aff.opt r.magnification .scale)))
        (fun ij p => svgApp_arr t s r tr ht v (ij.1 : K) (ij.2 : K) p)
      simpa only [List.map_flatMap, List.map_map, Function.comp_def] using this

theorem draw_refs (ops : PathOps K P) (t : Trig K) (g : List (Str × List (SvgEl K))) (n : Nat) (s : K)
    (h : SvgHeap K P)
    (rs : List (BRef K))
    (hd : ∀ r ∈ rs, ∀ d, r.target = some d → ∃ els, (g.find? fun x => x.1 = svgId (h.name d)) =
      some (svgId (h.name d), els) ∧ ∀ x, treeOf n h.cells d = some x →
        (drawKeys (svgDraw t g n els)).Perm (scaleTags s (flat ops t none x)))
    (hu : ∀ r ∈ rs, r.target = none → (g.find? fun x => x.1 = svgId (h.unresolved r)) = none)
    (l : List (RefData K × Option (HCell K P))) (hl : rs.mapM (treeRef (treeOf n h.cells)) = some l)
    (U : List (List (SvgEl K))) (hU : (rs.mapM fun r =>
      refSvg s r.data (h.refName r)) = .ok U) :
    (drawKeys (svgDraw t g (n + 1) U.flatten)).Perm (scaleTags s (flatRefs ops t none (mkRefs l))) := by
  induction rs generalizing l U with
  | nil =>
    rw [List.mapM_nil] at hl hU
    cases hl
    cases hU
    exact List.Perm.refl _
  | cons r rs ih =>
    obtain ⟨u, U', hu1, hu2, rfl⟩ := py_mapM_cons hU
    rw [List.mapM_cons] at hl
    cases h1 : treeRef (treeOf n h.cells) r with
    | none => rw [h1] at hl; cases hl
    | some b =>
      rw [h1] at hl
      cases h2 : rs.mapM (treeRef (treeOf n h.cells)) with
      | none => rw [h2] at hl; cases hl
      | some l' =>
        rw [h2] at hl
        cases hl
        have ih' := ih (fun r' hr' => hd r' (List.mem_cons_of_mem _ hr')) (fun r' hr' => hu r' (List.mem_cons_of_mem _ hr'))
          l' h2 U' hu2
        rw [List.flatten_cons, svgDraw_append]
        unfold treeRef at h1
        cases ht : r.target with
        | none =>
          rw [ht] at h1
          cases h1
          unfold SvgHeap.refName at hu1
          rw [ht] at hu1
          rw [draw_missing t g n s r.data _ (hu r List.mem_cons_self ht) u hu1, List.nil_append, mkRefs, flatRefs]
          exact ih'
        | some d =>
          rw [ht] at h1
          simp only at h1
          cases hx : treeOf n h.cells d with
          | none => rw [hx] at h1; cases h1
          | some x =>
            rw [hx] at h1
            cases h1
            unfold SvgHeap.refName at hu1
            rw [ht] at hu1
            obtain ⟨els, hg, hF⟩ := hd r List.mem_cons_self d ht
            have h3 := draw_ref t g n s r.data (h.name d) els hg (flat ops t none x) (hF x hx) u hu1
            rw [mkRefs, flatRefs]
            unfold drawKeys scaleTags moveTags at h3 ih' ⊢
            rw [List.map_append, List.map_append]
            exact h3.append ih'

theorem draw_cell (ops : PathOps K P) (t : Trig K) (g : List (Str × List (SvgEl K))) (s : K) (h : SvgHeap K P)
    (S : Nat → Prop) (hS : ∀ a b, S a → Refers h.cells a b → S b)
    (hg : ∀ d, S d → ∃ els, (g.find? fun x => x.1 = svgId (h.name d)) = some (svgId (h.name d), els) ∧
      cellSvg ops s h d = .ok els)
    (hu : ∀ d, S d → ∀ r ∈ (h.cells d).refs, r.target = none →
      (g.find? fun x => x.1 = svgId (h.unresolved r)) = none)
    (ha : ∀ d, S d → ∀ ps ∈ (h.cells d).polygons, Aligned ps) (n : Nat) :
    ∀ (c : Nat) (x : HCell K P) (els : List (SvgEl K)), S c → treeOf n h.cells c = some x →
      cellSvg ops s h c = .ok els → (drawKeys (svgDraw t g n els)).Perm (scaleTags s (flat ops t none x)) := by
  induction n with
  | zero => intro c x els _ hx; rw [treeOf] at hx; cases hx
  | succ n ih =>
    intro c x els hc hx hels
    obtain ⟨m, refs, hm, h1, h2⟩ := treeOf_inv hx
    cases hm
    unfold cellSvg at hels
    cases hl : (h.labels c).mapM (labelSvg s) with
    | error e => rw [hl] at hels; cases hels
    | ok L =>
      rw [hl, py_bind_ok] at hels
      cases hU : ((h.cells c).refs.mapM fun r => refSvg s r.data
          (h.refName r)) with
      | error e => rw [hU] at hels; cases hels
      | ok U =>
        rw [hU] at hels
        cases hels
        have h3 := draw_refs ops t g n s h (h.cells c).refs (by
          intro r hr d hd
          obtain ⟨els, e1, e2⟩ := hg d (hS c d hc ⟨r, hr, hd⟩)
          exact ⟨els, e1, fun x hx => ih d x els (hS c d hc ⟨r, hr, hd⟩) hx e2⟩) (hu c hc) refs h1 U hU
        have h4 := draw_polySets t g n s (h.cells c).polygons (ha c hc)
        have h5 := draw_paths ops t g n s (h.cells c).paths
        have h6 := draw_labels t g n s (h.labels c) L hl
        rw [h2, flat, if_neg (by simp)]
        simp only [svgDraw_append, h6, List.append_nil]
        show (drawKeys _).Perm (scaleTags s (setTags _ ++ pathTags ops _ ++ _))
        unfold drawKeys scaleTags moveTags at h3 h4 h5 ⊢
        simp only [List.map_append]
        rw [h4]
        exact ((List.Perm.refl _).append h5).append h3

theorem find_map {α β : Type} (id : α → Str) (f : α → β) (l : List α) (a : α) (ha : a ∈ l)
    (hinj : ∀ b ∈ l, id b = id a → b = a) :
    ((l.map fun b => (id b, f b)).find? fun x => x.1 = id a) = some (id a, f a) := by
  induction l with
  | nil => cases ha
  | cons b l ih =>
    rw [List.map_cons, List.find?_cons]
    by_cases hb : id b = id a
    · have := hinj b List.mem_cons_self hb
      subst this
      simp
    · simp only [hb, decide_false]
      refine ih ?_ fun b' hb' => hinj b' (List.mem_cons_of_mem _ hb')
      rcases List.mem_cons.1 ha with rfl | ha
      · exact absurd rfl hb
      · exact ha

theorem py_mapM_pair {α β : Type} {f : α → Py (List β)} {g : α → Str} {l : List α} {r : List (Str × List β)}
    (h : (l.mapM fun d => do let x ← f d; pure (g d, x)) = .ok r) :
    (∀ d ∈ l, f d = .ok ((f d).toOption.getD [])) ∧ r = l.map fun d => (g d, (f d).toOption.getD []) := by
  induction l generalizing r with
  | nil =>
    rw [List.mapM_nil] at h
    cases h
    exact ⟨by simp, rfl⟩
  | cons a l ih =>
    obtain ⟨b, r', hb, hr, rfl⟩ := py_mapM_cons h
    obtain ⟨h1, h2⟩ := ih hr
    cases ha : f a with
    | error e => rw [ha] at hb; cases hb
    | ok y =>
      rw [ha] at hb
      cases hb
      constructor
      · intro d hd
        rcases List.mem_cons.1 hd with rfl | hd
        · rw [ha]; rfl
        · exact h1 d hd
      · rw [List.map_cons, h2, ha]; rfl

/-- **C64.** The document that `write_svg` writes draws exactly the polygons of the hierarchy, each with its
layer and datatype, scaled, with the y axis pointing down; provided that the names of the cells stay different when
number signs are replaced, and no reference has a string that is the name of one of these cells. -/
theorem C64_drawing (ops : PathOps K P) (t : Trig K) (s : K) (bg : Bool) (pad : SvgPad K) (h : SvgHeap K P)
    (bb : Option (Pt K × Pt K)) (order : List Nat) (c n : Nat) (x : HCell K P) (doc : SvgDoc K)
    (hx : treeOf n h.cells c = some x) (horder : ∀ d, d ∈ order ↔ DependsOn h.cells c d)
    (hnames : ∀ a ∈ order ++ [c], ∀ b ∈ order ++ [c], svgId (h.name a) = svgId (h.name b) → a = b)
    (hun : ∀ a ∈ order ++ [c], ∀ r ∈ (h.cells a).refs, r.target = none → ∀ b ∈ order ++ [c],
      svgId (h.unresolved r) ≠ svgId (h.name b))
    (hal : ∀ a ∈ order ++ [c], ∀ ps ∈ (h.cells a).polygons, Aligned ps)
    (hw : writeSvg ops s bg pad h bb order c = .ok (some doc)) :
    ((Spec.SvgDoc.draw t n doc).map fun q => (SpecKey.ld q.1.1 q.1.2, q.2)).Perm
      ((flat ops t none x).map fun q => (q.1, q.2.map fun p => (s * p.1, -(s * p.2)))) := by
  unfold writeSvg at hw
  cases bb with
  | none => cases hw
  | some bb =>
    simp only at hw
    cases hdefs : (order.mapM fun d => do
        let els ← cellSvg ops s h d
        pure (svgId (h.name d), els)) with
    | error e => rw [hdefs] at hw; cases hw
    | ok defs =>
      rw [hdefs, py_bind_ok] at hw
      cases htop : cellSvg ops s h c with
      | error e => rw [htop] at hw; cases hw
      | ok els =>
        rw [htop] at hw
        cases hw
        obtain ⟨h1, h2⟩ := py_mapM_pair hdefs
        have hmem : ∀ d, (d = c ∨ DependsOn h.cells c d) ↔ d ∈ order ++ [c] := by
          intro d
          rw [List.mem_append, List.mem_singleton, horder d]
          exact or_comm
        have hok : ∀ d ∈ order ++ [c], cellSvg ops s h d = .ok ((cellSvg ops s h d).toOption.getD []) := by
          intro d hd
          rcases List.mem_append.1 hd with hd | hd
          · exact h1 d hd
          · rw [List.mem_singleton.1 hd, htop]; rfl
        have hgroups : defs ++ [(svgId (h.name c), els)] = (order ++ [c]).map fun d =>
            (svgId (h.name d), (cellSvg ops s h d).toOption.getD []) := by
          rw [List.map_append, ← h2, List.map_cons, List.map_nil, htop]; rfl
        have := draw_cell ops t (defs ++ [(svgId (h.name c), els)]) s h
          (fun d => d = c ∨ DependsOn h.cells c d)
          (by
            rintro a b (rfl | ha) hab
            · exact Or.inr (.single hab)
            · exact Or.inr (.tail ha hab))
          (by
            intro d hd
            have hd := (hmem d).1 hd
            refine ⟨_, ?_, hok d hd⟩
            rw [hgroups]
            exact find_map (fun d => svgId (h.name d)) _ (order ++ [c]) d hd fun b hb e => hnames b hb d hd e)
          (by
            intro d hd r hr htgt
            rw [hgroups, List.find?_eq_none]
            intro y hy
            obtain ⟨b, hb, rfl⟩ := List.mem_map.1 hy
            simpa using fun e => hun d ((hmem d).1 hd) r hr htgt b hb e.symm)
          (fun d hd => hal d ((hmem d).1 hd)) n c x els (Or.inl rfl) hx htop
        unfold Spec.SvgDoc.draw
        unfold drawKeys scaleTags moveTags at this
        have := this.map fun q => (q.1, q.2.map (svgApp t [.flip]))
        simp only [List.map_map, Function.comp_def] at this ⊢
        exact this

/-- **C64.** With the bounding box of the cell, all that is drawn is within the view box. -/
theorem C64_view_box (ops : PathOps K P) (t : Trig K) (s : K) (hs : 0 < s) (bg : Bool) (pad : SvgPad K)
    (hpad : match pad with | .num p => 0 ≤ p | .percent p => 0 ≤ p) (x : HCell K P) (bb : Pt K × Pt K)
    (hbb : IsBBox (x.flatPolys ops t).flatten bb) :
    ∀ q ∈ (flat ops t none x).map (fun q => q.2.map fun p => (s * p.1, -(s * p.2))), ∀ p ∈ q,
      (svgViewBox s bg pad bb).1 ≤ p.1 ∧ (svgViewBox s bg pad bb).2.1 ≤ p.2 ∧
      p.1 ≤ (svgViewBox s bg pad bb).1 + (svgViewBox s bg pad bb).2.2.1 ∧
      p.2 ≤ (svgViewBox s bg pad bb).2.1 + (svgViewBox s bg pad bb).2.2.2 := by
  intro q hq p hp
  obtain ⟨e, he, rfl⟩ := List.mem_map.1 hq
  obtain ⟨v, hv, rfl⟩ := List.mem_map.1 hp
  have hv' : v ∈ (x.flatPolys ops t).flatten := by
    have hperm := polys_flat ops t none x
    rw [polys_none] at hperm
    exact List.mem_flatten.2 ⟨e.2, hperm.mem_iff.2 (List.mem_map.2 ⟨e, he, rfl⟩), hv⟩
  obtain ⟨b1, b2, b3, b4⟩ := hbb.1 v hv'
  have m1 := mul_le_mul_of_nonneg_left b1 hs.le
  have m2 := mul_le_mul_of_nonneg_left b2 hs.le
  have m3 := mul_le_mul_of_nonneg_left b3 hs.le
  have m4 := mul_le_mul_of_nonneg_left b4 hs.le
  have base : bb.1.1 * s ≤ s * v.1 ∧ -(bb.2.2 * s) ≤ -(s * v.2) ∧
      s * v.1 ≤ bb.1.1 * s + (bb.2.1 * s - bb.1.1 * s) ∧
      -(s * v.2) ≤ -(bb.2.2 * s) + (bb.2.2 * s - bb.1.2 * s) := by
    refine ⟨?_, ?_, ?_, ?_⟩ <;> linarith
  have key : ∀ p : K, 0 ≤ p → bb.1.1 * s - p ≤ s * v.1 ∧ -(bb.2.2 * s) - p ≤ -(s * v.2) ∧
      s * v.1 ≤ bb.1.1 * s - p + (bb.2.1 * s - bb.1.1 * s + 2 * p) ∧
      -(s * v.2) ≤ -(bb.2.2 * s) - p + (bb.2.2 * s - bb.1.2 * s + 2 * p) := by
    intro p hp
    obtain ⟨c1, c2, c3, c4⟩ := base
    refine ⟨?_, ?_, ?_, ?_⟩ <;> linarith
  unfold svgViewBox
  cases bg with
  | false => exact base
  | true =>
    cases pad with
    | num p => exact key p hpad
    | percent p =>
      refine key _ ?_
      have : 0 ≤ max (bb.2.1 * s - bb.1.1 * s) (bb.2.2 * s - bb.1.2 * s) := by
        refine le_max_of_le_left ?_
        linarith
      have h100 : (0 : K) < 100 := by norm_num
      exact div_nonneg (mul_nonneg this hpad) h100.le

/-- **C64.** Where the text of a label appears: text is laid out around (0, 0) with the y axis pointing down;
on the page it is the label rotated, reflected, magnified and moved to the position of the label, as the polygons
are, so that it is upright and not mirrored unless asked for. -/
theorem C64_label (t : Trig K) (ht : Trig.Laws t) (s : K) (l : HLabel K) (q : Pt K) :
    svgApp t (.flip :: labelTransforms s l) q =
      let w := ((Aff.shift (s * l.position.1, s * l.position.2)).comp
        (((Aff.opt l.rotation fun a => .rotate (t.cos a) (t.sin a)).comp
          (if l.xrefl = some true then .reflect else .id)).comp (Aff.opt l.magnification .scale))).app (q.1, -q.2)
      (w.1, -w.2) := by
  obtain ⟨text, pos, rot, mag, xr, layer, tt⟩ := l
  rcases xr with _ | _ | _ <;> cases rot <;> cases mag <;>
    simp [svgApp, svgPt, labelTransforms, Aff.opt, Aff.app, Aff.comp, Aff.id, Aff.shift,
      Aff.rotate, Aff.scale, Aff.reflect, (ht.neg _).1, (ht.neg _).2] <;>
    first | (constructor <;> ring1) | ring1

/-- **C64.** In particular the anchor point is at the position of the label. -/
theorem C64_label_position (t : Trig K) (ht : Trig.Laws t) (s : K) (l : HLabel K) :
    svgApp t (.flip :: labelTransforms s l) (0, 0) = (s * l.position.1, -(s * l.position.2)) := by
  rw [C64_label t ht]
  simp [Aff.app, Aff.comp, Aff.shift]
  constructor
  · rcases l.rotation with _ | a <;> rcases l.magnification with _ | m <;>
      by_cases hx : l.xrefl = some true <;> simp [Aff.opt, Aff.id, Aff.reflect, Aff.scale, Aff.rotate, hx]
  · rcases l.rotation with _ | a <;> rcases l.magnification with _ | m <;>
      by_cases hx : l.xrefl = some true <;> simp [Aff.opt, Aff.id, Aff.reflect, Aff.scale, Aff.rotate, hx]

/-- **C64.** Nothing is written for a cell without geometry, even if it has labels. -/
theorem C64_empty (ops : PathOps K P) (s : K) (bg : Bool) (pad : SvgPad K) (h : SvgHeap K P) (order : List Nat)
    (c : Nat) : writeSvg ops s bg pad h none order c = .ok none := rfl

theorem mapM_exists {α β : Type} {f : α → Py β} {l : List α} (h : ∀ a ∈ l, ∃ b, f a = .ok b) :
    ∃ r, l.mapM f = .ok r := by
  induction l with
  | nil => exact ⟨[], rfl⟩
  | cons a l ih =>
    obtain ⟨b, hb⟩ := h a List.mem_cons_self
    obtain ⟨r, hr⟩ := ih fun x hx => h x (List.mem_cons_of_mem _ hx)
    exact ⟨b :: r, by rw [List.mapM_cons, hb, py_bind_ok, hr, py_bind_ok]; rfl⟩

/-- The anchors that `Label.__init__` can store (label.py:95-120). -/
def labelAnchors : List Nat := [0, 1, 2, 4, 5, 6, 8, 9, 10]

theorem labelAnchor_ok : ∀ a ∈ labelAnchors, (labelAnchor a).toBool = true := by decide +kernel

/-- **C64.** Writing succeeds whenever each reference has an origin and each label one of the documented anchors. -/
theorem C64_writes (ops : PathOps K P) (s : K) (bg : Bool) (pad : SvgPad K) (h : SvgHeap K P)
    (bb : Pt K × Pt K) (order : List Nat) (c : Nat)
    (horigin : ∀ a ∈ order ++ [c], ∀ r ∈ (h.cells a).refs, r.data.origin ≠ none)
    (hanchor : ∀ a ∈ order ++ [c], ∀ l ∈ h.labels a, l.2 ∈ labelAnchors) :
    ∃ doc, writeSvg ops s bg pad h (some bb) order c = .ok (some doc) ∧
      doc.viewBox = svgViewBox s bg pad bb ∧ doc.defs.map Prod.fst = order.map (fun d => svgId (h.name d)) ∧
      doc.top.1 = svgId (h.name c) := by
  have hcell : ∀ d ∈ order ++ [c], ∃ els, cellSvg ops s h d = .ok els := by
    intro d hd
    obtain ⟨L, hL⟩ := mapM_exists (f := labelSvg s) (l := h.labels d) (by
      intro l hl
      have := hanchor d hd l hl
      unfold labelSvg
      cases hla : labelAnchor l.2 with
      | error e =>
        have h1 := labelAnchor_ok l.2 this
        rw [hla] at h1
        cases h1
      | ok a => exact ⟨_, rfl⟩)
    obtain ⟨R, hR⟩ := mapM_exists (f := fun r => refSvg s r.data (h.refName r)) (l := (h.cells d).refs) (by
      intro r hr
      obtain ⟨o, ho⟩ := Option.ne_none_iff_exists'.1 (horigin d hd r hr)
      unfold refSvg refTransforms
      rw [ho]
      cases r.data.array <;> exact ⟨_, rfl⟩)
    unfold cellSvg
    rw [hL, py_bind_ok, hR]
    exact ⟨_, rfl⟩
  obtain ⟨defs, hdefs⟩ := mapM_exists (f := fun d => do
        let els ← cellSvg ops s h d
        pure (svgId (h.name d), els)) (l := order) (by
    intro d hd
    obtain ⟨e, he⟩ := hcell d (List.mem_append_left _ hd)
    exact ⟨(svgId (h.name d), e), by rw [he]; rfl⟩)
  obtain ⟨els, hels⟩ := hcell c (List.mem_append_right _ (List.mem_singleton.2 rfl))
  obtain ⟨h1, h2⟩ := py_mapM_pair hdefs
  unfold writeSvg
  rw [hdefs]
  simp only [py_bind_ok, hels]
  refine ⟨_, rfl, rfl, ?_, rfl⟩
  rw [h2]
  simp [List.map_map, Function.comp_def]

/-- **C64.** A reference without an origin makes writing fail. -/
theorem C64_no_origin (s : K) (r : RefData K) (name : Str) (h : r.origin = none) :
    refSvg s r name = .error .typeError := by
  unfold refSvg refTransforms
  rw [h]
  rfl

/-! ### Concrete cases -/

namespace C64

open C35

/-- A cell named `top` with a reference to `a#`, rotated and reflected, and an array of `a_`. -/
def heap (name1 name2 : Str) : SvgHeap ℚ IdealPath where
  cells := fun c => match c with
    | 0 => { refs := [⟨⟨some (1, 2), some 90, none, some true, none⟩, some 1⟩,
        ⟨⟨some (10, 0), none, some 2, none, some (2, 1, (7, 7))⟩, some 2⟩] }
    | 1 => { polygons := [sq 1] }
    | 2 => { polygons := [sq 3] }
    | _ => {}
  name := fun c => match c with
    | 0 => ['t']
    | 1 => name1
    | _ => name2
  labels := fun _ => []
  unresolved := fun _ => []

/-- What is drawn. -/
def shown (name1 name2 : Str) : Option (List (Pgon ℚ)) :=
  match writeSvg O 10 false (.num 0) (heap name1 name2) (some ((0, 0), (1, 1))) [2, 1] 0 with
  | .ok (some doc) => some ((Spec.SvgDoc.draw ratTrig 3 doc).map Prod.snd)
  | _ => none

/-- What should be drawn. -/
def expected : Option (List (Pgon ℚ)) :=
  (treeOf 3 (heap [] []).cells 0).map fun x =>
    (flat O ratTrig none x).map fun q => q.2.map fun p => (10 * p.1, -(10 * p.2))

end C64

open C64 in
example : shown ['a', '#'] ['b', '#'] = expected := by decide +kernel

open C64 in
/-- **C64 needs the condition on names**: the cells `a#` and `a_` get the same id, and one of them is drawn
in place of the other. -/
theorem C64_same_id : svgId ['a', '#'] = svgId ['a', '_'] ∧ shown ['a', '#'] ['a', '_'] ≠ expected := by
  decide +kernel

end Gdspy
