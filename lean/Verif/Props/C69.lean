import Verif.Lemmas.Holes
import Verif.Lemmas.RefEngine

/-!
C69: polygons with holes are returned as outlines with bridges that cover the contour without the holes.

The full statement, for every tree: each polygon with holes becomes one outline that covers the contour without the holes. It holds
up to slivers at the ends of the bridges (`C69_tree`), and exactly for rectilinear contours with holes strictly inside
(`C69_tree_partial`). It fails for slanted edges (`C69_bent_edge`) and for holes that touch a horizontal edge
(`C69_touching_hole`).
-/

namespace Gdspy

open Spec

set_option linter.unusedSectionVars false

variable {K : Type} [Field K] [LinearOrder K] [IsStrictOrderedRing K]

/-! ## One hole -/

/-- A hole is joined to the outline through a horizontal bridge from its leftmost vertex to the next edge at the left. -/
theorem C69_bridge {r h out : List IPt} (hl : linkHole r h = .ok out) :
    ∃ a b c p, (a, b) ∈ edges r ∧ p ∈ h ∧ Joined r h out a b c p ∧ Bridge r h a b c p := by
  obtain ⟨a, b, c, p, h1, h2, h3, h4, -⟩ := linkHole_joined hl
  exact ⟨a, b, c, p, h3, h4, h1, h2⟩

/-! ## All holes of a contour -/

theorem links_slivers (hs : List (List IPt)) (contour out : List IPt) (hl : hs.foldlM linkHole contour = .ok out) :
    ∃ sl : List (IPt × IPt × IPt), sl.length = hs.length ∧ (∀ t ∈ sl, Sliver t.1 t.2.1 t.2.2) ∧
      (∀ q : Pt K, wind (ofGrid out) q = wind (ofGrid contour) q + total (hs.map ofGrid) q +
        total (sl.map fun t => ofGrid [t.1, t.2.2, t.2.1]) q) ∧
      shoelace (ofGrid out : Pgon K) = shoelace (ofGrid contour) + ((hs.map ofGrid).map shoelace).sum +
        (sl.map fun t => shoelace (ofGrid [t.1, t.2.2, t.2.1])).sum := by
  induction hs generalizing contour with
  | nil =>
    simp only [List.foldlM_nil, pure, Except.pure] at hl
    cases hl
    exact ⟨[], rfl, by simp, by simp [total], by simp⟩
  | cons h hs ih =>
    rw [List.foldlM_cons] at hl
    cases h1 : linkHole contour h with
    | error e => rw [h1] at hl; exact absurd hl (by simp [bind, Except.bind])
    | ok r =>
      rw [h1] at hl
      obtain ⟨sl, hlen, hsl, hw, hsh⟩ := ih r hl
      obtain ⟨a, b, c, p, hj, hb, -⟩ := linkHole_joined h1
      refine ⟨(a, b, c) :: sl, by simp [hlen], ?_, ?_, ?_⟩
      · intro t ht
        rcases List.mem_cons.1 ht with rfl | ht
        · exact hb.foot
        · exact hsl t ht
      · intro q
        rw [hw, joined_wind hj]
        simp only [total, List.map_cons, List.sum_cons]
        ring
      · rw [hsh, joined_shoelace hj]
        simp only [List.map_cons, List.sum_cons]
        ring

/-- The outline for a contour with holes winds around a point as often as the contour and the holes together (holes
have the opposite direction), and its area is the area of the contour without that of the holes, up to one
sliver for each hole: a triangle of less than one grid unit at the edge where the bridge ends. -/
theorem C69_holes {sort : List (List IPt) → List (List IPt)} (hsort : ∀ l, (sort l).Perm l) {contour out : List IPt}
    {holes : List (List IPt)} (hl : linkHoles sort contour holes = .ok out) :
    ∃ sl : List (IPt × IPt × IPt), sl.length = holes.length ∧ (∀ t ∈ sl, Sliver t.1 t.2.1 t.2.2) ∧
      (∀ q : Pt K, wind (ofGrid out) q = wind (ofGrid contour) q + total (holes.map ofGrid) q +
        total (sl.map fun t => ofGrid [t.1, t.2.2, t.2.1]) q) ∧
      shoelace (ofGrid out : Pgon K) = shoelace (ofGrid contour) + ((holes.map ofGrid).map shoelace).sum +
        (sl.map fun t => shoelace (ofGrid [t.1, t.2.2, t.2.1])).sum := by
  obtain ⟨sl, h1, h2, h3, h4⟩ := links_slivers (K := K) _ _ _ hl
  refine ⟨sl, by rw [h1, (hsort holes).length_eq], h2, fun q => ?_, ?_⟩
  · rw [h3 q]
    unfold total
    rw [(((hsort holes).map ofGrid).map (wind · q)).sum_eq]
  · rw [h4, (((hsort holes).map (ofGrid (K := K))).map shoelace).sum_eq]

/-- What a sliver can change: only points at a horizontal distance of less than a grid unit from its edge, and less area than
the height of the edge. -/
theorem C69_sliver {a b c : IPt} (h : Sliver a b c) :
    (∀ q : Pt K, wind (ofGrid [a, c, b]) q ≠ 0 →
      (((a.2 : K) < q.2 ∧ q.2 ≤ b.2) ∨ ((b.2 : K) < q.2 ∧ q.2 ≤ a.2)) ∧ |q.1 - xAt (gp a) (gp b) q.2| < 1) ∧
    |shoelace (ofGrid [a, c, b] : Pgon K)| < |(b.2 : K) - a.2| := by
  refine ⟨fun q hq => sliver_thin h q hq, ?_⟩
  have hne : a.2 ≠ b.2 := by have := h.height; omega
  have d : ((b.2 : K) - a.2) ≠ 0 := by
    have : (b.2 - a.2 : Int) ≠ 0 := by omega
    exact_mod_cast this
  rw [sliver_area a b c hne, abs_mul]
  have := sliver_offset (K := K) h
  have h0 := abs_pos.2 d
  nlinarith

/-! ## Rectilinear contours -/

/-- What the loop keeps: the outline is rectilinear, and the holes to come are inside of it and apart from each other. -/
structure Pending (r : List IPt) (hs : List (List IPt)) : Prop where
  rect : Rectilinear r
  rects : ∀ h ∈ hs, Rectilinear h
  inside : HolesInside r hs
  left : hs.Pairwise LeftFirst

theorem linkHole_pending {r h : List IPt} {hs : List (List IPt)} (hp : Pending r (h :: hs)) :
    ∃ out, linkHole r h = .ok out ∧ Pending out hs ∧
      (∀ q : Pt K, wind (ofGrid out) q = wind (ofGrid r) q + wind (ofGrid h) q) ∧
      shoelace (ofGrid out : Pgon K) = shoelace (ofGrid r) + shoelace (ofGrid h) := by
  obtain ⟨out, ho⟩ := linkHole_ok (K := ℚ) (hp.inside.nonempty h (by simp)) (hp.inside.inside h (by simp))
  obtain ⟨a, b, c, p, hj, hb, hab, hph, hcx⟩ := linkHole_joined ho
  have hvert := rectilinear_foot hp.rect hab hb.foot
  have hcb : c.1 = b.1 := by rw [hcx, cutX_vertical hvert]
  have hca : c.1 = a.1 := by rw [hcb, hvert]
  have hflat : ∀ {L : Type} [Field L] [LinearOrder L] [IsStrictOrderedRing L],
      (c.1 : L) = xAt (gp a) (gp b) (c.2 : L) := by
    intro L _ _ _
    unfold xAt gp
    simp only
    rw [← hca, ← hcb]; simp
  have hw : ∀ {L : Type} [Field L] [LinearOrder L] [IsStrictOrderedRing L] (q : Pt L),
      wind (ofGrid out) q = wind (ofGrid r) q + wind (ofGrid h) q := by
    intro L _ _ _ q
    rw [joined_wind hj, sliver_flat hb.foot hflat q, add_zero]
  refine ⟨out, ho, ⟨?_, fun g hg => hp.rects g (List.mem_cons_of_mem _ hg), ⟨fun g hg => hp.inside.nonempty g (List.mem_cons_of_mem _ hg), ?_,
    (List.pairwise_cons.1 hp.inside.apart).2⟩, (List.pairwise_cons.1 hp.left).2⟩, hw, ?_⟩
  · exact joined_rectilinear hj hp.rect (hp.rects h (by simp)) hca hcb hb.level
  · intro g hg v hv hvl
    obtain ⟨h1, h2⟩ := hp.inside.inside g (List.mem_cons_of_mem _ hg) v hv hvl
    obtain ⟨h3, h4⟩ := ((List.pairwise_cons.1 hp.inside.apart).1 g hg).1 v hv hvl
    refine ⟨by rw [hw, h3, add_zero]; exact h1, fun hon => ?_⟩
    rcases joined_onOutline hj hab hb.foot hca hcb hb.level hb.leftwards hon with h5 | h5 | ⟨h5, h6, h7⟩
    · exact h2 h5
    · exact h4 h5
    · obtain ⟨w, hw', hle⟩ := (List.pairwise_cons.1 hp.left).1 g hg v hv
      have hpw := hb.leftmost w hw'
      unfold gp at h5 h7
      simp only at h5 h7
      have h5' : v.2 = p.2 := by exact_mod_cast h5
      have h7' : v.1 ≤ p.1 := by exact_mod_cast h7
      have : v = p := Prod.ext (by omega) h5'
      rw [this] at h4
      exact h4 (vertex_onOutline hph)
  · have hne : a.2 ≠ b.2 := by have := hb.foot.height; omega
    rw [joined_shoelace hj, sliver_area a b c hne, ← hflat, sub_self, mul_zero, add_zero]

theorem links_pending {r : List IPt} {hs : List (List IPt)} (hp : Pending r hs) :
    ∃ out, hs.foldlM linkHole r = .ok out ∧ Rectilinear out ∧
      (∀ q : Pt K, wind (ofGrid out) q = wind (ofGrid r) q + total (hs.map ofGrid) q) ∧
      shoelace (ofGrid out : Pgon K) = shoelace (ofGrid r) + ((hs.map ofGrid).map shoelace).sum := by
  induction hs generalizing r with
  | nil => exact ⟨r, rfl, hp.rect, by simp [total], by simp⟩
  | cons h hs ih =>
    obtain ⟨m, h1, h2, h3, h4⟩ := linkHole_pending (K := K) hp
    obtain ⟨out, h5, h6, h7, h8⟩ := ih h2
    refine ⟨out, by rw [List.foldlM_cons, h1]; exact h5, h6, fun q => ?_, ?_⟩
    · rw [h7, h3]; simp only [total, List.map_cons, List.sum_cons]; ring
    · rw [h8, h4]; simp only [List.map_cons, List.sum_cons]; ring

theorem inside_perm {r : List IPt} {hs gs : List (List IPt)} (h : hs.Perm gs) (hi : HolesInside r gs) : HolesInside r hs := by
  refine ⟨fun g hg => hi.nonempty g (h.mem_iff.1 hg), fun g hg => hi.inside g (h.mem_iff.1 hg), ?_⟩
  refine (h.pairwise_iff ?_).2 hi.apart
  exact fun {x y} hxy => ⟨hxy.2, hxy.1⟩

/-- A rectilinear contour with rectilinear holes strictly inside of it: every hole can be joined, and the outline covers
exactly the contour without the holes. -/
theorem C69_rectilinear_partial {sort : List (List IPt) → List (List IPt)} (hsort : SortsByLeft sort) {contour : List IPt}
    {holes : List (List IPt)} (hc : Rectilinear contour) (hh : ∀ h ∈ holes, Rectilinear h) (hi : HolesInside contour holes) :
    ∃ out, linkHoles sort contour holes = .ok out ∧ Rectilinear out ∧
      (∀ q : Pt K, wind (ofGrid out) q = wind (ofGrid contour) q + total (holes.map ofGrid) q) ∧
      shoelace (ofGrid out : Pgon K) = shoelace (ofGrid contour) + ((holes.map ofGrid).map shoelace).sum := by
  obtain ⟨hp, hl⟩ := hsort holes
  obtain ⟨out, h1, h2, h3, h4⟩ := links_pending (K := K) (r := contour) (hs := sort holes)
    ⟨hc, fun h hm => hh h (hp.mem_iff.1 hm), inside_perm hp hi, hl⟩
  refine ⟨out, h1, h2, fun q => ?_, ?_⟩
  · rw [h3 q]
    unfold total
    rw [((hp.map ofGrid).map (wind · q)).sum_eq]
  · rw [h4, ((hp.map (ofGrid (K := K))).map shoelace).sum_eq]

/-- A hole whose leftmost vertices are strictly inside of the outline can be joined, whatever the directions of the edges. -/
theorem C69_found {r h : List IPt} (hh : h ≠ []) (hi : ∀ p ∈ h, (∀ v ∈ h, p.1 ≤ v.1) →
    wind (ofGrid r : Pgon K) (gp p) ≠ 0 ∧ ¬ OnOutline (ofGrid r : Pgon K) (gp p)) : ∃ out, linkHole r h = .ok out :=
  linkHole_ok hh hi

/-! ## The room for the insertions -/

theorem linkHole_length {r h out : List IPt} (hl : linkHole r h = .ok out) : out.length ≤ r.length + (h.length + 3) := by
  obtain ⟨a, b, c, p, ⟨ms, hs, h1, h2, h3⟩, -⟩ := linkHole_joined hl
  rw [← h1.perm.length_eq, ← h2.perm.length_eq, ← h3.perm.length_eq]
  by_cases hc : c = b
  · simp [hc]; omega
  · simp [hc]; omega

/-- The insertions never exceed the reserved size, at no step, so that the iterators stay valid. -/
theorem C69_room {sort : List (List IPt) → List (List IPt)} (hsort : ∀ l, (sort l).Perm l) {contour : List IPt}
    {holes done rest : List (List IPt)} (hd : sort holes = done ++ rest) {out : List IPt}
    (hl : done.foldlM linkHole contour = .ok out) : out.length ≤ linkRoom contour holes := by
  have key : ∀ (done : List (List IPt)) (contour : List IPt), done.foldlM linkHole contour = .ok out →
      out.length ≤ contour.length + (done.map fun h => h.length + 3).sum := by
    intro done
    induction done with
    | nil => intro contour hl; simp only [List.foldlM_nil, pure, Except.pure] at hl; cases hl; simp
    | cons h hs ih =>
      intro contour hl
      rw [List.foldlM_cons] at hl
      cases h1 : linkHole contour h with
      | error e => rw [h1] at hl; exact absurd hl (by simp [bind, Except.bind])
      | ok r =>
        rw [h1] at hl
        have := ih r hl
        have := linkHole_length h1
        simp only [List.map_cons, List.sum_cons]
        omega
  have h1 := key done contour hl
  have h2 : (holes.map fun h => h.length + 3).sum = ((done ++ rest).map fun h => h.length + 3).sum := by
    rw [← hd]; exact (((hsort holes).map _).sum_eq).symm
  unfold linkRoom
  rw [h2, List.map_append, List.sum_append]
  omega

/-! ## Trees -/

mutual
/-- The nodes that are not holes in a node and what is inside of it. -/
def outerNodes (hole : Bool) : PolyNode → List PolyNode
  | .mk c l => (if hole then [] else [.mk c l]) ++ outerNodesList (!hole) l

/-- The same for a list of nodes. -/
def outerNodesList (hole : Bool) : List PolyNode → List PolyNode
  | [] => []
  | n :: l => outerNodes hole n ++ outerNodesList hole l
end

mutual
theorem paths_mapM (sort : List (List IPt) → List (List IPt)) (hole : Bool) (n : PolyNode) :
    n.paths sort hole = (outerNodes hole n).mapM (outerPath sort) := by
  obtain ⟨c, l⟩ := n
  have ih := pathsList_mapM sort (!hole) l
  simp only [PolyNode.paths, outerNodes, List.mapM_append, ih]
  cases hole
  · simp [pure, Except.pure, bind, Except.bind]; cases outerPath sort (.mk c l) <;> simp
  · simp [pure, Except.pure, bind, Except.bind]

theorem pathsList_mapM (sort : List (List IPt) → List (List IPt)) (hole : Bool) (l : List PolyNode) :
    PolyNode.pathsList sort hole l = (outerNodesList hole l).mapM (outerPath sort) := by
  cases l with
  | nil => simp [PolyNode.pathsList, outerNodesList, pure, Except.pure]
  | cons n l =>
    have h1 := paths_mapM sort hole n
    have h2 := pathsList_mapM sort hole l
    simp only [PolyNode.pathsList, outerNodesList, List.mapM_append, h1, h2]
    rfl
end

mutual
theorem outerNodes_sound (tree : List PolyNode) (hole : Bool) (n : PolyNode)
    (h : if hole then ∃ m, Outer tree m ∧ n ∈ m.childs else Outer tree n) : ∀ m ∈ outerNodes hole n, Outer tree m := by
  obtain ⟨c, l⟩ := n
  intro m hm
  have ih := outerNodesList_sound tree (!hole) l
  simp only [outerNodes] at hm
  cases hole with
  | false =>
    simp only [Bool.false_eq_true, if_false] at h hm
    rcases List.mem_append.1 hm with hm | hm
    · rw [List.mem_singleton.1 hm]; exact h
    · exact ih (fun x hx => by simpa using ⟨_, h, hx⟩) m hm
  | true =>
    simp only [if_true] at h hm
    obtain ⟨p, hp, hpn⟩ := h
    exact ih (fun x hx => by simpa using Outer.inner hp hpn hx) m (by simpa using hm)

theorem outerNodesList_sound (tree : List PolyNode) (hole : Bool) (l : List PolyNode)
    (h : ∀ n ∈ l, if hole then ∃ m, Outer tree m ∧ n ∈ m.childs else Outer tree n) :
    ∀ m ∈ outerNodesList hole l, Outer tree m := by
  cases l with
  | nil => simp [outerNodesList]
  | cons n l =>
    intro m hm
    simp only [outerNodesList] at hm
    rcases List.mem_append.1 hm with hm | hm
    · exact outerNodes_sound tree hole n (h n (by simp)) m hm
    · exact outerNodesList_sound tree hole l (fun x hx => h x (List.mem_cons_of_mem _ hx)) m hm
end

theorem outerNodesList_mem {hole : Bool} {n m : PolyNode} {l : List PolyNode} (hn : n ∈ l) (hm : m ∈ outerNodes hole n) :
    m ∈ outerNodesList hole l := by
  induction l with
  | nil => cases hn
  | cons x l ih =>
    simp only [outerNodesList]
    rcases List.mem_cons.1 hn with rfl | hn
    · exact List.mem_append_left _ hm
    · exact List.mem_append_right _ (ih hn)

theorem outerNodes_self (n : PolyNode) : n ∈ outerNodes false n := by
  obtain ⟨c, l⟩ := n; simp [outerNodes]

theorem outerNodes_hole {h m : PolyNode} (hm : m ∈ h.childs) : m ∈ outerNodes true h := by
  obtain ⟨c, l⟩ := h
  simp only [outerNodes, if_true, List.nil_append, Bool.not_true]
  exact outerNodesList_mem hm (outerNodes_self m)

mutual
theorem outerNodes_closed (hole : Bool) (t : PolyNode) {n h m : PolyNode} (hn : n ∈ outerNodes hole t) (hh : h ∈ n.childs)
    (hm : m ∈ h.childs) : m ∈ outerNodes hole t := by
  obtain ⟨c, l⟩ := t
  have ih := outerNodesList_closed (!hole) l (n := n) (h := h) (m := m)
  simp only [outerNodes] at hn ⊢
  rcases List.mem_append.1 hn with hn | hn
  · cases hole with
    | false =>
      simp only [Bool.false_eq_true, if_false, List.mem_singleton] at hn
      subst hn
      exact List.mem_append_right _ (outerNodesList_mem hh (outerNodes_hole hm))
    | true => simp at hn
  · exact List.mem_append_right _ (ih hn hh hm)

theorem outerNodesList_closed (hole : Bool) (l : List PolyNode) {n h m : PolyNode} (hn : n ∈ outerNodesList hole l)
    (hh : h ∈ n.childs) (hm : m ∈ h.childs) : m ∈ outerNodesList hole l := by
  cases l with
  | nil => simp [outerNodesList] at hn
  | cons x l =>
    simp only [outerNodesList] at hn ⊢
    rcases List.mem_append.1 hn with hn | hn
    · exact List.mem_append_left _ (outerNodes_closed hole x hn hh hm)
    · exact List.mem_append_right _ (outerNodesList_closed hole l hn hh hm)
end

theorem outerNodes_iff (tree : List PolyNode) (n : PolyNode) : n ∈ outerNodesList false tree ↔ Outer tree n := by
  constructor
  · exact outerNodesList_sound tree false tree (fun m hm => by simpa using Outer.top hm) n
  · intro h
    induction h with
    | top h => exact outerNodesList_mem h (outerNodes_self _)
    | inner _ h1 h2 ih => exact outerNodesList_closed false tree ih h1 h2

theorem mapM_forall2 {α β : Type} (f : α → Py β) (l : List α) (m : List β) (h : l.mapM f = .ok m) :
    List.Forall₂ (fun a b => f a = .ok b) l m := by
  induction l generalizing m with
  | nil => simp only [List.mapM_nil, pure, Except.pure] at h; cases h; exact .nil
  | cons a l ih =>
    rw [List.mapM_cons] at h
    cases h1 : f a with
    | error e => rw [h1] at h; exact absurd h (by simp [bind, Except.bind])
    | ok b =>
      rw [h1] at h
      cases h2 : l.mapM f with
      | error e => rw [h2] at h; exact absurd h (by simp [bind, Except.bind])
      | ok m' =>
        rw [h2] at h
        simp only [bind, Except.bind, pure, Except.pure] at h
        cases h
        exact .cons h1 (ih m' h2)

theorem mapM_forall2_ok {α β : Type} (f : α → Py β) (R : α → β → Prop) (l : List α)
    (h : ∀ a ∈ l, ∃ b, f a = .ok b ∧ R a b) : ∃ m, l.mapM f = .ok m ∧ List.Forall₂ R l m := by
  induction l with
  | nil => exact ⟨[], rfl, .nil⟩
  | cons a l ih =>
    obtain ⟨b, h1, h2⟩ := h a (by simp)
    obtain ⟨m, h3, h4⟩ := ih fun x hx => h x (List.mem_cons_of_mem _ hx)
    exact ⟨b :: m, by rw [List.mapM_cons, h1, h3]; rfl, .cons h2 h4⟩

/-- There is one outline for each node of the tree that is not a hole; it covers the contour of the node without its holes,
up to slivers. -/
theorem C69_tree {sort : List (List IPt) → List (List IPt)} (hsort : ∀ l, (sort l).Perm l) {tree : List PolyNode}
    {out : List (List IPt)} (hl : treePaths sort tree = .ok out) :
    ∃ ns : List PolyNode, (∀ n, n ∈ ns ↔ Outer tree n) ∧ List.Forall₂ (fun n q =>
      ∃ sl : List (IPt × IPt × IPt), sl.length = (holesOf n).length ∧ (∀ t ∈ sl, Sliver t.1 t.2.1 t.2.2) ∧
        ∀ p : Pt K, wind (ofGrid q) p = nodeWind n p + total (sl.map fun t => ofGrid [t.1, t.2.2, t.2.1]) p) ns out := by
  unfold treePaths at hl
  rw [pathsList_mapM] at hl
  refine ⟨outerNodesList false tree, outerNodes_iff tree, ?_⟩
  refine (mapM_forall2 _ _ _ hl).imp ?_
  rintro ⟨c, l⟩ q hq
  cases l with
  | nil =>
    simp only [outerPath] at hq
    cases hq
    exact ⟨[], rfl, by simp, by simp [nodeWind, holesOf, PolyNode.childs, PolyNode.contour, total]⟩
  | cons n l =>
    simp only [outerPath] at hq
    obtain ⟨sl, h1, h2, h3, -⟩ := C69_holes (K := K) hsort hq
    exact ⟨sl, h1, h2, h3⟩

/-- For rectilinear contours with holes strictly inside nothing fails, and the outlines are exact. -/
theorem C69_tree_partial {sort : List (List IPt) → List (List IPt)} (hsort : SortsByLeft sort) {tree : List PolyNode}
    (hr : ∀ n, Outer tree n → Rectilinear n.contour ∧ (∀ h ∈ holesOf n, Rectilinear h) ∧ HolesInside n.contour (holesOf n)) :
    ∃ out, treePaths sort tree = .ok out ∧ ∃ ns : List PolyNode, (∀ n, n ∈ ns ↔ Outer tree n) ∧
      List.Forall₂ (fun n q => Rectilinear q ∧ ∀ p : Pt K, wind (ofGrid q) p = nodeWind n p) ns out := by
  have key : ∀ n ∈ outerNodesList false tree, ∃ q, outerPath sort n = .ok q ∧
      (Rectilinear q ∧ ∀ p : Pt K, wind (ofGrid q) p = nodeWind n p) := by
    rintro ⟨c, l⟩ hn
    obtain ⟨h1, h2, h3⟩ := hr _ ((outerNodes_iff tree _).1 hn)
    cases l with
    | nil => exact ⟨c, rfl, h1, by simp [nodeWind, holesOf, PolyNode.childs, PolyNode.contour, total]⟩
    | cons n l =>
      obtain ⟨q, h4, h5, h6, -⟩ := C69_rectilinear_partial (K := K) hsort h1 h2 h3
      exact ⟨q, h4, h5, h6⟩
  obtain ⟨out, h1, h2⟩ := mapM_forall2_ok _ _ _ key
  exact ⟨out, by unfold treePaths; rw [pathsList_mapM]; exact h1, _, outerNodes_iff tree, h2⟩

/-- If Clipper's trees are exact for rectilinear operands, so is the engine of C50 and C51 made of Clipper and `tree2paths`: the
assumptions on the engine follow from assumptions on the tree. -/
theorem C69_engine {sort : List (List IPt) → List (List IPt)} (hsort : SortsByLeft sort)
    {execute : ClipOp → List (List IPt) → List (List IPt) → List PolyNode} (he : ExactTree K execute) :
    Exact Rectilinear (treeEngine (K := K) sort execute) ∧ StaysOnGrid Rectilinear (treeEngine (K := K) sort execute) := by
  have key : ∀ op A B, (∀ P ∈ A, Rectilinear P) → (∀ P ∈ B, Rectilinear P) → ∃ out, ∃ ns : List PolyNode,
      (treeEngine (K := K) sort execute).clip op A B = out.map ofGrid ∧ (∀ n, n ∈ ns ↔ Outer (execute op A B) n) ∧
      List.Forall₂ (fun n q => Rectilinear q ∧ ∀ p : Pt K, wind (ofGrid q) p = nodeWind n p) ns out := by
    intro op A B hA hB
    obtain ⟨out, h1, ns, h2, h3⟩ := C69_tree_partial (K := K) hsort (tree := execute op A B)
      (fun n hn => ⟨(he.rectilinear op A B hA hB n hn).1, (he.rectilinear op A B hA hB n hn).2, he.inside op A B hA hB n hn⟩)
    refine ⟨out, ns, ?_, h2, h3⟩
    simp only [treeEngine, h1]
    rfl
  have left : ∀ {R : PolyNode → List IPt → Prop} {ns : List PolyNode} {out : List (List IPt)}, List.Forall₂ R ns out →
      ∀ n ∈ ns, ∃ q ∈ out, R n q := by
    intro R ns out h
    induction h with
    | nil => simp
    | cons h _ ih =>
      intro n hn
      rcases List.mem_cons.1 hn with rfl | hn
      · exact ⟨_, by simp, h⟩
      · obtain ⟨q, h1, h2⟩ := ih n hn
        exact ⟨q, List.mem_cons_of_mem _ h1, h2⟩
  have right : ∀ {R : PolyNode → List IPt → Prop} {ns : List PolyNode} {out : List (List IPt)}, List.Forall₂ R ns out →
      ∀ q ∈ out, ∃ n ∈ ns, R n q := by
    intro R ns out h
    induction h with
    | nil => simp
    | cons h _ ih =>
      intro n hn
      rcases List.mem_cons.1 hn with rfl | hn
      · exact ⟨_, by simp, h⟩
      · obtain ⟨q, h1, h2⟩ := ih n hn
        exact ⟨q, List.mem_cons_of_mem _ h1, h2⟩
  refine ⟨⟨?_, ?_⟩, ?_⟩
  · intro op A B hA hB p
    obtain ⟨out, ns, h1, h2, h3⟩ := key op A B hA hB
    rw [h1, ← he.covers op A B hA hB p]
    constructor
    · rintro ⟨P, hP, hw⟩
      obtain ⟨q, hq, rfl⟩ := List.mem_map.1 hP
      obtain ⟨n, hn, -, h5⟩ := right h3 q hq
      exact ⟨n, (h2 n).1 hn, by rw [← h5]; exact hw⟩
    · rintro ⟨n, hn, hw⟩
      obtain ⟨q, hq, -, h5⟩ := left h3 n ((h2 n).2 hn)
      exact ⟨ofGrid q, List.mem_map.2 ⟨q, hq, rfl⟩, by rw [h5]; exact hw⟩
  · intro op A B hA hB P hP
    obtain ⟨out, ns, h1, h2, h3⟩ := key op A B hA hB
    rw [h1] at hP
    obtain ⟨q, hq, rfl⟩ := List.mem_map.1 hP
    obtain ⟨n, hn, -, h5⟩ := right h3 q hq
    obtain ⟨p, hp⟩ := he.nonempty op A B hA hB n ((h2 n).1 hn)
    exact ⟨p, by rw [h5]; exact hp⟩
  · intro op A B hA hB P hP
    obtain ⟨out, ns, h1, h2, h3⟩ := key op A B hA hB
    rw [h1] at hP
    obtain ⟨q, hq, rfl⟩ := List.mem_map.1 hP
    obtain ⟨n, hn, h4, -⟩ := right h3 q hq
    exact ⟨q, h4, rfl⟩

/-! ## Sorting -/

instance (g h : List IPt) : Decidable (LeftFirst g h) := by unfold LeftFirst; infer_instance

/-- A function that sorts. -/
def leftSort (l : List (List IPt)) : List (List IPt) := l.insertionSort LeftFirst

theorem leftFirst_total (g h : List IPt) : LeftFirst g h ∨ LeftFirst h g := by
  by_contra hc
  unfold LeftFirst at hc
  push Not at hc
  obtain ⟨⟨w, hw, h1⟩, v, hv, h2⟩ := hc
  have := h1 v hv
  have := h2 w hw
  omega

theorem leftFirst_trans {f g h : List IPt} (h1 : LeftFirst f g) (h2 : LeftFirst g h) : LeftFirst f h := by
  intro w hw
  obtain ⟨v, hv, hl⟩ := h2 w hw
  obtain ⟨u, hu, hl'⟩ := h1 v hv
  exact ⟨u, hu, by omega⟩

theorem leftSort_sorts : SortsByLeft leftSort := by
  have : Std.Total LeftFirst := ⟨leftFirst_total⟩
  have : IsTrans (List IPt) LeftFirst := ⟨fun _ _ _ => leftFirst_trans⟩
  exact fun l => ⟨List.perm_insertionSort _ l, List.pairwise_insertionSort _ l⟩

/-! ## Examples -/

/-- A rectangle with two square holes; the second is linked to the first. -/
def exContour : List IPt := [(0, 0), (20, 0), (20, 10), (0, 10)]
def exHoles : List (List IPt) := [[(12, 5), (12, 8), (15, 8), (15, 5)], [(3, 4), (3, 7), (6, 7), (6, 4)]]

example : linkHoles leftSort exContour exHoles = .ok
    [(0, 4), (3, 4), (3, 7), (6, 7), (6, 5), (12, 5), (12, 8), (15, 8), (15, 5), (12, 5), (6, 5), (6, 4), (3, 4), (0, 4),
      (0, 0), (20, 0), (20, 10), (0, 10)] := by decide +kernel

instance (P : List IPt) : Decidable (Rectilinear P) := by unfold Rectilinear; infer_instance

theorem exHoles_rect : Rectilinear exContour ∧ ∀ h ∈ exHoles, Rectilinear h := by decide +kernel

/-- A way to see that a point is not on an outline. -/
theorem not_onOutline {P : List IPt} {p : IPt} (h : ∀ e ∈ edges P, (p.1 < e.1.1 ∧ p.1 < e.2.1) ∨ (e.1.1 < p.1 ∧ e.2.1 < p.1) ∨
    (p.2 < e.1.2 ∧ p.2 < e.2.2) ∨ (e.1.2 < p.2 ∧ e.2.2 < p.2)) : ¬ OnOutline (ofGrid P : Pgon K) (gp p) := by
  rintro ⟨e', he', s, s0, s1, h1, h2⟩
  rw [ofGrid_gp, edges_map] at he'
  obtain ⟨e, he, rfl⟩ := List.mem_map.1 he'
  have h3 := h e he
  simp only [Prod.map_fst, Prod.map_snd, gp] at h1 h2
  have c : ((p.1 : K) < e.1.1 ∧ (p.1 : K) < e.2.1) ∨ ((e.1.1 : K) < p.1 ∧ (e.2.1 : K) < p.1) ∨
    ((p.2 : K) < e.1.2 ∧ (p.2 : K) < e.2.2) ∨ ((e.1.2 : K) < p.2 ∧ (e.2.2 : K) < p.2) := by exact_mod_cast h3
  rcases c with ⟨c1, c2⟩ | ⟨c1, c2⟩ | ⟨c1, c2⟩ | ⟨c1, c2⟩ <;>
    nlinarith [mul_nonneg s0 (sub_nonneg.2 c2.le), mul_nonneg (sub_nonneg.2 s1) (sub_nonneg.2 c1.le)]

theorem exHoles_inside : HolesInside exContour exHoles := by
  refine ⟨by decide, ?_, ?_⟩
  · have key : ∀ h ∈ exHoles, ∀ p ∈ h, (∀ v ∈ h, p.1 ≤ v.1) → wind (ofGrid (K := ℚ) exContour) (gp p) ≠ 0 ∧
      ∀ e ∈ edges exContour, (p.1 < e.1.1 ∧ p.1 < e.2.1) ∨ (e.1.1 < p.1 ∧ e.2.1 < p.1) ∨
        (p.2 < e.1.2 ∧ p.2 < e.2.2) ∨ (e.1.2 < p.2 ∧ e.2.2 < p.2) := by decide +kernel
    exact fun h hh p hp hl => ⟨(key h hh p hp hl).1, not_onOutline (key h hh p hp hl).2⟩
  · have key : exHoles.Pairwise fun g h =>
      (∀ p ∈ h, (∀ v ∈ h, p.1 ≤ v.1) → wind (ofGrid (K := ℚ) g) (gp p) = 0 ∧
        ∀ e ∈ edges g, (p.1 < e.1.1 ∧ p.1 < e.2.1) ∨ (e.1.1 < p.1 ∧ e.2.1 < p.1) ∨
          (p.2 < e.1.2 ∧ p.2 < e.2.2) ∨ (e.1.2 < p.2 ∧ e.2.2 < p.2)) ∧
      (∀ p ∈ g, (∀ v ∈ g, p.1 ≤ v.1) → wind (ofGrid (K := ℚ) h) (gp p) = 0 ∧
        ∀ e ∈ edges h, (p.1 < e.1.1 ∧ p.1 < e.2.1) ∨ (e.1.1 < p.1 ∧ e.2.1 < p.1) ∨
          (p.2 < e.1.2 ∧ p.2 < e.2.2) ∨ (e.1.2 < p.2 ∧ e.2.2 < p.2)) := List.pairwise_pair.2 (by decide +kernel)
    refine key.imp ?_
    intro g h hgh
    exact ⟨fun p hp hl => ⟨(hgh.1 p hp hl).1, not_onOutline (hgh.1 p hp hl).2⟩,
      fun p hp hl => ⟨(hgh.2 p hp hl).1, not_onOutline (hgh.2 p hp hl).2⟩⟩

/-- The example of `C69_rectilinear_partial`: the area of the rectangle without that of the holes. -/
example : ∃ out, linkHoles leftSort exContour exHoles = .ok out ∧ Rectilinear out ∧
    shoelace (ofGrid (K := ℚ) out) = 2 * (200 - 9 - 9) ∧ wind (ofGrid out) ((4, 5) : Pt ℚ) = 0 ∧
    wind (ofGrid out) ((8, 5) : Pt ℚ) = 1 := by
  obtain ⟨out, h1, h2, h3, h4⟩ := C69_rectilinear_partial (K := ℚ) leftSort_sorts exHoles_rect.1 exHoles_rect.2 exHoles_inside
  refine ⟨out, h1, h2, ?_, ?_, ?_⟩
  · rw [h4]; decide +kernel
  · rw [h3]; decide +kernel
  · rw [h3]; decide +kernel

/-- A tree: a polygon with a hole, in which there is another polygon. -/
def exTree : List PolyNode :=
  [.mk exContour [.mk [(3, 2), (3, 8), (9, 8), (9, 2)] [.mk [(4, 4), (6, 4), (6, 6), (4, 6)] []]]]

example : treePaths leftSort exTree = .ok
    [[(0, 2), (3, 2), (3, 8), (9, 8), (9, 2), (3, 2), (0, 2), (0, 0), (20, 0), (20, 10), (0, 10)],
      [(4, 4), (6, 4), (6, 6), (4, 6)]] := by decide +kernel

example : Outer exTree (.mk [(4, 4), (6, 4), (6, 6), (4, 6)] []) :=
  .inner (.top (List.mem_singleton.2 rfl)) (List.mem_singleton.2 rfl) (List.mem_singleton.2 rfl)

/-- The assumptions of `C69_engine` can be met. -/
theorem exact_tree_exists [FloorRing K] : ∃ execute, ExactTree K execute := by
  classical
  obtain ⟨e, -, he, hg⟩ := exact_engine_exists (K := K)
  have hex : ∀ op A B, ∃ Q : List (List IPt), ((∀ P ∈ A, Rectilinear P) ∧ (∀ P ∈ B, Rectilinear P)) →
      (∀ q ∈ Q, Rectilinear q) ∧ e.clip op A B = Q.map ofGrid := by
    intro op A B
    by_cases h : (∀ P ∈ A, Rectilinear P) ∧ (∀ P ∈ B, Rectilinear P)
    · have := hg op A B h.1 h.2
      have key : ∀ L : List (Pgon K), (∀ q ∈ L, ∃ Q, Rectilinear Q ∧ q = ofGrid Q) → ∃ Qs : List (List IPt),
          (∀ q ∈ Qs, Rectilinear q) ∧ L = Qs.map ofGrid := by
        intro L
        induction L with
        | nil => exact fun _ => ⟨[], by simp, rfl⟩
        | cons q L ih =>
          intro hL
          obtain ⟨Q, h1, h2⟩ := hL q (by simp)
          obtain ⟨Qs, h3, h4⟩ := ih fun x hx => hL x (List.mem_cons_of_mem _ hx)
          refine ⟨Q :: Qs, ?_, by rw [h2, h4]; rfl⟩
          intro x hx
          rcases List.mem_cons.1 hx with rfl | hx
          · exact h1
          · exact h3 x hx
      obtain ⟨Q, h1, h2⟩ := key _ this
      exact ⟨Q, fun _ => ⟨h1, h2⟩⟩
    · exact ⟨[], fun h' => absurd h' h⟩
  choose Q hQ using hex
  have leaf : ∀ (l : List (List IPt)) n, Outer (l.map fun q => PolyNode.mk q []) n ↔ ∃ q ∈ l, n = .mk q [] := by
    intro l n
    constructor
    · intro h
      induction h with
      | top h => obtain ⟨q, hq, rfl⟩ := List.mem_map.1 h; exact ⟨q, hq, rfl⟩
      | inner _ h1 _ ih => obtain ⟨q, hq, rfl⟩ := ih; simp [PolyNode.childs] at h1
    · rintro ⟨q, hq, rfl⟩
      exact .top (List.mem_map.2 ⟨q, hq, rfl⟩)
  have hw : ∀ q (p : Pt K), nodeWind (.mk q []) p = wind (ofGrid q) p := by
    intro q p; simp [nodeWind, holesOf, PolyNode.childs, PolyNode.contour, total]
  refine ⟨fun op A B => (Q op A B).map fun q => .mk q [], ⟨?_, ?_, ?_, ?_⟩⟩
  · intro op A B hA hB p
    rw [← he.covers op A B hA hB p, (hQ op A B ⟨hA, hB⟩).2]
    constructor
    · rintro ⟨n, hn, hp⟩
      obtain ⟨q, hq, rfl⟩ := (leaf _ _).1 hn
      exact ⟨ofGrid q, List.mem_map.2 ⟨q, hq, rfl⟩, by rw [← hw]; exact hp⟩
    · rintro ⟨P, hP, hp⟩
      obtain ⟨q, hq, rfl⟩ := List.mem_map.1 hP
      exact ⟨.mk q [], (leaf _ _).2 ⟨q, hq, rfl⟩, by rw [hw]; exact hp⟩
  · intro op A B hA hB n hn
    obtain ⟨q, hq, rfl⟩ := (leaf _ _).1 hn
    obtain ⟨p, hp⟩ := he.nonempty op A B hA hB (ofGrid q)
      (by rw [(hQ op A B ⟨hA, hB⟩).2]; exact List.mem_map.2 ⟨q, hq, rfl⟩)
    exact ⟨p, by rw [hw]; exact hp⟩
  · intro op A B hA hB n hn
    obtain ⟨q, hq, rfl⟩ := (leaf _ _).1 hn
    exact ⟨(hQ op A B ⟨hA, hB⟩).1 q hq, by simp [holesOf, PolyNode.childs]⟩
  · intro op A B hA hB n hn
    obtain ⟨q, hq, rfl⟩ := (leaf _ _).1 hn
    exact ⟨by simp [holesOf, PolyNode.childs], by simp [holesOf, PolyNode.childs], by simp [holesOf, PolyNode.childs]⟩

/-! ## What goes wrong -/

/-- The code has a branch for a hole whose leftmost vertex is on a horizontal edge, but it is inside of a test that excludes
horizontal edges: it is never taken. -/
theorem C69_level_branch_dead (p pprev pnext : IPt) : ¬ (reaches p pprev pnext = true ∧ onLevel p pprev pnext = true) := by
  rintro ⟨h1, h2⟩
  rw [reaches_not_onLevel h1] at h2
  exact absurd h2 (by simp)

/-- A triangular hole whose leftmost vertex (3, 10) is on the upper edge of a square is where the branch is needed: no edge is found,
and the code goes on with an iterator that points past the end. -/
theorem C69_touching_hole : linkHole [(0, 0), (10, 0), (10, 10), (0, 10)] [(3, 10), (6, 8), (6, 4)] = .error .unmodelled ∧
    OnOutline (ofGrid (K := ℚ) [(0, 0), (10, 0), (10, 10), (0, 10)]) (gp (3, 10)) ∧
    wind (ofGrid (K := ℚ) [(0, 0), (10, 0), (10, 10), (0, 10)]) (gp (3, 10)) ≠ 0 := by
  refine ⟨by decide +kernel, ⟨((10, 10), (0, 10)), by decide +kernel, 7 / 10, by norm_num, by norm_num, ?_, ?_⟩, by decide +kernel⟩
  · norm_num [gp]
  · norm_num [gp]

/-- The bridge ends at a point rounded to the grid, which becomes a vertex of the outline. If the edge there is not vertical
the outline changes: here the area grows by the sliver of width 1/2 and height 10. -/
theorem C69_bent_edge : ∃ out, linkHole [(0, 0), (10, 0), (10, 10), (3, 10)] [(4, 5), (6, 7), (8, 5), (6, 3)] = .ok out ∧
    shoelace (ofGrid (K := ℚ) out) = shoelace (ofGrid (K := ℚ) [(0, 0), (10, 0), (10, 10), (3, 10)]) +
      shoelace (ofGrid (K := ℚ) [(4, 5), (6, 7), (8, 5), (6, 3)]) + 5 ∧
    ∀ v ∈ [((0, 0) : IPt), (10, 0), (10, 10), (3, 10)], v ∈ out :=
  ⟨[(1, 5), (4, 5), (6, 7), (8, 5), (6, 3), (4, 5), (1, 5), (0, 0), (10, 0), (10, 10), (3, 10)], by decide +kernel⟩

/-- The slivers of `C69_holes` exist. -/
example : Sliver (3, 10) (0, 0) (1, 5) := by
  refine ⟨by decide, ?_⟩
  norm_num [xAt, gp, abs_lt]

end Gdspy
