import Verif.Props.C75Segment

/-!
# C75: when a PolyPath is made, and what the limit on the number of vertices does not do
-/

set_option linter.unusedSectionVars false

namespace Gdspy

open Spec

section

variable {K : Type} [Field K] [LinearOrder K] [IsStrictOrderedRing K] [FloorRing K]

theorem polyNormals_ok {t : Num K} (hp : Num.Polar t) : ∀ (r : List (Pt K)) (p : Pt K), Apart (p :: r) →
    ∃ vs, polyNormals t (p :: r) = .ok vs ∧ vs.length = r.length
  | [], _, _ => ⟨[], rfl, rfl⟩
  | q :: r, p, h => by
    obtain ⟨h1, h2⟩ := (h : 0 < dist2 p q ∧ Apart (q :: r))
    obtain ⟨vs, e, el⟩ := polyNormals_ok hp r q h2
    have hd : (q.1 - p.1) ^ 2 + (q.2 - p.2) ^ 2 = dist2 p q := by unfold dist2; ring
    have hs : t.sqrt ((q.1 - p.1) ^ 2 + (q.2 - p.2) ^ 2) ≠ 0 := by
      intro h0
      have := hp.sqrtSq ((q.1 - p.1) ^ 2 + (q.2 - p.2) ^ 2) (by positivity)
      rw [h0, hd] at this
      simp at this
      exact absurd this.symm h1.ne'
    refine ⟨(-((psub q p).2 / t.sqrt ((psub q p).1 ^ 2 + (psub q p).2 ^ 2)),
      (psub q p).1 / t.sqrt ((psub q p).1 ^ 2 + (psub q p).2 ^ 2)) :: vs, ?_, by simpa using el⟩
    · have e1 : polyNormal t p q = .ok (-((psub q p).2 / t.sqrt ((psub q p).1 ^ 2 + (psub q p).2 ^ 2)),
          (psub q p).1 / t.sqrt ((psub q p).1 ^ 2 + (psub q p).2 ^ 2)) := by
        have e2 : polyUnit t p q = .ok ((psub q p).1 / t.sqrt ((psub q p).1 ^ 2 + (psub q p).2 ^ 2),
            (psub q p).2 / t.sqrt ((psub q p).1 ^ 2 + (psub q p).2 ^ 2)) := if_neg hs
        unfold polyNormal
        rw [e2]
        rfl
      rw [polyNormals, e1, e]
      rfl

/-- There are at most `b` points in the two sides. -/
def Short (b : Nat) (s : TwoSides K) : Prop := s.1.length + s.2.length ≤ b

theorem polyStep_short (bevel : Bool) (n ii : Nat) (k : PolyKink K) {s : TwoSides K} {b : Nat} (h : Short b s) :
    Short (b + 4) (polyStep bevel n ii k s) := by
  have h1 := polyTurn_length bevel (s.1.getLastD (0, 0)) (polySide n ii k.d k.w (-1) k.c k.v) (polySide n ii k.d k.w (-1) k.c k.v')
    (polySide n ii k.d1 k.w1 (-1) k.q k.v')
  have h2 := polyTurn_length bevel (s.2.getLastD (0, 0)) (polySide n ii k.d k.w 1 k.c k.v) (polySide n ii k.d k.w 1 k.c k.v')
    (polySide n ii k.d1 k.w1 1 k.q k.v')
  have h3 : turnMost bevel ≤ 2 := by cases bevel <;> decide
  unfold Short at *
  unfold polyStep
  simp only [List.length_append]
  omega

theorem polyCornerOf_ok {bevel : Bool} {n mp b : Nat} {layer datatype : List Int} {k : PolyKink K} (hmp : mp = 0 ∨ b + 7 ≤ mp) :
    ∀ (l : List Nat) (s : PolyState K), l.Nodup → (∀ i ∈ l, ∃ a, s.paths[i]? = some a ∧ Short b a) →
    (∀ (i : Nat) (a : TwoSides K), s.paths[i]? = some a → Short (b + 4) a) →
    ∃ s', l.foldlM (polyCornerOf bevel n mp layer datatype k) s = .ok s' ∧ s'.paths.length = s.paths.length ∧
      ∀ (i : Nat) (a : TwoSides K), s'.paths[i]? = some a → Short (b + 4) a
  | [], s, _, _, h => ⟨s, rfl, rfl, h⟩
  | i :: l, s, hn, h, h' => by
    obtain ⟨a, ha, hs⟩ := h i (by simp)
    have hsh := polyStep_short bevel n i k hs
    have e : polyCornerOf bevel n mp layer datatype k s i = .ok { s with paths := s.paths.set i (polyStep bevel n i k a) } := by
      unfold polyCornerOf
      have e1 : idx s.paths i = .ok a := by
        unfold idx
        rw [ha]
      have e2 : polyMayCut mp (polyStep bevel n i k a) = .ok (none, polyStep bevel n i k a) := by
        unfold polyMayCut
        unfold Short at hsh
        rw [if_neg (by omega)]
      rw [e1]
      show (polyMayCut mp (polyStep bevel n i k a) >>= _) = _
      rw [e2]
      rfl
    have hi : i < s.paths.length := by
      by_contra hx
      rw [List.getElem?_eq_none (by omega)] at ha
      cases ha
    obtain ⟨s', e1, e2, e3⟩ := polyCornerOf_ok (bevel := bevel) (n := n) (layer := layer) (datatype := datatype) (k := k) hmp l
      { s with paths := s.paths.set i (polyStep bevel n i k a) } (List.nodup_cons.1 hn).2 (fun j hj => by
        have hne : i ≠ j := fun h => (List.nodup_cons.1 hn).1 (h ▸ hj)
        show ∃ a', (s.paths.set i (polyStep bevel n i k a))[j]? = some a' ∧ _
        rw [List.getElem?_set_ne hne]
        exact h j (by simp [hj])) (fun j x hx => by
        by_cases hij : i = j
        · subst hij
          have : (s.paths.set i (polyStep bevel n i k a))[i]? = some x := hx
          rw [List.getElem?_set_self hi] at this
          cases this
          exact hsh
        · have : (s.paths.set i (polyStep bevel n i k a))[j]? = some x := hx
          rw [List.getElem?_set_ne hij] at this
          exact h' j x this)
    refine ⟨s', ?_, by simpa using e2, e3⟩
    rw [List.foldlM_cons, e]
    exact e1

theorem polyCorners_ok {bevel : Bool} {n mp : Nat} {layer datatype : List Int} : ∀ (ks : List (PolyKink K)) (s : PolyState K) (b : Nat),
    s.paths.length = n → (∀ (i : Nat) (a : TwoSides K), s.paths[i]? = some a → Short b a) → (mp = 0 ∨ b + 4 * ks.length + 3 ≤ mp) →
    ∃ s', polyCorners bevel n mp layer datatype s ks = .ok s'
  | [], s, _, _, _, _ => ⟨s, rfl⟩
  | k :: ks, s, b, h, hb, hmp => by
    rw [List.length_cons] at hmp
    obtain ⟨s1, e1, e2, e3⟩ := polyCornerOf_ok (bevel := bevel) (n := n) (mp := mp) (layer := layer) (datatype := datatype) (k := k)
      (b := b) (by omega) (List.range n) s List.nodup_range (fun i hi => by
        have hlt : i < s.paths.length := by rw [h]; exact List.mem_range.1 hi
        exact ⟨_, List.getElem?_eq_getElem hlt, hb i _ (List.getElem?_eq_getElem hlt)⟩) (fun i a ha => by
        have := hb i a ha
        unfold Short at *
        omega)
    obtain ⟨s2, e4⟩ := polyCorners_ok (bevel := bevel) (mp := mp) (layer := layer) (datatype := datatype) ks s1 (b + 4) (e2.trans h) e3
      (by omega)
    refine ⟨s2, ?_⟩
    unfold polyCorners at e4 ⊢
    rw [List.foldlM_cons, e1]
    exact e4

theorem polyKinks_length (widths dists : List K) : ∀ (pts vs : List (Pt K)) (i : Nat),
    (polyKinks widths dists i pts vs).length ≤ pts.length - 2
  | [], _, _ => by simp [polyKinks]
  | [_], _, _ => by simp [polyKinks]
  | [_, _], _, _ => by simp [polyKinks]
  | _ :: _ :: _ :: _, [], _ => by simp [polyKinks]
  | _ :: _ :: _ :: _, [_], _ => by simp [polyKinks]
  | a :: c :: q :: r, v :: v' :: vs, i => by
    have := polyKinks_length widths dists (c :: q :: r) (v' :: vs) (i + 1)
    simp only [polyKinks, List.length_cons] at this ⊢
    omega

theorem expand_ok (n : Nat) {l : List Int} (h : l ≠ []) : ∃ r, LayerArg.expand n (.list l) = .ok r := by
  cases l with
  | nil => exact absurd rfl h
  | cons a l => exact ⟨_, rfl⟩

theorem idx_ok {α : Type} {l : List α} {i : Nat} (h : i < l.length) : idx l i = .ok l[i] := by
  unfold idx
  rw [List.getElem?_eq_getElem h]

theorem bind_ex {α β : Type} {x : Py α} {f : α → Py β} {a : α} (hx : x = .ok a) (hf : ∃ b, f a = .ok b) : ∃ b, (x >>= f) = .ok b := by
  subst hx
  exact hf

/-- **C75.** If the number of vertices is not limited, or the limit cannot be reached, at least two points, consecutive ones different, and non-empty lists make a
`PolyPath` with flush ends. -/
theorem C75_returns {t : Num K} (hp : Num.Polar t) {p q : Pt K} {r : List (Pt K)} {widths dists : List K} (n : Nat)
    {corners : PolyCorner} {mp : Nat} {layer datatype : List Int} (hmp : mp = 0 ∨ 4 * (r.length + 2) ≤ mp + 3) (hd : Apart (p :: q :: r)) (hw : widths ≠ []) (hds : dists ≠ [])
    (hl : layer ≠ []) (hdt : datatype ≠ []) (hc : corners = .miter ∨ corners = .bevel) :
    ∃ P, polyPathNew t (p :: q :: r) widths n dists corners .flush mp layer datatype = .ok P := by
  obtain ⟨vs, e, el⟩ := polyNormals_ok hp (q :: r) p hd
  have hwl : 0 < (widths.map (· / 2)).length := by simpa using List.length_pos_of_ne_nil hw
  by_cases hn : r = [] ∧ n = 1
  · obtain ⟨rfl, rfl⟩ := hn
    show ∃ P, polySegment t (widths.map (· / 2)) .flush layer datatype p q = .ok P
    unfold polySegment
    have hv : ∃ v, polyUnit t p q = .ok v := by
      rw [polyNormals] at e
      obtain ⟨v, hv, -⟩ := bind_ok_inv e
      unfold polyNormal at hv
      obtain ⟨v', hv', -⟩ := bind_ok_inv hv
      exact ⟨v', hv'⟩
    obtain ⟨v, hv⟩ := hv
    rw [hv, idx_ok hwl, idx_ok (List.length_pos_of_ne_nil hl), idx_ok (List.length_pos_of_ne_nil hdt)]
    exact ⟨_, rfl⟩
  · have e1 : polyPathNew t (p :: q :: r) widths n dists corners .flush mp layer datatype =
        polyLine t (widths.map (· / 2)) dists n corners .flush mp layer datatype (p :: q :: r) := by
      unfold polyPathNew
      split
      · rename_i hx
        exact absurd ⟨(List.cons.inj (List.cons.inj hx).2).2, rfl⟩ hn
      · rfl
    rw [e1]
    obtain ⟨bv, hb⟩ : ∃ bv, corners.resolve = .ok bv := by rcases hc with rfl | rfl <;> exact ⟨_, rfl⟩
    have hvl : 0 < vs.length := by rw [el]; simp
    obtain ⟨l1, h1⟩ := expand_ok n hl
    obtain ⟨l2, h2⟩ := expand_ok n hdt
    obtain ⟨s, hs⟩ := polyCorners_ok (bevel := bv) (n := n) (mp := mp) (layer := layer) (datatype := datatype)
      (polyKinks (widths.map (· / 2)) dists 0 (p :: q :: r) vs)
      ⟨polyStart n (cycVal (widths.map (· / 2)) 0) (dists[0]'(List.length_pos_of_ne_nil hds)) p (vs[0]'hvl), [], [], []⟩
      2 (by simp [polyStart]) (fun i a ha => by
        have ha : (polyStart n (cycVal (widths.map (· / 2)) 0) (dists[0]'(List.length_pos_of_ne_nil hds)) p (vs[0]'hvl))[i]? = some a := ha
        unfold polyStart at ha
        rw [List.getElem?_map] at ha
        obtain ⟨x, -, rfl⟩ := Option.map_eq_some_iff.1 ha
        exact le_refl _) (by
        have := polyKinks_length (widths.map (· / 2)) dists (p :: q :: r) vs 0
        simp only [List.length_cons] at this
        omega)
    have hne : ¬ (widths.map (· / 2) = [] ∧ n ≠ 0) := fun h => hw (by simpa using h.1)
    unfold polyLine
    refine bind_ex hb (bind_ex (a := .flush) rfl (bind_ex (a := p :: q :: r) rfl (bind_ex (a := ⟨[], [], []⟩) rfl
      (bind_ex (a := p) rfl (bind_ex (a := q) rfl (bind_ex e (bind_ex (idx_ok hvl)
        (bind_ex (idx_ok (List.length_pos_of_ne_nil hds)) ?_))))))))
    rw [if_neg hne]
    exact bind_ex hs (bind_ex (idx_ok (l := p :: q :: r) (by simp)) (bind_ex (idx_ok (l := vs) (by omega)) (bind_ex h1 (bind_ex h2
      ⟨_, rfl⟩))))

end

/-- A right angle, in two paths: all hypotheses are met. -/
example : ∃ P, polyPathNew realNum [(0, 0), (1, 0), (1, 1)] [1 / 2] 2 [1] .miter .flush 0 [3] [4, 5] = .ok P :=
  C75_returns realNum_polar 2 (Or.inl rfl) (by simp [Apart, dist2]) (by simp) (by simp) (by simp) (by simp) (Or.inl rfl)

/-- The same angle in one path has area width times length. -/
example : ∃ P, polyPathNew realNum [(0, 0), (1, 0), (1, 1)] [1 / 2] 1 [1] .miter .flush 0 [3] [4, 5] = .ok P ∧
    (P.polygons.map shoelace).sum = 2 * (1 / 2 * 2) := by
  have ha : Apart [((0 : ℝ), (0 : ℝ)), (1, 0), (1, 1)] := by simp [Apart, dist2]
  obtain ⟨P, hP⟩ := C75_returns realNum_polar (widths := [1 / 2]) (dists := [1]) (layer := [3]) (datatype := [4, 5]) 1 (Or.inl rfl) ha
    (by simp) (by simp) (by simp) (by simp) (Or.inl rfl)
  refine ⟨P, hP, ?_⟩
  have d1 : dist2 ((0 : ℝ), (0 : ℝ)) (1, 0) = 1 := by norm_num [dist2]
  have d2 : dist2 ((1 : ℝ), (0 : ℝ)) (1, 1) = 1 := by norm_num [dist2]
  have s1 : realNum.sqrt 1 = 1 := Real.sqrt_one
  rw [C75_area (w := 1 / 2) realNum_laws realNum_polar (fun j => by simp [cyc, Nat.mod_one]) (Or.inl rfl) (Or.inl rfl) ha ?_ hP]
  · simp only [lineLength, d1, d2, s1]
    norm_num
  · refine ⟨Or.inr ?_, trivial⟩
    unfold inset
    rw [d1, d2, s1]
    norm_num [cornerTurn, aheadAt]

/-- With the default limit, 199: the parts of `C75_outline`, `C75_limit` and `C75_cut`. -/
example : ∃ P P', polyPathNew realNum [(0, 0), (1, 0), (1, 1)] [1 / 2] 2 [1] .bevel .flush 199 [3] [4, 5] = .ok P ∧
    polyPathNew realNum [(0, 0), (1, 0), (1, 1)] [1 / 2] 2 [1] .bevel .flush 0 [3] [4, 5] = .ok P' ∧
    (P.polygons.map shoelace).sum = (P'.polygons.map shoelace).sum ∧ (∀ g ∈ P.polygons, g.length ≤ 200) ∧
    P'.polygons.length = 2 := by
  have ha : Apart [((0 : ℝ), (0 : ℝ)), (1, 0), (1, 1)] := by simp [Apart, dist2]
  obtain ⟨P, hP⟩ := C75_returns realNum_polar (widths := [1 / 2]) (dists := [1]) (layer := [3]) (datatype := [4, 5]) (mp := 199) 2
    (by simp) ha (by simp) (by simp) (by simp) (by simp) (Or.inr rfl)
  obtain ⟨P', hP'⟩ := C75_returns realNum_polar (widths := [1 / 2]) (dists := [1]) (layer := [3]) (datatype := [4, 5]) (mp := 0) 2
    (by simp) ha (by simp) (by simp) (by simp) (by simp) (Or.inr rfl)
  refine ⟨P, P', hP, hP', C75_cut realNum_laws realNum_polar hP hP', fun g hg => ?_, ?_⟩
  · rcases C75_limit realNum_laws realNum_polar (by norm_num) hP g hg with ⟨_, h⟩ | ⟨_, h⟩ | ⟨h, -⟩ | ⟨-, -, h⟩ <;> omega
  · obtain ⟨b, p1, c1, U, gs, -, e2, e3, e4, e5⟩ := C75_outline realNum_laws realNum_polar (by simp) hP'
    have hc : c1 = [] := by
      rcases e2 with ⟨-, -, h⟩ | ⟨h, -⟩ | ⟨h, -⟩
      · exact h
      · simp at h
      · simp at h
    rw [e3.polygons, hc, List.nil_append, List.length_map, e4.length_eq]
    have h0 := (e5 0 (by norm_num)).2.1 rfl
    have h1 := (e5 1 (by norm_num)).2.1 rfl
    simp [List.range_succ, h0, h1]

/-- A single segment. -/
example : ∃ P, polyPathNew realNum [(0, 0), (1, 0)] [1 / 2, 1] 1 [1] .miter .flush 4 [3] [4] = .ok P ∧
    ∃ g ∈ P.polygons, shoelace g = 3 / 2 := by
  have ha : Apart [((0 : ℝ), (0 : ℝ)), (1, 0)] := by simp [Apart, dist2]
  obtain ⟨P, hP⟩ := C75_returns realNum_polar (widths := [1 / 2, 1]) (dists := [1]) (layer := [3]) (datatype := [4]) (mp := 8) 1
    (by simp) ha (by simp) (by simp) (by simp) (by simp) (Or.inl rfl)
  obtain ⟨p', q', g, caps, e1, -, -, -, e5⟩ := C75_segment realNum_laws realNum_polar hP
  refine ⟨P, hP, g, ?_, ?_⟩
  · rw [e1.polygons]
    simp
  · have d1 : dist2 ((0 : ℝ), (0 : ℝ)) (1, 0) = 1 := by norm_num [dist2]
    have s1 : realNum.sqrt 1 = 1 := Real.sqrt_one
    rw [e5, d1, s1]
    simp [cyc]
    norm_num

/-- Round ends have 33 vertices, whatever the limit: four vertices at most were asked for. -/
theorem C75_round_ends_over_limit :
    ((polyPathNew ratNum [(0, 0), (1, 0)] [1] 1 [0] .miter .round 4 [0] [0]).map fun P => P.polygons.map List.length) =
      .ok [33, 33, 4] := by
  decide +kernel

/-- With bevelled corners, up to six vertices where four were asked for. -/
theorem C75_bevel_over_limit :
    ((polyPathNew ratNum [(0, 0), (1, 0), (1, 1), (0, 1)] [1] 2 [2] .bevel .flush 4 [0] [0]).map fun P => P.polygons.map List.length) =
      .ok [6, 4, 6, 4, 4, 4] := by
  decide +kernel

/-- Points on a straight line: pieces without an area, of two vertices. -/
theorem C75_cut_on_straight :
    ((polyPathNew ratNum [(0, 0), (1, 0), (2, 0), (3, 0)] [1] 1 [0] .miter .flush 4 [0] [0]).map fun P => P.polygons.map List.length) =
      .ok [2, 2, 4] := by
  decide +kernel

/-- A path that begins with width zero and has straight sides cannot be cut: IndexError. -/
theorem C75_cut_at_tip :
    polyPathNew ratNum [(0, 0), (1, 0), (2, 0)] [0, 1, 2] 1 [0] .miter .flush 4 [0] [0] = .error .indexError := by
  decide +kernel

/-- Two points and one path: the arguments are not checked, and the old codes for the ends are not understood. -/
theorem C75_segment_unchecked :
    (polyPathNew ratNum [(0, 0), (1, 0)] [1] 1 [0] .other .other 4 [0] [0]).isOk = true ∧
    polyPathNew ratNum [(0, 0), (1, 0)] [1] 1 [0] .miter (.code 2) 4 [0] [0] =
      polyPathNew ratNum [(0, 0), (1, 0)] [1] 1 [0] .miter .flush 4 [0] [0] ∧
    polyPathNew ratNum [(0, 0), (1, 0)] [1] 1 [0] .miter .extended 4 [0] [0] ≠
      polyPathNew ratNum [(0, 0), (1, 0)] [1] 1 [0] .miter .flush 4 [0] [0] := by
  decide +kernel

/-- No layers: IndexError for a single segment, ZeroDivisionError for a longer line. -/
theorem C75_no_layers :
    polyPathNew ratNum [(0, 0), (1, 0)] [1] 1 [0] .miter .flush 4 [] [0] = .error .indexError ∧
    polyPathNew ratNum [(0, 0), (1, 0), (1, 1)] [1] 1 [0] .miter .flush 199 [] [0] = .error .zeroDivision := by
  decide +kernel

end Gdspy
