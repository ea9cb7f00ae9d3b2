import Verif.Props.C75Sides
import Verif.Props.C48
import Verif.Props.C65Moves

/-!
# C75: the polygons of a PolyPath
-/

set_option linter.unusedSectionVars false

namespace Gdspy

open Spec

variable {K : Type} [Field K] [LinearOrder K] [IsStrictOrderedRing K]

theorem cycVal_half (l : List K) (j : Nat) : cycVal (l.map (· / 2)) j = cyc l j / 2 := by
  unfold cycVal cyc
  rw [List.length_map]
  rw [List.getD_eq_getElem?_getD, List.getD_eq_getElem?_getD, List.getElem?_map]
  cases l[j % l.length]? with
  | none => simp
  | some x => rfl

theorem cycVal_zero {l : List K} {w : K} (h : idx l 0 = .ok w) : w = cycVal l 0 := by
  have := idx_some h
  unfold cycVal
  rw [Nat.zero_mod, List.getD_eq_getElem?_getD, this]
  rfl

theorem offAt_flankOff (widths dists : List K) (n ii : Nat) (σ : K) :
    offAt (widths.map (· / 2)) dists n ii σ = flankOff widths dists n ii σ := by
  funext j
  unfold offAt flankOff
  rw [cycVal_half]
  unfold cycVal cyc lane
  ring

theorem idx_getD {α : Type} {l : List α} {i : Nat} {a d : α} (h : idx l i = .ok a) : l.getD i d = a ∧ i < l.length := by
  have := idx_some h
  rw [List.getD_eq_getElem?_getD, this]
  refine ⟨rfl, ?_⟩
  by_contra hx
  rw [List.getElem?_eq_none (by omega)] at this
  cases this

theorem polyUnit_inv {t : Num K} {p q v : Pt K} (h : polyUnit t p q = .ok v) :
    v = ((q.1 - p.1) / t.sqrt ((q.1 - p.1) ^ 2 + (q.2 - p.2) ^ 2), (q.2 - p.2) / t.sqrt ((q.1 - p.1) ^ 2 + (q.2 - p.2) ^ 2)) ∧
      t.sqrt ((q.1 - p.1) ^ 2 + (q.2 - p.2) ^ 2) ≠ 0 := by
  unfold polyUnit at h
  change (if t.sqrt ((q.1 - p.1) ^ 2 + (q.2 - p.2) ^ 2) = 0 then Except.error PyErr.unmodelled
    else Except.ok ((q.1 - p.1) / t.sqrt ((q.1 - p.1) ^ 2 + (q.2 - p.2) ^ 2),
      (q.2 - p.2) / t.sqrt ((q.1 - p.1) ^ 2 + (q.2 - p.2) ^ 2))) = Except.ok v at h
  by_cases h0 : t.sqrt ((q.1 - p.1) ^ 2 + (q.2 - p.2) ^ 2) = 0
  · rw [if_pos h0] at h
    cases h
  · rw [if_neg h0] at h
    cases h
    exact ⟨rfl, h0⟩

theorem alongPt_ahead {t : Num K} {p q v : Pt K} (h : polyUnit t p q = .ok v) (c : Pt K) (w : K) :
    alongPt c v w = Side.ahead t (p, q) c w := by
  obtain ⟨rfl, -⟩ := polyUnit_inv h
  have : (q.1 - p.1) ^ 2 + (q.2 - p.2) ^ 2 = dist2 p q := by unfold dist2; ring
  unfold alongPt Side.ahead Side.vec
  rw [this]

/-- Extended ends. -/
theorem polyExtend_inv {t : Num K} {hw : List K} {pts pts' : List (Pt K)} (h : polyExtend t hw pts = .ok pts') :
    Lengthened t (cycVal hw 0) (cycVal hw (pts.length - 1)) pts pts' := by
  unfold polyExtend at h
  obtain ⟨p, hp, h⟩ := bind_ok_inv h
  obtain ⟨q, hq, h⟩ := bind_ok_inv h
  obtain ⟨v, hv, h⟩ := bind_ok_inv h
  obtain ⟨w, hw', h⟩ := bind_ok_inv h
  obtain ⟨b, hb, h⟩ := bind_ok_inv h
  obtain ⟨a, ha, h⟩ := bind_ok_inv h
  obtain ⟨v', hv', h⟩ := bind_ok_inv h
  cases h
  obtain ⟨ep, hlt⟩ := idx_getD (d := ((0 : K), (0 : K))) hp
  obtain ⟨eq, hlt'⟩ := idx_getD (d := ((0 : K), (0 : K))) hq
  rw [List.length_set] at hb ha
  have eb := (idx_getD (d := ((0 : K), (0 : K))) hb).1
  have ea := (idx_getD (d := ((0 : K), (0 : K))) ha).1
  have hw0 := cycVal_zero hw'
  subst hw0
  have hset : ∀ (l : List (Pt K)) (i j : Nat) (x : Pt K), i ≠ j → (l.set i x).getD j (0, 0) = l.getD j (0, 0) := by
    intro l i j x hij
    rw [List.getD_eq_getElem?_getD, List.getElem?_set_ne hij, List.getD_eq_getElem?_getD]
  have hself : ∀ (l : List (Pt K)) (i : Nat) (x : Pt K), i < l.length → (l.set i x).getD i (0, 0) = x := by
    intro l i x hi
    rw [List.getD_eq_getElem?_getD, List.getElem?_set_self hi]
    rfl
  have hbl : pts.getD (pts.length - 1) (0, 0) = b := by
    rw [← eb, hset _ _ _ _ (by omega)]
  constructor
  · simp
  · intro i h1 h2
    rw [hset _ _ _ _ (by rw [List.length_set]; omega), hset _ _ _ _ (by omega)]
  · rw [hset _ _ _ _ (by rw [List.length_set]; omega), hself _ _ _ hlt, ep, eq, alongPt_ahead hv]
  · rw [List.length_set, hself _ _ _ (by rw [List.length_set]; omega), hset _ _ _ _ (by omega), ea, hbl, alongPt_ahead hv']

/-- The unit vector of the direction of a segment. -/
theorem polar_unit {t : Num K} (hp : Num.Polar t) {x y : K} (h0 : t.sqrt (x ^ 2 + y ^ 2) ≠ 0) :
    t.cos (t.atan2 y x) = x / t.sqrt (x ^ 2 + y ^ 2) ∧ t.sin (t.atan2 y x) = y / t.sqrt (x ^ 2 + y ^ 2) :=
  ⟨by rw [eq_div_iff h0, mul_comm]; exact hp.cos x y, by rw [eq_div_iff h0, mul_comm]; exact hp.sin x y⟩

variable [FloorRing K]

theorem roundPiece_sector (t : Num K) (c : Pt K) (w o0 o1 i0 i1 : K) (h : o1 ≠ o0) :
    roundPiece t c (.one w) (.one 0) 33 o0 o1 i0 i1 = .ok ((0 + c.1, 0 + c.2) :: (linspace o0 o1 32).map (ellPt t c (w, w))) := by
  unfold roundPiece
  simp only []
  rw [if_neg h, if_pos (show (Radius.one (0 : K)).max' ≤ 0 from le_refl _), if_neg (by omega)]
  rfl

/-- One half disc. -/
theorem polyCap_inv {t : Num K} (ht : Num.Laws t) {c : Pt K} {w a : K} {g : Pgon K} (h : polyCap t c w a = .ok g) :
    HalfDisc t c w (t.cos a, t.sin a) g := by
  unfold polyCap at h
  obtain ⟨r, hr, h⟩ := bind_ok_inv h
  obtain ⟨n, k, fa', hn, hk, hk0, hfa, -, -, -, hall⟩ := roundNew_inv hr
  have hn' : n = 33 := by
    unfold roundPoints at hn
    cases hn
    rfl
  subst hn'
  have hk1 : k = 1 := hk
  subst hk1
  have hfa' : fa' = a + 2 * t.halfpi := by
    rw [hfa, if_neg (by rintro ⟨-, h⟩; omega)]
  subst hfa'
  obtain ⟨q, hq, hq'⟩ := hall 0 (by omega)
  rw [idx_some h] at hq
  cases hq
  have hpi := ht.pos
  have e0 : a + ((0 : Nat) : K) * ((a + 2 * t.halfpi - a) / ((1 : Nat) : K)) = a := by
    push_cast
    ring
  have e1 : a + ((0 + 1 : Nat) : K) * ((a + 2 * t.halfpi - a) / ((1 : Nat) : K)) = a + 2 * t.halfpi := by
    push_cast
    ring
  rw [e0, e1] at hq'
  have := roundPiece_sector t c w a (a + 2 * t.halfpi) a (a + 2 * t.halfpi) (by
    intro h
    have : 2 * t.halfpi = 0 := by linear_combination h
    linarith)
  have hq'' := this.symm.trans hq'
  cases hq''
  refine ⟨a, rfl, ?_⟩
  simp only [zero_add, List.cons.injEq, true_and]
  unfold linspace
  rw [List.map_map]
  apply List.map_congr_left
  intro i hi
  unfold ellPt
  simp only [Function.comp]
  have e : a + (i : K) * ((a + 2 * t.halfpi - a) / (((32 : Nat) : K) - 1)) = a + (i : K) * (2 * t.halfpi / 31) := by
    push_cast
    norm_num
  rw [e]
  ext <;> simp only <;> ring

theorem mapM_range_inv {f : Nat → Py (Pgon K)} {n : Nat} {l : List (Pgon K)} (h : (List.range n).mapM f = .ok l) :
    ∃ g : Nat → Pgon K, l = (List.range n).map g ∧ ∀ ii < n, f ii = .ok (g ii) := by
  obtain ⟨h1, h2⟩ := mapM_inv f _ l h
  rw [List.length_range] at h1
  refine ⟨fun ii => l.getD ii [], ?_, fun ii hii => ?_⟩
  · refine List.ext_getElem (by simp [h1]) fun i hi hi' => ?_
    simp [List.getElem?_eq_getElem hi]
  · obtain ⟨b, e1, e2⟩ := h2 ii ii (by rw [List.getElem?_range hii])
    show f ii = .ok (l.getD ii [])
    rw [e2, List.getD_eq_getElem?_getD, e1]
    rfl

/-- Round ends. -/
theorem polyCaps_inv {t : Num K} (ht : Num.Laws t) (hp : Num.Polar t) {widths dists : List K} {n : Nat} {layer datatype : List Int}
    {pts : List (Pt K)} {P : PolySet K} (h : polyCaps t (widths.map (· / 2)) dists n layer datatype pts = .ok P) :
    ∃ one two : Nat → Pgon K, RoundEnds t widths dists n pts one two ∧
      Holds (((List.range n).map fun ii => (one ii, pick (.list layer) ii, pick (.list datatype) ii)) ++
        ((List.range n).map fun ii => (two ii, pick (.list layer) ii, pick (.list datatype) ii))) P.polygons P.layers P.datatypes := by
  unfold polyCaps at h
  obtain ⟨p, hp0, h⟩ := bind_ok_inv h
  obtain ⟨q, hq0, h⟩ := bind_ok_inv h
  obtain ⟨v0, hv0, h⟩ := bind_ok_inv h
  obtain ⟨d, hd, h⟩ := bind_ok_inv h
  obtain ⟨b, hb, h⟩ := bind_ok_inv h
  obtain ⟨a, ha, h⟩ := bind_ok_inv h
  obtain ⟨v1, hv1, h⟩ := bind_ok_inv h
  obtain ⟨one, hone, h⟩ := bind_ok_inv h
  obtain ⟨two, htwo, h⟩ := bind_ok_inv h
  obtain ⟨l, hl, h⟩ := bind_ok_inv h
  obtain ⟨dt, hdt, h⟩ := bind_ok_inv h
  cases h
  obtain ⟨g1, rfl, hg1⟩ := mapM_range_inv hone
  obtain ⟨g2, rfl, hg2⟩ := mapM_range_inv htwo
  have ep := (idx_getD (d := ((0 : K), (0 : K))) hp0).1
  have eq := (idx_getD (d := ((0 : K), (0 : K))) hq0).1
  have eb := (idx_getD (d := ((0 : K), (0 : K))) hb).1
  have ea := (idx_getD (d := ((0 : K), (0 : K))) ha).1
  have ed := cycVal_zero hd
  obtain ⟨rfl, n0⟩ := polyNormal_inv hv0
  obtain ⟨rfl, n1⟩ := polyNormal_inv hv1
  refine ⟨g1, g2, fun ii hii => ⟨?_, ?_⟩, ?_⟩
  · have h := hg1 ii hii
    obtain ⟨w, hw, h⟩ := bind_ok_inv h
    have hw := cycVal_zero hw
    have h := polyCap_inv ht h
    obtain ⟨c1, c2⟩ := polar_unit hp n0
    obtain ⟨c3, c4⟩ := cos_add_half ht (t.atan2 (q.2 - p.2) (q.1 - p.1))
    rw [ep, eq]
    rw [c3, c4, c1, c2] at h
    convert h using 1
    · unfold leftPt polySide alongPt lane cyc
      rw [ed]
      unfold cycVal
      ext <;> simp only <;> ring
    · rw [hw, cycVal_half]
    · unfold leftPt toLeft
      ext <;> simp only <;> ring
  · have h := polyCap_inv ht (hg2 ii hii)
    obtain ⟨c1, c2⟩ := polar_unit hp n1
    obtain ⟨c3, c4⟩ := cos_sub_half ht (t.atan2 (b.2 - a.2) (b.1 - a.1))
    rw [ea, eb]
    rw [c3, c4, c1, c2, cycVal_half] at h
    convert h using 1
    · unfold leftPt polySide alongPt lane cyc cycVal
      ext <;> simp only <;> ring
    · unfold leftPt toLeft
      ext <;> simp only <;> ring
  · have e1 := expand_eq n _ _ hl
    have e2 := expand_eq n _ _ hdt
    refine Holds.add ⟨?_, ?_, ?_⟩ ⟨?_, ?_, ?_⟩ <;> first | rw [e1] | rw [e2] | skip
    all_goals simp [List.map_map, Function.comp_def]

theorem PolyEnd.resolve_inv {e e' : PolyEnd} (h : e.resolve = .ok e') :
    (e' = .flush ∧ (e = .flush ∨ e = .code 0)) ∨ (e' = .round ∧ (e = .round ∨ e = .code 1)) ∨
      (e' = .extended ∧ (e = .extended ∨ e = .code 2)) := by
  cases e with
  | flush => cases h; simp
  | round => cases h; simp
  | extended => cases h; simp
  | other => cases h
  | code n =>
    unfold PolyEnd.resolve at h
    simp only at h
    split at h
    · cases h; subst_vars; simp
    · split at h
      · cases h; subst_vars; simp
      · split at h
        · cases h; subst_vars; simp
        · cases h

theorem PolyCorner.resolve_inv {c : PolyCorner} {b : Bool} (h : c.resolve = .ok b) :
    (b = false ∧ (c = .miter ∨ c = .code 0)) ∨ (b = true ∧ (c = .bevel ∨ c = .code 1)) := by
  cases c with
  | miter => cases h; simp
  | bevel => cases h; simp
  | other => cases h
  | code n =>
    unfold PolyCorner.resolve at h
    simp only at h
    split at h
    · cases h; subst_vars; simp
    · split at h
      · cases h; subst_vars; simp
      · cases h

theorem pathRun_uncut {bevel : Bool} {n ii : Nat} : ∀ (ks : List (PolyKink K)) {a b : TwoSides K} {gs : List (Pgon K)},
    pathRun bevel n 0 ii ks a = .ok (gs, b) → gs = []
  | [], a, b, gs, h => by cases h; rfl
  | k :: ks, a, b, gs, h => by
    unfold pathRun at h
    obtain ⟨r, hr, h⟩ := bind_ok_inv h
    obtain ⟨r', hr', h⟩ := bind_ok_inv h
    cases h
    unfold polyMayCut at hr
    rw [if_neg (by omega)] at hr
    cases hr
    exact pathRun_uncut ks (b := r'.2) (gs := r'.1) hr'

/-- A line of at least three points, or several paths: the result is made of the ends and, for each path, of the pieces of the area
between its two sides. -/
theorem C75_outline {t : Num K} (ht : Num.Laws t) (hp : Num.Polar t) {pts : List (Pt K)} {widths : List K} {n : Nat} {dists : List K}
    {corners : PolyCorner} {ends : PolyEnd} {mp : Nat} {layer datatype : List Int} {P : PolySet K}
    (hn : ¬ (pts.length = 2 ∧ n = 1)) (h : polyPathNew t pts widths n dists corners ends mp layer datatype = .ok P) :
    ∃ (bevel : Bool) (pts' : List (Pt K)) (caps U : List (TaggedPoly K)) (gs : Nat → List (Pgon K)),
      ((bevel = false ∧ (corners = .miter ∨ corners = .code 0)) ∨ (bevel = true ∧ (corners = .bevel ∨ corners = .code 1))) ∧
      EndsOf t widths dists n (fun ii => (pick (.list layer) ii, pick (.list datatype) ii)) ends pts pts' caps ∧
      Holds (caps ++ U) P.polygons P.layers P.datatypes ∧
      U.Perm ((List.range n).flatMap fun ii => (gs ii).map fun g => (g, pick (.list layer) ii, pick (.list datatype) ii)) ∧
      ∀ ii < n, Ribbon t bevel (flankOff widths dists n ii (-1)) (flankOff widths dists n ii 1) pts' (gs ii) ∧
        (mp = 0 → (gs ii).length = 1) ∧
        (0 < mp → ∀ g ∈ gs ii, g.length ≤ if bevel then max 6 (mp + 1) else max 4 (mp - 1)) := by
  have h : polyLine t (widths.map (· / 2)) dists n corners ends mp layer datatype pts = .ok P := by
    unfold polyPathNew at h
    split at h
    · exact absurd ⟨rfl, rfl⟩ hn
    · exact h
  unfold polyLine at h
  obtain ⟨bevel, hb, h⟩ := bind_ok_inv h
  obtain ⟨ends', he, h⟩ := bind_ok_inv h
  obtain ⟨pts', hpts, h⟩ := bind_ok_inv h
  obtain ⟨caps, hcaps, h⟩ := bind_ok_inv h
  obtain ⟨p, hp0, h⟩ := bind_ok_inv h
  obtain ⟨q, hq0, h⟩ := bind_ok_inv h
  obtain ⟨vs, hvs, h⟩ := bind_ok_inv h
  obtain ⟨v, hv, h⟩ := bind_ok_inv h
  obtain ⟨d0, hd0, h⟩ := bind_ok_inv h
  obtain ⟨r, rfl⟩ : ∃ r, pts' = p :: q :: r := by
    have h1 := idx_some hp0
    have h2 := idx_some hq0
    match pts', h1, h2 with
    | a :: b :: r, h1, h2 => cases h1; cases h2; exact ⟨r, rfl⟩
  by_cases hne : widths.map (· / 2) = [] ∧ n ≠ 0
  · rw [if_pos hne] at h
    cases h
  rw [if_neg hne] at h
  obtain ⟨s, hs, h⟩ := bind_ok_inv h
  obtain ⟨q', hq', h⟩ := bind_ok_inv h
  obtain ⟨v', hv', h⟩ := bind_ok_inv h
  obtain ⟨l, hl, h⟩ := bind_ok_inv h
  obtain ⟨dt, hdt, h⟩ := bind_ok_inv h
  cases h
  obtain ⟨T, hT, hE⟩ : ∃ T : List (TaggedPoly K), Holds T caps.polygons caps.layers caps.datatypes ∧
      EndsOf t widths dists n (fun ii => (pick (.list layer) ii, pick (.list datatype) ii)) ends pts (p :: q :: r) T := by
    rcases PolyEnd.resolve_inv he with ⟨rfl, hx⟩ | ⟨rfl, hx⟩ | ⟨rfl, hx⟩
    · cases hpts
      cases hcaps
      exact ⟨[], ⟨rfl, rfl, rfl⟩, Or.inl ⟨hx, rfl, rfl⟩⟩
    · cases hpts
      obtain ⟨one, two, h1, h2⟩ := polyCaps_inv ht hp hcaps
      exact ⟨_, h2, Or.inr (Or.inl ⟨hx, rfl, one, two, rfl, h1⟩)⟩
    · cases hcaps
      have := polyExtend_inv hpts
      rw [cycVal_half, cycVal_half] at this
      exact ⟨[], ⟨rfl, rfl, rfl⟩, Or.inr (Or.inr ⟨hx, this, rfl⟩)⟩
  obtain ⟨gs, g1, g2, g3⟩ := corners_inv _ (by unfold polyStart; simp) hs
  obtain ⟨U, u1, u2⟩ := g3 T hT
  obtain ⟨e, he'⟩ : ∃ e : Nat → Pt K × Pt K, e = fun ii =>
    (polySide n ii (cycVal dists (r.length + 1)) (cycVal (widths.map (· / 2)) (r.length + 1)) (-1) q' v',
     polySide n ii (cycVal dists (r.length + 1)) (cycVal (widths.map (· / 2)) (r.length + 1)) 1 q' v') := ⟨_, rfl⟩
  have hfin : List.zipWith polyFinish s.paths (polyEnds n (cycVal (widths.map (· / 2)) ((p :: q :: r).length - 1))
      (cycVal dists ((p :: q :: r).length - 1)) q' v') = (List.range n).map fun ii => polyFinish (s.paths.getD ii ([], [])) (e ii) := by
    refine List.ext_getElem (by simp [polyEnds, g1]) fun i h1 h2 => ?_
    have hi : i < s.paths.length := by
      rw [List.length_zipWith] at h1
      omega
    simp only [List.getElem_zipWith, polyEnds, List.getElem_map, List.getElem_range, he']
    rw [List.getD_eq_getElem?_getD, List.getElem?_eq_getElem hi]
    rfl
  refine ⟨bevel, p :: q :: r, T, U ++ (List.range n).map (fun ii => (polyFinish (s.paths.getD ii ([], [])) (e ii), pick (.list layer) ii, pick (.list datatype) ii)),
    fun ii => gs ii ++ [polyFinish (s.paths.getD ii ([], [])) (e ii)], PolyCorner.resolve_inv hb, hE, ?_, ?_, ?_⟩
  · rw [← List.append_assoc]
    refine u1.add ⟨?_, ?_, ?_⟩
    · rw [hfin]
      simp [List.map_map, Function.comp_def]
    · rw [expand_eq n _ _ hl]
      simp [List.map_map, Function.comp_def]
    · rw [expand_eq n _ _ hdt]
      simp [List.map_map, Function.comp_def]
  · simp only [List.map_append, List.map_cons, List.map_nil]
    refine List.Perm.trans (List.Perm.append_right _ u2) ?_
    refine List.Perm.trans ?_ (List.flatMap_append_perm _ _ _)
    rw [← List.map_eq_flatMap]
    exact List.Perm.refl _
  · intro ii hii
    obtain ⟨a, b, h1, h2, h3⟩ := g2 ii hii
    have hb' : s.paths.getD ii ([], []) = b := by
      rw [List.getD_eq_getElem?_getD, h2]
      rfl
    have ha : a = ([polySide n ii d0 (cycVal (widths.map (· / 2)) 0) (-1) p v], [polySide n ii d0 (cycVal (widths.map (· / 2)) 0) 1 p v]) := by
      unfold polyStart at h1
      rw [List.getElem?_map, List.getElem?_range hii] at h1
      cases h1
      rfl
    have hd : d0 = cycVal dists 0 := cycVal_zero hd0
    show Ribbon t bevel _ _ _ (gs ii ++ [polyFinish (s.paths.getD ii ([], [])) (e ii)]) ∧
      (mp = 0 → (gs ii ++ [polyFinish (s.paths.getD ii ([], [])) (e ii)]).length = 1) ∧
      (0 < mp → ∀ g ∈ gs ii ++ [polyFinish (s.paths.getD ii ([], [])) (e ii)],
        g.length ≤ if bevel then max 6 (mp + 1) else max 4 (mp - 1))
    rw [hb']
    refine ⟨?_, fun h0 => ?_, fun h0 g hg => ?_⟩
    · have hpc := pathRun_pieces (e ii) _ (by rw [ha]; simp) (by rw [ha]; simp) h3
      obtain ⟨v2, e2, y, f1, f2, f3, f4, f5⟩ := flank_run (bevel := bevel) (hw := widths.map (· / 2)) (dists := dists) (n := n) (ii := ii)
        (σ := -1) r p q (polySide n ii d0 (cycVal (widths.map (· / 2)) 0) (-1) p v) 0 hvs
      obtain ⟨v3, e3, y', f1', f2', f3', f4', f5'⟩ := flank_run (bevel := bevel) (hw := widths.map (· / 2)) (dists := dists) (n := n) (ii := ii)
        (σ := 1) r p q (polySide n ii d0 (cycVal (widths.map (· / 2)) 0) 1 p v) 0 hvs
      have hv0 := idx_some hv
      rw [hv0] at f1 f1'
      cases f1
      cases f1'
      have hve := idx_some hv'
      have hge : vs.getLast? = some v' := by
        rw [List.getLast?_eq_getElem?]
        exact hve
      rw [hge] at f2 f2'
      cases f2
      cases f2'
      have hqe : (q :: r).getLastD (0, 0) = q' := by
        have := idx_some hq'
        rw [show (p :: q :: r).length - 1 = (q :: r).length - 1 + 1 by simp, List.getElem?_cons_succ, ← List.getLast?_eq_getElem?] at this
        rw [List.getLastD_eq_getLast?, this]
        rfl
      rw [hqe, Nat.zero_add] at f3 f3'
      rw [offAt_flankOff] at f4 f4' f5 f5'
      rw [ha] at hpc
      rw [he'] at hpc
      simp only at hpc
      rw [f3, f3'] at hpc
      rw [he']
      rw [← hd] at f5 f5'
      refine ⟨_, _, y, y', rfl, rfl, ?_, ?_, ?_⟩
      · rw [← f5]; exact f4
      · rw [← f5']; exact f4'
      · rw [← f5, ← f5']; exact hpc
    · subst h0
      rw [pathRun_uncut _ h3]
      rfl
    · refine (pathRun_limit h0 (e ii) _ (by rw [ha]; simp) (by rw [ha]; simp) (by rw [ha]; exact Or.inl rfl) h3 g hg).trans ?_
      cases bevel <;> simp [turnMost]

end Gdspy
