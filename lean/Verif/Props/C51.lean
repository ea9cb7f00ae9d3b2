import Verif.Props.C50

/-!
C51: `boolean` follows set algebra, with the exceptions for an empty second operand.
-/

set_option linter.unusedSectionVars false

namespace Gdspy.Spec

variable {K : Type} [Field K] [LinearOrder K] [FloorRing K]

/-- The region that a list of polygons covers when its vertices are moved to the grid. -/
def Region (precision : K) (polys : List (Pgon K)) (v : Pt K) : Prop :=
  ∃ P ∈ polys, wind (snapPoly precision P) v ≠ 0

/-- Polygons that the clipper does not move: vertices on the grid, of class `C` in grid units. -/
def Gridded (C : List IPt → Prop) (precision : K) (P : Pgon K) : Prop :=
  ∃ Q, C Q ∧ P = (ofGrid Q).map fun w => (precision * w.1, precision * w.2)

/-- What is said of a result `r` of `boolean`: the region, None exactly for the empty region, layer and
datatype, and the limit of vertices. -/
def IsResult (r : BoolOut K) (region : Pt K → Prop) (layer datatype : Int) (maxPoints : Nat) : Prop :=
  (∀ v, (∃ ps, r = .set ps ∧ Covers ps.polygons v) ↔ region v) ∧ (r = .none ↔ ∀ v, ¬ region v) ∧
  ∀ ps, r = .set ps → Aligned ps ∧ (∀ a ∈ ps.layers, a = layer) ∧ (∀ a ∈ ps.datatypes, a = datatype) ∧
    (4 < maxPoints → ∀ P ∈ ps.polygons, P.length ≤ maxPoints)

end Gdspy.Spec

namespace Gdspy

open Gdspy.Spec

variable {K : Type} [Field K] [LinearOrder K] [IsStrictOrderedRing K] [FloorRing K]

/-! ### Winding numbers of oriented operands -/

theorem shoelace_grid_scale (s : K) (Q : Pgon K) :
    shoelace (Q.map fun w => (s * w.1, s * w.2)) = s ^ 2 * shoelace Q := by
  rw [shoelace_edges, shoelace_edges, edges_map, List.map_map]
  induction edges Q with
  | nil => simp
  | cons e l ih =>
    rw [List.map_cons, List.sum_cons, ih, List.map_cons, List.sum_cons]
    simp only [Function.comp, Prod.map]
    ring

theorem directed_parse {precision : K} (hp : 0 < precision) (P : Pgon K) (h : Directed (snapPoly precision P))
    (v : Pt K) : 0 ≤ wind (ofGrid (parsePolygon (1 / precision) true P)) (unit precision v) := by
  show 0 ≤ wind (ofGrid (orientPath (P.map (gridPt (1 / precision))))) (unit precision v)
  have hsh : shoelace (snapPoly precision P) =
      precision ^ 2 * ((orientation (P.map (gridPt (1 / precision))) : Int) : K) := by
    rw [snapPoly_grid, shoelace_grid_scale, orientation_shoelace]
  have hw := wind_snap hp P v
  unfold orientPath
  rcases h with ⟨h1, h2⟩ | ⟨h1, h2⟩
  · rw [hsh] at h1
    have : 0 ≤ orientation (P.map (gridPt (1 / precision))) := by
      have := nonneg_of_mul_nonneg_right h1 (by positivity)
      exact_mod_cast this
    rw [if_neg (by omega), ← hw]
    exact h2 v
  · rw [hsh] at h1
    have : orientation (P.map (gridPt (1 / precision))) < 0 := by
      have := neg_of_mul_neg_right h1 (by positivity)
      exact_mod_cast this
    rw [if_pos this, ofGrid_reverse, wind_reverse, ← hw]
    have := h2 v
    omega

theorem sum_nonneg_ne_zero (l : List Int) (h : ∀ x ∈ l, 0 ≤ x) : 0 ≤ l.sum ∧ (l.sum ≠ 0 ↔ ∃ x ∈ l, x ≠ 0) := by
  induction l with
  | nil => simp
  | cons a l ih =>
    obtain ⟨h1, h2⟩ := ih fun x hx => h x (List.mem_cons_of_mem _ hx)
    have ha := h a List.mem_cons_self
    rw [List.sum_cons]
    refine ⟨by omega, ?_⟩
    simp only [List.mem_cons, exists_eq_or_imp]
    rw [← h2]
    omega

theorem total_region {precision : K} (hp : 0 < precision) (A : List (Pgon K))
    (h : ∀ P ∈ A, Directed (snapPoly precision P)) (v : Pt K) :
    total ((A.map (parsePolygon (1 / precision) true)).map ofGrid) (unit precision v) ≠ 0 ↔
      Region precision A v := by
  unfold total
  rw [(sum_nonneg_ne_zero _ ?_).2]
  · unfold Region
    simp only [List.mem_map, exists_exists_and_eq_and]
    constructor
    · rintro ⟨P, hP, hw⟩
      exact ⟨P, hP, (wind_parse hp P v).1 hw⟩
    · rintro ⟨P, hP, hw⟩
      exact ⟨P, hP, (wind_parse hp P v).2 hw⟩
  · intro x hx
    simp only [List.mem_map, exists_exists_and_eq_and] at hx
    obtain ⟨P, hP, rfl⟩ := hx
    exact directed_parse hp P (h P hP) v

/-! ### Fracture of the result -/

theorem gridded_map {C : List IPt → Prop} {precision : K} (hp : 0 < precision) {P : Pgon K}
    (h : Gridded C precision P) : C (P.map (gridPt (1 / precision))) ∧ snapPoly precision P = P := by
  obtain ⟨Q, hQ, rfl⟩ := h
  have e : ∀ n : Int, clipRound (1 / precision * (precision * (n : K))) = n := by
    intro n
    rw [show 1 / precision * (precision * (n : K)) = n by field_simp, clipRound_int]
  have hm : ((ofGrid Q : Pgon K).map fun w => (precision * w.1, precision * w.2)).map (gridPt (1 / precision)) = Q := by
    unfold ofGrid
    rw [List.map_map, List.map_map]
    conv_rhs => rw [← List.map_id Q]
    apply List.map_congr_left
    intro q _
    simp only [Function.comp, gridPt, e, id]
  refine ⟨by rw [hm]; exact hQ, ?_⟩
  rw [snapPoly_grid, hm]

theorem gridded_build {C : List IPt → Prop} {e : Engine K} (hg : StaysOnGrid C e) {precision : K}
    (op : ClipOp) (A B : List (List IPt)) (hA : ∀ P ∈ A, C P) (hB : ∀ P ∈ B, C P) :
    ∀ q ∈ buildTuple (1 / precision) (e.clip op A B), Gridded C precision q := by
  intro q hq
  obtain ⟨r, hr, rfl⟩ := List.mem_map.1 hq
  obtain ⟨Q, hQ, rfl⟩ := hg op A B hA hB r hr
  refine ⟨Q, hQ, ?_⟩
  apply List.map_congr_left
  intro w _
  ext <;> simp [mul_comm]

theorem gridded_chop {C : List IPt → Prop} (hC : Class C) {e : Engine K} (hg : StaysOnGrid C e) {precision : K}
    (axis : Nat) (subj : List IPt) (hs : C subj) (b : IBox) (c0 : Int) (cuts : List K) :
    ∀ L ∈ chopLoop e (1 / precision) axis subj b c0 cuts, ∀ q ∈ L, Gridded C precision q := by
  have hr : ∀ c0 c1, C (chopRect axis b c0 c1) := by
    intro c0 c1
    unfold chopRect
    split <;> exact hC.rect _ _ _ _
  induction cuts generalizing c0 with
  | nil =>
    intro L hL
    rw [chopLoop, List.mem_singleton] at hL
    rw [hL]
    exact gridded_build hg _ _ _ (by simpa using hs) (by simpa using hr _ _)
  | cons a r ih =>
    intro L hL
    rw [chopLoop] at hL
    rcases List.mem_cons.1 hL with rfl | hL
    · exact gridded_build hg _ _ _ (by simpa using hs) (by simpa using hr _ _)
    · exact ih _ L hL

theorem qLoop_no_error {chop : Slicer K} {mx : Nat} (hm : 4 < mx)
    (hc : ∀ p : Pgon K, mx < p.length → ∀ cuts axis, ∃ slabs, chop p cuts axis = .ok slabs) (n : Nat) :
    ∀ (D Q : List (Tagged K)), ∃ o, qLoop chop mx n D Q = .ok o := by
  induction n with
  | zero => intro D Q; exact ⟨_, rfl⟩
  | succ n ih =>
    intro D Q
    cases Q with
    | nil => exact ⟨_, rfl⟩
    | cons x R =>
      rw [qLoop]
      split
      · rename_i hx
        obtain ⟨ch, h⟩ := fracCut_ok hm hx (hc x.1 hx)
        rw [h]
        exact ih _ _
      · exact ih _ _

/-- The result of fracturing a list of polygons. -/
theorem fractured_spec {C : List IPt → Prop} (hC : Class C) {e : Engine K} (he : Exact C e) {precision : K}
    (hp : 0 < precision) (polys : List (Pgon K)) (fuel maxPoints : Nat) (layer datatype : Int)
    (hgrid : maxPoints ≤ 4 ∨ (StaysOnGrid C e ∧ ∀ q ∈ polys, Gridded C precision q)) :
    ∃ r, fractured e fuel maxPoints precision polys layer datatype = .ok r ∧
      (maxPoints ≤ 4 → r ≠ none) ∧
      ∀ ps, r = some ps → (∀ v, Covers ps.polygons v ↔ Covers polys v) ∧ Aligned ps ∧
        (∀ a ∈ ps.layers, a = layer) ∧ (∀ a ∈ ps.datatypes, a = datatype) ∧
        (4 < maxPoints → ∀ P ∈ ps.polygons, P.length ≤ maxPoints) := by
  have hal : Aligned (PolySet.new polys layer datatype) := by simp [Aligned, PolySet.new]
  by_cases hm : maxPoints ≤ 4
  · refine ⟨_, C44_small_limit _ fuel maxPoints hm _, by simp, ?_⟩
    intro ps hps
    cases hps
    refine ⟨fun v => Iff.rfl, hal, fun a ha => List.eq_of_mem_replicate ha,
      fun a ha => List.eq_of_mem_replicate ha, fun h => by omega⟩
  · obtain ⟨hg, hgp⟩ := hgrid.resolve_left hm
    have hm' : 4 < maxPoints := by omega
    have hchop : ∀ p : Pgon K, maxPoints < p.length → ∀ cuts axis, ∃ slabs,
        chop e (1 / precision) p cuts axis = .ok slabs := by
      intro p hpl cuts axis
      obtain ⟨b, _, h⟩ := chop_ok e (1 / precision) p (by rintro rfl; simp at hpl) cuts axis
      exact ⟨_, h⟩
    obtain ⟨o, ho⟩ := qLoop_no_error hm' hchop fuel [] (tags (PolySet.new polys layer datatype))
    have hres : fractured e fuel maxPoints precision polys layer datatype = .ok (o.map ofTags) := by
      unfold fractured
      rw [fracture_queue _ _ _ hm' hal, ho]
      rfl
    refine ⟨_, hres, fun h => absurd h hm, ?_⟩
    intro ps hps
    unfold fractured at hres
    rw [hps] at hres
    obtain ⟨h1, h2, h3, _⟩ := C44_fracture _ fuel maxPoints hm' _ ps hal hres
    have htag0 : ∀ y ∈ tags (PolySet.new polys layer datatype), y.2 = (layer, datatype) := by
      intro y hy
      have := (List.of_mem_zip (show (y.1, y.2) ∈ _ from hy)).2
      have := List.of_mem_zip (show (y.2.1, y.2.2) ∈ _ from this)
      exact Prod.ext (List.eq_of_mem_replicate this.1) (List.eq_of_mem_replicate this.2)
    have htag : ∀ x ∈ tags ps, x.2 = (layer, datatype) := by
      intro x hx
      obtain ⟨y, hy, hyx, _⟩ := h3 x hx
      rw [← hyx]
      exact htag0 y hy
    have all : ∀ (s : PolySet K), Aligned s → (∀ x ∈ tags s, x.2 = (layer, datatype)) →
        withTag s layer datatype = s.polygons := by
      intro s hs hx
      unfold withTag
      rw [List.filter_eq_self.2 (fun x hx' => by simpa using hx x hx')]
      unfold tags
      rw [List.map_fst_zip]
      simp [hs.1, hs.2]
    have hpart : ∀ (s : PolySet K), Aligned s → (tags s).map (fun x => x.2.1) = s.layers ∧
        (tags s).map (fun x => x.2.2) = s.datatypes := by
      intro s hs
      unfold tags
      have e1 : ∀ (f : Int × Int → Int), (s.polygons.zip (s.layers.zip s.datatypes)).map (fun x => f x.2) =
          (s.layers.zip s.datatypes).map f := by
        intro f
        have := congrArg (List.map f) (List.map_snd_zip (l₁ := s.polygons) (l₂ := s.layers.zip s.datatypes)
          (by simp [hs.1, hs.2]))
        rw [List.map_map] at this
        exact this
      constructor
      · rw [e1 Prod.fst, List.map_fst_zip (by simp [hs.1, hs.2])]
      · rw [e1 Prod.snd, List.map_snd_zip (by simp [hs.1, hs.2])]
    refine ⟨fun v => ?_, h1, ?_, ?_, fun _ => h2⟩
    · have := C44_region (Gridded C precision) (fun q w => wind q w ≠ 0) (chop e (1 / precision)) (by
        intro p cuts axis slabs hgd hsl
        by_cases hpn : p = []
        · subst hpn
          unfold chop parsePolygon orientPath at hsl
          simp [orientation, boundingBox] at hsl
        obtain ⟨b, hb, hch⟩ := chop_ok e (1 / precision) p hpn cuts axis
        obtain ⟨hcl, hsn⟩ := gridded_map hp hgd
        constructor
        · intro w
          have := chop_union hC he hp axis p hpn hcl cuts slabs hsl w
          rw [hsn] at this
          exact this.symm
        · rw [hsl, Except.ok.injEq] at hch
          intro q hq
          rw [hch] at hq
          obtain ⟨L, hL, hq⟩ := List.mem_flatten.1 hq
          exact gridded_chop hC hg axis _ (class_parse hC hcl) b _ cuts L hL q hq)
        fuel maxPoints _ ps hal hgp hres layer datatype v
      rw [all ps h1 htag, all _ hal htag0] at this
      exact this
    · intro a ha
      rw [← (hpart ps h1).1] at ha
      obtain ⟨x, hx, rfl⟩ := List.mem_map.1 ha
      rw [htag x hx]
    · intro a ha
      rw [← (hpart ps h1).2] at ha
      obtain ⟨x, hx, rfl⟩ := List.mem_map.1 ha
      rw [htag x hx]

/-! ### boolean -/

theorem booleanClip_spec {C : List IPt → Prop} (hC : Class C) {e : Engine K} (he : Exact C e) {precision : K}
    (hp : 0 < precision) (A B : List (Pgon K))
    (hA : ∀ P ∈ A, C (P.map (gridPt (1 / precision)))) (hB : ∀ P ∈ B, C (P.map (gridPt (1 / precision))))
    (dA : ∀ P ∈ A, Directed (snapPoly precision P)) (dB : ∀ P ∈ B, Directed (snapPoly precision P))
    (op : ClipOp) (fuel maxPoints : Nat) (layer datatype : Int) (hgrid : maxPoints ≤ 4 ∨ StaysOnGrid C e) :
    ∃ r, booleanClip e fuel (some op) precision maxPoints layer datatype (A.map .poly) (B.map .poly) = .ok r ∧
      (maxPoints ≤ 4 → r ≠ .outOfFuel) ∧
      (r ≠ .outOfFuel → IsResult r (fun v => op.holds (Region precision A v) (Region precision B v))
        layer datatype maxPoints) := by
  have hA' : ∀ P ∈ A.map (parsePolygon (1 / precision) true), C P := by
    intro P hP
    obtain ⟨Q, hQ, rfl⟩ := List.mem_map.1 hP
    exact class_parse hC (hA Q hQ)
  have hB' : ∀ P ∈ B.map (parsePolygon (1 / precision) true), C P := by
    intro P hP
    obtain ⟨Q, hQ, rfl⟩ := List.mem_map.1 hP
    exact class_parse hC (hB Q hQ)
  have hcall : clipCall e (1 / precision) (some op) (A.map .poly) (B.map .poly) =
      .ok (buildTuple (1 / precision) (e.clip op (A.map (parsePolygon (1 / precision) true))
        (B.map (parsePolygon (1 / precision) true)))) := by
    unfold clipCall
    simp only [mapM_parse, py_bind_ok]
  have hcov : ∀ v, Covers (buildTuple (1 / precision) (e.clip op (A.map (parsePolygon (1 / precision) true))
        (B.map (parsePolygon (1 / precision) true)))) v ↔
      op.holds (Region precision A v) (Region precision B v) := by
    intro v
    rw [covers_build hp, he.covers op _ _ hA' hB', total_region hp A dA v, total_region hp B dB v]
  have hnon : ∀ q ∈ buildTuple (1 / precision) (e.clip op (A.map (parsePolygon (1 / precision) true))
        (B.map (parsePolygon (1 / precision) true))), ∃ v, wind q v ≠ 0 := by
    intro q hq
    obtain ⟨r, hr, rfl⟩ := List.mem_map.1 hq
    obtain ⟨v, hv⟩ := he.nonempty op _ _ hA' hB' r hr
    refine ⟨(precision * v.1, precision * v.2), ?_⟩
    rw [wind_build hp]
    have : unit precision (precision * v.1, precision * v.2) = v := by
      unfold unit
      ext <;> simp <;> field_simp
    rwa [this]
  have hgr : maxPoints ≤ 4 ∨ (StaysOnGrid C e ∧ ∀ q ∈ buildTuple (1 / precision)
      (e.clip op (A.map (parsePolygon (1 / precision) true)) (B.map (parsePolygon (1 / precision) true))),
      Gridded C precision q) := by
    rcases hgrid with h | h
    · exact Or.inl h
    · exact Or.inr ⟨h, gridded_build h op _ _ hA' hB'⟩
  unfold booleanClip
  rw [hcall, py_bind_ok]
  generalize buildTuple (1 / precision) (e.clip op (A.map (parsePolygon (1 / precision) true))
        (B.map (parsePolygon (1 / precision) true))) = R at hcov hnon hgr
  by_cases hR : R = []
  · subst hR
    refine ⟨.none, by simp, by simp, fun _ => ⟨fun v => ?_, ?_, by simp⟩⟩
    · refine Iff.trans ?_ (hcov v)
      simp [Covers]
    · simp only [true_iff]
      intro v hv
      have := (hcov v).2 hv
      simp [Covers] at this
  · obtain ⟨r, h1, h2, h3⟩ := fractured_spec hC he hp R fuel maxPoints layer datatype hgr
    refine ⟨BoolOut.ofFracture r, ?_, ?_, ?_⟩
    · simp only [hR, if_false]
      rw [h1, py_bind_ok]
    · intro hm
      have := h2 hm
      cases r with
      | none => exact absurd rfl this
      | some ps => simp [BoolOut.ofFracture]
    · intro hfuel
      cases r with
      | none => exact absurd rfl hfuel
      | some ps =>
        obtain ⟨h4, h5⟩ := h3 ps rfl
        refine ⟨fun v => ?_, ?_, ?_⟩
        · refine Iff.trans ?_ ((h4 v).trans (hcov v))
          constructor
          · rintro ⟨ps', h, hv⟩
            cases h
            exact hv
          · intro h
            exact ⟨ps, rfl, h⟩
        · constructor
          · intro h; cases h
          · intro h
            obtain ⟨q, hq⟩ := List.exists_mem_of_ne_nil _ hR
            obtain ⟨v, hv⟩ := hnon q hq
            exact absurd ((hcov v).1 ⟨q, hq, hv⟩) (h v)
        · intro ps' h
          cases h
          exact h5

/-- **C51 (partial: the second operand is not empty; see the theorems below for that case).** With an
exact clipper, `boolean` covers the union, intersection, symmetric difference or difference of the regions of
the operands, moved to the grid, and is None exactly when that is empty. The result is fractured without
changing the region, when the clipper stays on the grid (`maxPoints ≤ 4` means no fracture). `outOfFuel`
stands for a fracture that does not end. -/
theorem C51_boolean_partial {C : List IPt → Prop} (hC : Class C) {e : Engine K} (he : Exact C e) {precision : K}
    (hp : 0 < precision) (o1 o2 : Operand K) (f1 : ¬ HasFlex o1) (f2 : ¬ HasFlex o2) (b1 : ¬ BareVertices o1)
    (b2 : ¬ BareVertices o2) (hne : operandPolys o2 ≠ [])
    (h1 : ∀ P ∈ operandPolys o1, C (P.map (gridPt (1 / precision))))
    (h2 : ∀ P ∈ operandPolys o2, C (P.map (gridPt (1 / precision))))
    (d1 : ∀ P ∈ operandPolys o1, Directed (snapPoly precision P))
    (d2 : ∀ P ∈ operandPolys o2, Directed (snapPoly precision P))
    (op : ClipOp) (fuel maxPoints : Nat) (layer datatype : Int) (hgrid : maxPoints ≤ 4 ∨ StaysOnGrid C e) :
    ∃ r, booleanOp e fuel o1 o2 (some op) precision maxPoints layer datatype = .ok r ∧
      (maxPoints ≤ 4 → r ≠ .outOfFuel) ∧
      (r ≠ .outOfFuel → IsResult r
        (fun v => op.holds (Region precision (operandPolys o1) v) (Region precision (operandPolys o2) v))
        layer datatype maxPoints) := by
  unfold booleanOp
  rw [C53_gather_partial o1 f1 b1, py_bind_ok, C53_gather_partial o2 f2 b2, py_bind_ok, if_neg hp.ne', if_neg (by
    simpa using hne)]
  exact booleanClip_spec hC he hp _ _ h1 h2 d1 d2 op fuel maxPoints layer datatype hgrid

/-- **C51 (empty second operand, difference and symmetric difference).** The polygons of the first operand
as they are, not moved to the grid. -/
theorem C51_minus_nothing {C : List IPt → Prop} (hC : Class C) {e : Engine K} (he : Exact C e) {precision : K}
    (hp : 0 < precision) (o1 o2 : Operand K) (f1 : ¬ HasFlex o1) (f2 : ¬ HasFlex o2) (b1 : ¬ BareVertices o1)
    (b2 : ¬ BareVertices o2) (h2 : operandPolys o2 = []) (op : ClipOp) (hop : op = .not ∨ op = .xor)
    (fuel maxPoints : Nat) (layer datatype : Int)
    (hgrid : maxPoints ≤ 4 ∨ (StaysOnGrid C e ∧ ∀ q ∈ operandPolys o1, Gridded C precision q)) :
    (operandPolys o1 = [] → booleanOp e fuel o1 o2 (some op) precision maxPoints layer datatype = .ok .none) ∧
    (operandPolys o1 ≠ [] → ∃ r, booleanOp e fuel o1 o2 (some op) precision maxPoints layer datatype = .ok r ∧
      (maxPoints ≤ 4 → r ≠ .outOfFuel) ∧ (r ≠ .outOfFuel → ∃ ps, r = .set ps ∧
        ∀ v, Covers ps.polygons v ↔ Covers (operandPolys o1) v)) := by
  have hop' : (some op = some ClipOp.not ∨ some op = some ClipOp.xor) := by
    rcases hop with rfl | rfl
    · exact Or.inl rfl
    · exact Or.inr rfl
  have honly : ∀ l : List (Pgon K), onlyPolys (l.map .poly) = .ok l := by
    intro l
    unfold onlyPolys
    induction l with
    | nil => rfl
    | cons a l ih => rw [List.map_cons, List.mapM_cons, py_bind_ok, ih, py_bind_ok]; rfl
  unfold booleanOp
  rw [C53_gather_partial o1 f1 b1, py_bind_ok, C53_gather_partial o2 f2 b2, py_bind_ok, if_neg hp.ne',
    h2, List.map_nil, List.isEmpty_nil, if_pos rfl, if_pos hop']
  constructor
  · intro h
    rw [h]
    rfl
  · intro h
    rw [if_neg (by simpa using h), honly, py_bind_ok]
    obtain ⟨r, g1, g2, g3⟩ := fractured_spec hC he hp (operandPolys o1) fuel maxPoints layer datatype hgrid
    rw [g1, py_bind_ok]
    refine ⟨_, rfl, ?_, ?_⟩
    · intro hm
      have := g2 hm
      cases r with
      | none => exact absurd rfl this
      | some ps => simp [BoolOut.ofFracture]
    · intro hfuel
      cases r with
      | none => exact absurd rfl hfuel
      | some ps => exact ⟨ps, rfl, (g3 ps rfl).1⟩

theorem region_append (precision : K) (A B : List (Pgon K)) (v : Pt K) :
    Region precision (A ++ B) v ↔ Region precision A v ∨ Region precision B v := by
  unfold Region
  simp only [List.mem_append]
  constructor
  · rintro ⟨P, h | h, h'⟩
    · exact Or.inl ⟨P, h, h'⟩
    · exact Or.inr ⟨P, h, h'⟩
  · rintro (⟨P, h, h'⟩ | ⟨P, h, h'⟩)
    · exact ⟨P, Or.inl h, h'⟩
    · exact ⟨P, Or.inr h, h'⟩

/-- **C51 (empty second operand, union and intersection).** The operation is done between the last polygon of
the first operand and the others: right for the union, wrong for the intersection. -/
theorem C51_last_polygon {C : List IPt → Prop} (hC : Class C) {e : Engine K} (he : Exact C e) {precision : K}
    (hp : 0 < precision) (o1 o2 : Operand K) (f1 : ¬ HasFlex o1) (f2 : ¬ HasFlex o2) (b1 : ¬ BareVertices o1)
    (b2 : ¬ BareVertices o2) (hempty : operandPolys o2 = []) (init : List (Pgon K)) (last : Pgon K)
    (ho1 : operandPolys o1 = init ++ [last])
    (h1 : ∀ P ∈ operandPolys o1, C (P.map (gridPt (1 / precision))))
    (d1 : ∀ P ∈ operandPolys o1, Directed (snapPoly precision P))
    (op : ClipOp) (hop : op = .or ∨ op = .and) (fuel maxPoints : Nat) (layer datatype : Int)
    (hgrid : maxPoints ≤ 4 ∨ StaysOnGrid C e) :
    ∃ r, booleanOp e fuel o1 o2 (some op) precision maxPoints layer datatype = .ok r ∧
      (maxPoints ≤ 4 → r ≠ .outOfFuel) ∧
      (r ≠ .outOfFuel →
        (op = .or → IsResult r (Region precision (operandPolys o1)) layer datatype maxPoints) ∧
        (op = .and → IsResult r (fun v => Region precision init v ∧ Region precision [last] v)
          layer datatype maxPoints)) := by
  have hn : ¬ (some op = some ClipOp.not ∨ some op = some ClipOp.xor) := by
    rcases hop with rfl | rfl <;> simp
  unfold booleanOp
  rw [C53_gather_partial o1 f1 b1, py_bind_ok, C53_gather_partial o2 f2 b2, py_bind_ok, if_neg hp.ne',
    hempty, List.map_nil, List.isEmpty_nil, if_pos rfl, if_neg hn, ho1, List.map_append, List.map_cons, List.map_nil,
    List.getLast?_append]
  simp only [List.getLast?_singleton, Option.some_or, List.dropLast_concat]
  rw [ho1] at h1 d1
  obtain ⟨r, g1, g2, g3⟩ := booleanClip_spec hC he hp init [last]
    (fun P hP => h1 P (List.mem_append_left _ hP)) (fun P hP => h1 P (List.mem_append_right _ hP))
    (fun P hP => d1 P (List.mem_append_left _ hP)) (fun P hP => d1 P (List.mem_append_right _ hP))
    op fuel maxPoints layer datatype hgrid
  refine ⟨r, g1, g2, fun hr => ⟨fun ho => ?_, fun ho => ?_⟩⟩
  · have := g3 hr
    subst ho
    have e : (fun v => ClipOp.or.holds (Region precision init v) (Region precision [last] v)) =
        Region precision (init ++ [last]) := by
      funext v
      exact propext (region_append precision init [last] v).symm
    rw [e] at this
    exact this
  · have := g3 hr
    subst ho
    exact this

/-- **C51 is violated** for both operands empty: union and intersection raise IndexError instead of
returning None. -/
theorem C51_both_empty (e : Engine K) (precision : K) (hp : precision ≠ 0) (o1 o2 : Operand K)
    (f1 : ¬ HasFlex o1) (f2 : ¬ HasFlex o2) (b1 : ¬ BareVertices o1) (b2 : ¬ BareVertices o2)
    (h1 : operandPolys o1 = []) (h2 : operandPolys o2 = []) (op : ClipOp) (hop : op = .or ∨ op = .and)
    (fuel maxPoints : Nat) (layer datatype : Int) :
    booleanOp e fuel o1 o2 (some op) precision maxPoints layer datatype = .error .indexError := by
  have hn : ¬ (some op = some ClipOp.not ∨ some op = some ClipOp.xor) := by
    rcases hop with rfl | rfl <;> simp
  unfold booleanOp
  rw [C53_gather_partial o1 f1 b1, py_bind_ok, C53_gather_partial o2 f2 b2, py_bind_ok, if_neg hp, h1, h2,
    List.map_nil, List.isEmpty_nil, if_pos rfl, if_neg hn]
  rfl

/-- An unknown operation raises TypeError (when the second operand is not empty). -/
theorem C51_unknown (e : Engine K) (precision : K) (hp : precision ≠ 0) (o1 o2 : Operand K)
    (f1 : ¬ HasFlex o1) (f2 : ¬ HasFlex o2) (b1 : ¬ BareVertices o1) (b2 : ¬ BareVertices o2)
    (h2 : operandPolys o2 ≠ []) (fuel maxPoints : Nat) (layer datatype : Int) :
    booleanOp e fuel o1 o2 none precision maxPoints layer datatype = .error .typeError := by
  unfold booleanOp
  rw [C53_gather_partial o1 f1 b1, py_bind_ok, C53_gather_partial o2 f2 b2, py_bind_ok, if_neg hp, if_neg (by
    simpa using h2)]
  rfl

/-! ### Concrete cases -/

theorem rect_wind_sign (x0 x1 y0 y1 : K) (hx : x0 ≤ x1) (hy : y0 < y1) (v : Pt K) :
    0 ≤ wind [(x0, y0), (x1, y0), (x1, y1), (x0, y1)] v := by
  rw [wind_trapezoid _ _ _ _ _ _ hy, xAt_vertical, xAt_vertical]
  split
  · by_cases h0 : v.1 < x0
    · rw [if_pos h0, if_pos (h0.trans_le hx)]; simp
    · rw [if_neg h0]; split <;> simp
  · simp

/-- Every rectangle is `Directed`, in both directions. -/
theorem directed_rect (x0 x1 y0 y1 : K) (hx : x0 < x1) (hy : y0 < y1) :
    Directed [(x0, y0), (x1, y0), (x1, y1), (x0, y1)] ∧
    Directed [(x0, y0), (x1, y0), (x1, y1), (x0, y1)].reverse := by
  have hs : shoelace [(x0, y0), (x1, y0), (x1, y1), (x0, y1)] = 2 * ((x1 - x0) * (y1 - y0)) := by
    rw [shoelace_edges]
    simp [edges]
    ring
  have hpos : 0 < (x1 - x0) * (y1 - y0) := mul_pos (sub_pos.2 hx) (sub_pos.2 hy)
  constructor
  · exact Or.inl ⟨by rw [hs]; linarith, rect_wind_sign _ _ _ _ hx.le hy⟩
  · refine Or.inr ⟨by rw [shoelace_neg_reverse, hs]; linarith, fun v => ?_⟩
    rw [wind_reverse]
    have := rect_wind_sign x0 x1 y0 y1 hx.le hy v
    omega

namespace C51

def sqA : Pgon ℚ := [(0, 0), (4, 0), (4, 4), (0, 4)]
def sqB : Pgon ℚ := [(2, 2), (6, 2), (6, 6), (2, 6)]

theorem snapA : snapPoly 1 sqA = sqA := by decide +kernel
theorem snapB : snapPoly 1 sqB = sqB := by decide +kernel

theorem rectA : Rectilinear (sqA.map (gridPt (1 / 1))) := by unfold Rectilinear; decide +kernel
theorem rectB : Rectilinear (sqB.map (gridPt (1 / 1))) := by unfold Rectilinear; decide +kernel

theorem dirA : Directed (snapPoly 1 sqA) := by
  rw [snapA]; exact (directed_rect 0 4 0 4 (by norm_num) (by norm_num)).1
theorem dirB : Directed (snapPoly 1 sqB) := by
  rw [snapB]; exact (directed_rect 2 6 2 6 (by norm_num) (by norm_num)).1

end C51

open C51 in
/-- Two overlapping squares: the hypotheses hold, and the difference covers (1, 1) and not (3, 3). -/
example : ∃ e : Engine ℚ, Exact Rectilinear e ∧ StaysOnGrid Rectilinear e ∧
    ∀ fuel, ∃ r, booleanOp e fuel (.list [.verts sqA]) (.list [.verts sqB]) (some .not) 1 199 1 2 = .ok r ∧
      (r ≠ .outOfFuel → (∃ ps, r = .set ps ∧ Covers ps.polygons (1, 1)) ∧
        ¬ ∃ ps, r = .set ps ∧ Covers ps.polygons (3, 3)) := by
  obtain ⟨e, _, he, hg⟩ := exact_engine_exists (K := ℚ)
  refine ⟨e, he, hg, fun fuel => ?_⟩
  have nf : ∀ p : Pgon ℚ, ¬ HasFlex (.list [.verts p]) := by rintro p ⟨q, hq⟩; simp at hq
  have op1 : ∀ p : Pgon ℚ, operandPolys (.list [.verts p]) = [p] := fun _ => rfl
  obtain ⟨r, h1, _, h3⟩ := C51_boolean_partial class_rectilinear he one_pos (.list [.verts sqA]) (.list [.verts sqB])
    (nf _) (nf _) (by simp [BareVertices]) (by simp [BareVertices]) (by simp [op1])
    (by simpa [op1] using rectA) (by simpa [op1] using rectB) (by simpa [op1] using dirA) (by simpa [op1] using dirB)
    .not fuel 199 1 2 (Or.inr hg)
  refine ⟨r, h1, fun hr => ?_⟩
  obtain ⟨h4, _⟩ := h3 hr
  constructor
  · rw [h4, op1, op1]
    refine ⟨⟨sqA, by simp, by rw [snapA]; decide +kernel⟩, ?_⟩
    rintro ⟨P, hP, hw⟩
    rw [List.mem_singleton.1 hP, snapB] at hw
    exact hw (by decide +kernel)
  · rw [h4, op1, op1]
    rintro ⟨_, h⟩
    exact h ⟨sqB, by simp, by rw [snapB]; decide +kernel⟩

open C51 in
/-- **C51 is violated**: the intersection of two overlapping squares with nothing is not None: it is the
intersection of the two squares. -/
theorem C51_and_nothing (e : Engine ℚ) (he : Exact Rectilinear e) (hg : StaysOnGrid Rectilinear e) (fuel : Nat) :
    ∃ r, booleanOp e fuel (.list [.verts sqA, .verts sqB]) (.list []) (some .and) 1 199 0 0 = .ok r ∧
      (r ≠ .outOfFuel → ∃ ps, r = .set ps ∧ Covers ps.polygons (3, 3)) := by
  have op1 : operandPolys (.list [.verts sqA, .verts sqB]) = [sqA] ++ [sqB] := rfl
  obtain ⟨r, h1, _, h3⟩ := C51_last_polygon class_rectilinear he one_pos (.list [.verts sqA, .verts sqB]) (.list [])
    (by rintro ⟨q, hq⟩; simp at hq) (by rintro ⟨q, hq⟩; simp at hq) (by simp [BareVertices]) (by simp [BareVertices])
    rfl [sqA] sqB op1
    (by intro P hP; rw [op1] at hP; simp at hP; rcases hP with rfl | rfl; exacts [rectA, rectB])
    (by intro P hP; rw [op1] at hP; simp at hP; rcases hP with rfl | rfl; exacts [dirA, dirB])
    .and (Or.inr rfl) fuel 199 0 0 (Or.inr hg)
  refine ⟨r, h1, fun hr => ?_⟩
  obtain ⟨h4, _⟩ := (h3 hr).2 rfl
  rw [h4]
  exact ⟨⟨sqA, by simp, by rw [snapA]; decide +kernel⟩, ⟨sqB, by simp, by rw [snapB]; decide +kernel⟩⟩

end Gdspy
