import Verif.Spec.Pen
import Verif.Props.C55
import Verif.Props.C45
import Verif.Lemmas.HierSamples
import Verif.Lemmas.RealNum
import Mathlib.Analysis.SpecialFunctions.Pow.Real

/-!
# C57: the pen of `Curve`
-/

set_option linter.unusedSectionVars false

namespace Gdspy

open Spec

variable {K : Type} [Field K] [LinearOrder K] [IsStrictOrderedRing K]

/-! ### Arguments -/

theorem parse_encodes {args : List (CArg K)} {pts : List (Pt K)} (h : PointArgs args pts) :
    parseArgs args = (pts, none) := by
  induction h with
  | nil => rfl
  | complex z _ ih => rw [parseArgs, ih]
  | pair x y _ ih => rw [parseArgs, ih]

theorem toAbs_eq (rel : Bool) (c : Curve K) : c.toAbs rel = placed rel c.pen := rfl

theorem reflect_eq (o p : Pt K) : reflectPt o p = mirrored o p := by
  unfold reflectPt mirrored
  refine Prod.ext ?_ ?_ <;> simp only <;> ring

theorem reflect_self (o : Pt K) : reflectPt o o = o := by
  unfold reflectPt
  refine Prod.ext ?_ ?_ <;> simp only <;> ring

/-! ### Ends of sections -/

theorem bezier_end (p : Pt K) (l : List (Pt K)) : bezier (p :: l) 1 = (p :: l).getLast (by simp) := by
  rw [← C58_formula _ (by simp), C58_end]

theorem end_line (t : Num K) (a b : Pt K) : (Sec.line a b).endPt t = b := bezier_end a [b]
theorem end_quad (t : Num K) (a b c : Pt K) : (Sec.quad a b c).endPt t = c := bezier_end a [b, c]
theorem end_cubic (t : Num K) (a b c d : Pt K) : (Sec.cubic a b c d).endPt t = d := bezier_end a [b, c, d]

/-! ### One section -/

theorem pen_append (c : Curve K) (pts : List (Pt K)) (p : Pt K) (h : pts.getLast? = some p) (lc lq : Option (Pt K)) :
    Curve.pen { c with points := c.points ++ pts, lastC := lc, lastQ := lq } = p := by
  unfold Curve.pen
  simp only
  rw [List.getLastD_eq_getLast?, List.getLast?_append, h]
  rfl

theorem samples_last {f : K → Pt K} {l : List (K × Pt K)} (h : Samples f 0 1 l) :
    ((l.drop 1).map Prod.snd).getLast? = some (f 1) := by
  have hf := h.first
  have hl := h.last
  cases l with
  | nil => cases hf
  | cons a l =>
    cases l with
    | nil =>
      rw [List.head?_cons] at hf
      rw [List.getLast?_singleton] at hl
      rw [hf] at hl
      have := congrArg (fun o : Option (K × Pt K) => o.map Prod.fst) hl
      simp at this
    | cons b l =>
      rw [List.getLast?_cons_cons] at hl
      rw [List.drop_one, List.tail_cons, List.getLast?_map, hl]
      rfl

theorem addBez_spec [Archimedean K] (c : Curve K) (htol : 0 < c.tol) (uu : List K) (h0 : uu.head? = some 0)
    (h1 : uu.getLast? = some 1) (hinc : uu.Pairwise (· < ·)) (huu : ∀ u ∈ uu, 0 ≤ u ∧ u ≤ 1) (ctrl : List (Pt K))
    (hc : ctrl ≠ []) : ∃ N pts, (∀ fuel, N ≤ fuel → c.addBez fuel uu ctrl = some { c with points := c.points ++ pts }) ∧
      pts.getLast? = some (bezier ctrl 1) ∧
      ∃ l, Samples (bezier ctrl) 0 1 l ∧ l.IsChain (CloseAt (bezier ctrl) c.tol (1 / 2)) ∧
        pts = (l.drop 1).map Prod.snd := by
  obtain ⟨L, hL⟩ := C55_bezier_lipschitz ctrl hc
  obtain ⟨N, ⟨l, d⟩, hN⟩ := C55_ends (funcBezier ctrl) 0 1 L c.tol hL htol uu hinc huu 0
  have hf : funcBezier ctrl = bezier ctrl := funext fun u => C58_formula ctrl hc u
  obtain ⟨hs, _, hch⟩ := C55_refined (funcBezier ctrl) c.tol _ uu 0 l d 0 1 h0 h1 hinc (hN 0)
  rw [hf] at hs hch
  refine ⟨N, (l.drop 1).map Prod.snd, ?_, samples_last hs, l, hs, hch, rfl⟩
  intro fuel hfuel
  unfold Curve.addBez
  have : fuel = (fuel - N) + N := by omega
  rw [this, hN]

theorem five_head : (fiveParams : List K).head? = some 0 := rfl
theorem five_last : (fiveParams : List K).getLast? = some 1 := rfl

theorem five_inc : (fiveParams : List K).Pairwise (· < ·) := by
  unfold fiveParams
  simp only [List.pairwise_cons, List.mem_cons, List.not_mem_nil, or_false, forall_eq_or_imp, forall_eq,
    List.Pairwise.nil, and_true, IsEmpty.forall_iff, implies_true]
  norm_num

theorem five_range : ∀ u ∈ (fiveParams : List K), 0 ≤ u ∧ u ≤ 1 := by
  unfold fiveParams
  simp only [List.mem_cons, List.not_mem_nil, or_false, forall_eq_or_imp, forall_eq]
  norm_num

theorem addFive [Archimedean K] (c : Curve K) (htol : 0 < c.tol) (ctrl : List (Pt K)) (hc : ctrl ≠ []) :
    ∃ N pts, (∀ fuel, N ≤ fuel → c.addBez fuel fiveParams ctrl = some { c with points := c.points ++ pts }) ∧
      pts.getLast? = some (bezier ctrl 1) ∧
      ∃ l, Samples (bezier ctrl) 0 1 l ∧ l.IsChain (CloseAt (bezier ctrl) c.tol (1 / 2)) ∧
        pts = (l.drop 1).map Prod.snd :=
  addBez_spec c htol fiveParams five_head five_last five_inc five_range ctrl hc

/-! ### The loops -/

/-- The second control point of a cubic section. -/
def Spec.Sec.ctrlC : Option (Sec K) → Option (Pt K)
  | some (.cubic _ _ c _) => some c
  | _ => none

/-- The control point of a quadratic section. -/
def Spec.Sec.ctrlQ : Option (Sec K) → Option (Pt K)
  | some (.quad _ b _) => some b
  | _ => none

theorem smoothTo_sec (pen : Pt K) (prev : Option (Sec K)) (b p : Pt K) :
    (PenItem.smoothTo b p).sec pen prev = .cubic pen (reflectPt pen ((Sec.ctrlC prev).getD pen)) b p := by
  rcases prev with _ | s
  · simp [PenItem.sec, Sec.ctrlC, reflect_self]
  · cases s <;> simp [PenItem.sec, Sec.ctrlC, reflect_self, reflect_eq]

theorem smoothQuadTo_sec (pen : Pt K) (prev : Option (Sec K)) (p : Pt K) :
    (PenItem.smoothQuadTo p).sec pen prev = .quad pen (reflectPt pen ((Sec.ctrlQ prev).getD pen)) p := by
  rcases prev with _ | s
  · simp [PenItem.sec, Sec.ctrlQ, reflect_self]
  · cases s <;> simp [PenItem.sec, Sec.ctrlQ, reflect_self, reflect_eq]

/-- The curve `c'` is `c` with the vertices of some sections. -/
def Grown (t : Num K) (c c' : Curve K) (secs : List (Sec K)) : Prop :=
  c'.tol = c.tol ∧ ∃ pts, List.Forall₂ (Vertices t c.tol) secs pts ∧ c'.points = c.points ++ pts.flatten ∧
    c'.pen = penAfter t c.pen secs

theorem Grown.refl (t : Num K) (c c' : Curve K) (h1 : c'.tol = c.tol) (h2 : c'.points = c.points) :
    Grown t c c' [] := by
  refine ⟨h1, [], .nil, by simp [h2], ?_⟩
  unfold Curve.pen penAfter
  rw [h2]
  rfl

theorem penAfter_append (t : Num K) (pen : Pt K) (a b : List (Sec K)) :
    penAfter t pen (a ++ b) = penAfter t (penAfter t pen a) b := by
  unfold penAfter
  rw [List.getLast?_append]
  cases b.getLast? <;> rfl

theorem Grown.trans {t : Num K} {c c' c'' : Curve K} {a b : List (Sec K)} (h1 : Grown t c c' a)
    (h2 : Grown t c' c'' b) : Grown t c c'' (a ++ b) := by
  obtain ⟨e1, p1, f1, g1, k1⟩ := h1
  obtain ⟨e2, p2, f2, g2, k2⟩ := h2
  refine ⟨e2.trans e1, p1 ++ p2, ?_, ?_, ?_⟩
  · rw [e1] at f2
    exact List.rel_append f1 f2
  · rw [g2, g1, List.flatten_append, List.append_assoc]
  · rw [k2, k1, penAfter_append]

theorem Grown.one (t : Num K) (c c' : Curve K) (s : Sec K) (pts : List (Pt K)) (h1 : c'.tol = c.tol)
    (h2 : c'.points = c.points ++ pts) (h3 : Vertices t c.tol s pts) (h4 : pts.getLast? = some (s.endPt t)) :
    Grown t c c' [s] := by
  refine ⟨h1, [pts], .cons h3 .nil, by simp [h2], ?_⟩
  unfold Curve.pen penAfter
  rw [h2, List.getLastD_eq_getLast?, List.getLast?_append, h4]
  rfl

theorem walk_cons (t : Num K) (pen : Pt K) (prev : Option (Sec K)) (i : PenItem K) (r : List (PenItem K)) :
    walk t pen prev (i :: r) = [i.sec pen prev] ++ walk t ((i.sec pen prev).endPt t) (some (i.sec pen prev)) r := rfl

theorem lines_grown (t : Num K) (pts : List (Pt K)) : ∀ (c : Curve K) (prev : Option (Sec K)) (lc lq : Option (Pt K)),
    Grown t c { c with points := c.points ++ pts, lastC := lc, lastQ := lq }
      (walk t c.pen prev (pts.map PenItem.lineTo)) := by
  induction pts with
  | nil => intro c prev lc lq; exact Grown.refl t c _ rfl (by simp)
  | cons p pts ih =>
    intro c prev lc lq
    rw [List.map_cons, walk_cons]
    have h1 : Grown t c { c with points := c.points ++ [p] } [Sec.line c.pen p] :=
      Grown.one t c _ _ [p] rfl rfl rfl (by rw [end_line]; rfl)
    have hpen : Curve.pen { c with points := c.points ++ [p] } = p := pen_append c [p] p rfl c.lastC c.lastQ
    have h2 := ih { c with points := c.points ++ [p] } (some (.line c.pen p)) lc lq
    rw [hpen] at h2
    simp only [List.append_assoc, List.singleton_append] at h2
    refine Grown.trans h1 ?_
    simp only [PenItem.sec, end_line]
    exact h2

theorem cubicLoop_grown [Archimedean K] (t : Num K) (l : List (Pt K × Pt K × Pt K)) :
    ∀ (c : Curve K) (prev : Option (Sec K)) (lc : Option (Pt K)), 0 < c.tol →
      ∃ N c', (∀ fuel, N ≤ fuel → cubicLoop fuel (l.flatMap fun q => [q.1, q.2.1, q.2.2]) c lc =
        (c', (l.getLast?.map fun q => q.2.1).or lc, none)) ∧
        Grown t c c' (walk t c.pen prev (l.map fun q => PenItem.cubicTo q.1 q.2.1 q.2.2)) ∧
        c'.lastC = c.lastC ∧ c'.lastQ = c.lastQ ∧
        Sec.ctrlC (((walk t c.pen prev (l.map fun q => PenItem.cubicTo q.1 q.2.1 q.2.2))).getLast?.or prev) =
          ((l.getLast?.map fun q => q.2.1).or (Sec.ctrlC prev)) ∧
        (l ≠ [] → Sec.ctrlQ (((walk t c.pen prev (l.map fun q => PenItem.cubicTo q.1 q.2.1 q.2.2))).getLast?.or prev) =
          none) := by
  induction l with
  | nil =>
    intro c prev lc _
    exact ⟨0, c, fun _ _ => rfl, Grown.refl t c c rfl rfl, rfl, rfl, rfl, fun h => absurd rfl h⟩
  | cons q l ih =>
    intro c prev lc htol
    obtain ⟨N1, pts, h1, h2, h3⟩ := addFive c htol [c.pen, q.1, q.2.1, q.2.2] (by simp)
    have hend : bezier [c.pen, q.1, q.2.1, q.2.2] 1 = q.2.2 := bezier_end _ _
    have hpen : Curve.pen { c with points := c.points ++ pts } = q.2.2 :=
      pen_append c pts _ (by rw [h2, hend]) c.lastC c.lastQ
    obtain ⟨N2, c', g1, g2, g3, g4, g5, g6⟩ := ih { c with points := c.points ++ pts }
      (some (.cubic c.pen q.1 q.2.1 q.2.2)) (some q.2.1) htol
    rw [hpen] at g2 g5 g6
    have hs : Grown t c { c with points := c.points ++ pts } [Sec.cubic c.pen q.1 q.2.1 q.2.2] :=
      Grown.one t c _ _ pts rfl rfl h3 (by rw [end_cubic, h2, hend])
    refine ⟨max N1 N2, c', ?_, ?_, g3, g4, ?_, ?_⟩
    · intro fuel hfuel
      rw [List.flatMap_cons]
      simp only [List.cons_append, List.nil_append]
      rw [cubicLoop, h1 fuel (le_of_max_le_left hfuel)]
      simp only
      rw [g1 fuel (le_of_max_le_right hfuel)]
      cases l with
      | nil => rfl
      | cons a l => rw [List.getLast?_cons_cons, List.getLast?_cons]; rfl
    · rw [List.map_cons, walk_cons]
      refine Grown.trans hs ?_
      simp only [PenItem.sec, end_cubic]
      exact g2
    · rw [List.map_cons, walk_cons]
      simp only [PenItem.sec, end_cubic]
      rw [List.getLast?_append, Option.or_assoc, List.getLast?_singleton, Option.some_or, g5]
      cases l with
      | nil => rfl
      | cons a l => rw [List.getLast?_cons_cons, List.getLast?_cons]; rfl
    · intro _
      rw [List.map_cons, walk_cons]
      simp only [PenItem.sec, end_cubic]
      rw [List.getLast?_append, Option.or_assoc, List.getLast?_singleton, Option.some_or]
      cases l with
      | nil => rfl
      | cons a l => exact g6 (by simp)

theorem quadLoop_grown [Archimedean K] (t : Num K) (l : List (Pt K × Pt K)) :
    ∀ (c : Curve K) (prev : Option (Sec K)) (lq : Option (Pt K)), 0 < c.tol →
      ∃ N c', (∀ fuel, N ≤ fuel → quadLoop fuel (l.flatMap fun q => [q.1, q.2]) c lq =
        (c', (l.getLast?.map fun q => q.1).or lq, none)) ∧
        Grown t c c' (walk t c.pen prev (l.map fun q => PenItem.quadTo q.1 q.2)) ∧
        c'.lastC = c.lastC ∧ c'.lastQ = c.lastQ ∧
        Sec.ctrlQ (((walk t c.pen prev (l.map fun q => PenItem.quadTo q.1 q.2))).getLast?.or prev) =
          ((l.getLast?.map fun q => q.1).or (Sec.ctrlQ prev)) ∧
        (l ≠ [] → Sec.ctrlC (((walk t c.pen prev (l.map fun q => PenItem.quadTo q.1 q.2))).getLast?.or prev) =
          none) := by
  induction l with
  | nil =>
    intro c prev lc _
    exact ⟨0, c, fun _ _ => rfl, Grown.refl t c c rfl rfl, rfl, rfl, rfl, fun h => absurd rfl h⟩
  | cons q l ih =>
    intro c prev lc htol
    obtain ⟨N1, pts, h1, h2, h3⟩ := addFive c htol [c.pen, q.1, q.2] (by simp)
    have hend : bezier [c.pen, q.1, q.2] 1 = q.2 := bezier_end _ _
    have hpen : Curve.pen { c with points := c.points ++ pts } = q.2 :=
      pen_append c pts _ (by rw [h2, hend]) c.lastC c.lastQ
    obtain ⟨N2, c', g1, g2, g3, g4, g5, g6⟩ := ih { c with points := c.points ++ pts }
      (some (.quad c.pen q.1 q.2)) (some q.1) htol
    rw [hpen] at g2 g5 g6
    have hs : Grown t c { c with points := c.points ++ pts } [Sec.quad c.pen q.1 q.2] :=
      Grown.one t c _ _ pts rfl rfl h3 (by rw [end_quad, h2, hend])
    refine ⟨max N1 N2, c', ?_, ?_, g3, g4, ?_, ?_⟩
    · intro fuel hfuel
      rw [List.flatMap_cons]
      simp only [List.cons_append, List.nil_append]
      rw [quadLoop, h1 fuel (le_of_max_le_left hfuel)]
      simp only
      rw [g1 fuel (le_of_max_le_right hfuel)]
      cases l with
      | nil => rfl
      | cons a l => rw [List.getLast?_cons_cons, List.getLast?_cons]; rfl
    · rw [List.map_cons, walk_cons]
      refine Grown.trans hs ?_
      simp only [PenItem.sec, end_quad]
      exact g2
    · rw [List.map_cons, walk_cons]
      simp only [PenItem.sec, end_quad]
      rw [List.getLast?_append, Option.or_assoc, List.getLast?_singleton, Option.some_or, g5]
      cases l with
      | nil => rfl
      | cons a l => rw [List.getLast?_cons_cons, List.getLast?_cons]; rfl
    · intro _
      rw [List.map_cons, walk_cons]
      simp only [PenItem.sec, end_quad]
      rw [List.getLast?_append, Option.or_assoc, List.getLast?_singleton, Option.some_or]
      cases l with
      | nil => rfl
      | cons a l => exact g6 (by simp)

theorem smoothCubicLoop_grown [Archimedean K] (t : Num K) (l : List (Pt K × Pt K)) :
    ∀ (c : Curve K) (prev : Option (Sec K)), 0 < c.tol → c.lastC.getD c.pen = (Sec.ctrlC prev).getD c.pen →
      ∃ N c', (∀ fuel, N ≤ fuel → smoothCubicLoop fuel (l.flatMap fun q => [q.1, q.2]) c = (c', none)) ∧
        Grown t c c' (walk t c.pen prev (l.map fun q => PenItem.smoothTo q.1 q.2)) ∧ c'.lastQ = c.lastQ ∧
        (l ≠ [] → c'.lastC =
          Sec.ctrlC ((walk t c.pen prev (l.map fun q => PenItem.smoothTo q.1 q.2)).getLast?.or prev) ∧
          Sec.ctrlQ ((walk t c.pen prev (l.map fun q => PenItem.smoothTo q.1 q.2)).getLast?.or prev) = none) := by
  induction l with
  | nil =>
    intro c prev _ _
    exact ⟨0, c, fun _ _ => rfl, Grown.refl t c c rfl rfl, rfl, fun h => absurd rfl h⟩
  | cons q l ih =>
    intro c prev htol hlc
    obtain ⟨N1, pts, h1, h2, h3⟩ := addFive c htol [c.pen, reflectPt c.pen (c.lastC.getD c.pen), q.1, q.2] (by simp)
    have hend : bezier [c.pen, reflectPt c.pen (c.lastC.getD c.pen), q.1, q.2] 1 = q.2 := bezier_end _ _
    have hpen : Curve.pen { c with points := c.points ++ pts, lastC := some q.1 } = q.2 :=
      pen_append c pts _ (by rw [h2, hend]) (some q.1) c.lastQ
    have hsec := smoothTo_sec c.pen prev q.1 q.2
    rw [← hlc] at hsec
    obtain ⟨N2, c', g1, g2, g3, g4⟩ := ih { c with points := c.points ++ pts, lastC := some q.1 }
      (some ((PenItem.smoothTo q.1 q.2).sec c.pen prev)) htol (by rw [hsec]; rfl)
    rw [hpen] at g2 g4
    have hs : Grown t c { c with points := c.points ++ pts, lastC := some q.1 }
        [(PenItem.smoothTo q.1 q.2).sec c.pen prev] := by
      rw [hsec]
      exact Grown.one t c _ _ pts rfl rfl h3 (by rw [end_cubic, h2, hend])
    have hep : ((PenItem.smoothTo q.1 q.2).sec c.pen prev).endPt t = q.2 := by rw [hsec, end_cubic]
    refine ⟨max N1 N2, c', ?_, ?_, g3, ?_⟩
    · intro fuel hfuel
      rw [List.flatMap_cons]
      simp only [List.cons_append, List.nil_append]
      rw [smoothCubicLoop, h1 fuel (le_of_max_le_left hfuel)]
      simp only
      rw [g1 fuel (le_of_max_le_right hfuel)]
    · rw [List.map_cons, walk_cons, hep]
      exact Grown.trans hs g2
    · intro _
      rw [List.map_cons, walk_cons, hep, List.getLast?_append, Option.or_assoc, List.getLast?_singleton,
        Option.some_or]
      cases l with
      | nil =>
        have e := g1 (max N1 N2) (le_max_right _ _)
        simp only [List.flatMap_nil, smoothCubicLoop] at e
        cases e
        rw [hsec]
        exact ⟨rfl, rfl⟩
      | cons a l => exact g4 (by simp)

theorem smoothQuadLoop_grown [Archimedean K] (t : Num K) (l : List (Pt K)) :
    ∀ (c : Curve K) (prev : Option (Sec K)), 0 < c.tol → c.lastQ.getD c.pen = (Sec.ctrlQ prev).getD c.pen →
      ∃ N c', (∀ fuel, N ≤ fuel → smoothQuadLoop fuel l c = (c', none)) ∧
        Grown t c c' (walk t c.pen prev (l.map PenItem.smoothQuadTo)) ∧ c'.lastC = c.lastC ∧
        (l ≠ [] → c'.lastQ = Sec.ctrlQ ((walk t c.pen prev (l.map PenItem.smoothQuadTo)).getLast?.or prev) ∧
          Sec.ctrlC ((walk t c.pen prev (l.map PenItem.smoothQuadTo)).getLast?.or prev) = none) := by
  induction l with
  | nil =>
    intro c prev _ _
    exact ⟨0, c, fun _ _ => rfl, Grown.refl t c c rfl rfl, rfl, fun h => absurd rfl h⟩
  | cons q l ih =>
    intro c prev htol hlc
    obtain ⟨N1, pts, h1, h2, h3⟩ := addFive c htol [c.pen, reflectPt c.pen (c.lastQ.getD c.pen), q] (by simp)
    have hend : bezier [c.pen, reflectPt c.pen (c.lastQ.getD c.pen), q] 1 = q := bezier_end _ _
    have hpen : Curve.pen { c with points := c.points ++ pts, lastQ := some (reflectPt c.pen (c.lastQ.getD c.pen)) } = q :=
      pen_append c pts _ (by rw [h2, hend]) c.lastC (some (reflectPt c.pen (c.lastQ.getD c.pen)))
    have hsec := smoothQuadTo_sec c.pen prev q
    rw [← hlc] at hsec
    obtain ⟨N2, c', g1, g2, g3, g4⟩ := ih
      { c with points := c.points ++ pts, lastQ := some (reflectPt c.pen (c.lastQ.getD c.pen)) }
      (some ((PenItem.smoothQuadTo q).sec c.pen prev)) htol (by rw [hsec]; rfl)
    rw [hpen] at g2 g4
    have hs : Grown t c { c with points := c.points ++ pts, lastQ := some (reflectPt c.pen (c.lastQ.getD c.pen)) }
        [(PenItem.smoothQuadTo q).sec c.pen prev] := by
      rw [hsec]
      exact Grown.one t c _ _ pts rfl rfl h3 (by rw [end_quad, h2, hend])
    have hep : ((PenItem.smoothQuadTo q).sec c.pen prev).endPt t = q := by rw [hsec, end_quad]
    refine ⟨max N1 N2, c', ?_, ?_, g3, ?_⟩
    · intro fuel hfuel
      rw [smoothQuadLoop, h1 fuel (le_of_max_le_left hfuel)]
      simp only
      rw [g1 fuel (le_of_max_le_right hfuel)]
    · rw [List.map_cons, walk_cons, hep]
      exact Grown.trans hs g2
    · intro _
      rw [List.map_cons, walk_cons, hep, List.getLast?_append, Option.or_assoc, List.getLast?_singleton,
        Option.some_or]
      cases l with
      | nil =>
        have e := g1 (max N1 N2) (le_max_right _ _)
        rw [smoothQuadLoop] at e
        cases e
        rw [hsec]
        exact ⟨rfl, rfl⟩
      | cons a l => exact g4 (by simp)

/-! ### The parameters of `B` -/

/-- `x ** 0.8` on [0, 1]. -/
structure Spec.PowLaws (f : K → K) : Prop where
  zero : f 0 = 0
  one : f 1 = 1
  mono : ∀ a b, 0 ≤ a → a < b → b ≤ 1 → f a < f b

theorem linspace_getElem? (a b : K) (n i : Nat) (h : i < n) :
    (linspace a b n)[i]? = some (a + (i : K) * ((b - a) / ((n : K) - 1))) := by
  unfold linspace
  rw [List.getElem?_map, List.getElem?_range h]
  rfl

theorem linspace_mem {a b : K} {n : Nat} {v : K} (h : v ∈ linspace a b n) :
    ∃ i, i < n ∧ v = a + (i : K) * ((b - a) / ((n : K) - 1)) := by
  unfold linspace at h
  obtain ⟨i, hi, rfl⟩ := List.mem_map.1 h
  exact ⟨i, List.mem_range.1 hi, rfl⟩

theorem linspace_inc {a b : K} (hab : a < b) {n : Nat} (hn : 2 ≤ n) : (linspace a b n).Pairwise (· < ·) := by
  unfold linspace
  rw [List.pairwise_map]
  refine List.Pairwise.imp ?_ List.pairwise_lt_range
  intro i j hij
  have h1 : (1 : K) < (n : K) := by exact_mod_cast hn
  have h2 : 0 < (b - a) / ((n : K) - 1) := div_pos (by linarith) (by linarith)
  have h3 : (i : K) < (j : K) := by exact_mod_cast hij
  have := mul_lt_mul_of_pos_right h3 h2
  linarith

theorem linspace_head (a b : K) {n : Nat} (hn : 1 ≤ n) : (linspace a b n).head? = some a := by
  rw [List.head?_eq_getElem?, linspace_getElem? a b n 0 hn]
  simp

theorem linspace_len (a b : K) (n : Nat) : (linspace a b n).length = n := by
  unfold linspace
  simp

theorem linspace_getLast (a b : K) {n : Nat} (hn : 2 ≤ n) : (linspace a b n).getLast? = some b := by
  rw [List.getLast?_eq_getElem?, linspace_len, linspace_getElem? a b n (n - 1) (by omega)]
  have h1 : ((n - 1 : Nat) : K) = (n : K) - 1 := by
    rw [Nat.cast_sub (by omega)]
    norm_num
  have h2 : (n : K) - 1 ≠ 0 := by
    have : (1 : K) < (n : K) := by exact_mod_cast hn
    intro h
    linarith
  rw [h1, mul_div_cancel₀ _ h2]
  congr 1
  ring

theorem linspace_range {a b : K} (hab : a ≤ b) {n : Nat} (hn : 2 ≤ n) : ∀ v ∈ linspace a b n, a ≤ v ∧ v ≤ b := by
  intro v hv
  obtain ⟨i, hi, rfl⟩ := linspace_mem hv
  have h1 : (1 : K) < (n : K) := by exact_mod_cast hn
  have hpos : 0 < (n : K) - 1 := by linarith
  have h2 : (i : K) ≤ (n : K) - 1 := by
    have : ((i + 1 : Nat) : K) ≤ (n : K) := by exact_mod_cast hi
    push_cast at this
    linarith
  have h3 : 0 ≤ (b - a) / ((n : K) - 1) := div_nonneg (by linarith) hpos.le
  have h4 : (0 : K) ≤ (i : K) := Nat.cast_nonneg i
  constructor
  · have := mul_nonneg h4 h3
    linarith
  · have := mul_le_mul_of_nonneg_right h2 h3
    rw [mul_div_cancel₀ _ hpos.ne'] at this
    linarith

/-- `0.5 * (1 + sign(v) * abs(v) ** 0.8)`. -/
def bezWarp (f : K → K) (v : K) : K := (1 + (if v < 0 then -1 else if v = 0 then 0 else 1) * f |v|) / 2

theorem bezWarp_mono {f : K → K} (hf : PowLaws f) {v w : K} (h0 : -1 ≤ v) (h : v < w) (h1 : w ≤ 1) :
    bezWarp f v < bezWarp f w := by
  have hpos : ∀ x : K, 0 < x → x ≤ 1 → 0 < f x := fun x h2 h3 => by
    have := hf.mono 0 x (le_refl _) h2 h3
    rwa [hf.zero] at this
  unfold bezWarp
  rcases lt_trichotomy v 0 with hv | hv | hv
  · rw [if_pos hv, abs_of_neg hv]
    rcases lt_trichotomy w 0 with hw | hw | hw
    · rw [if_pos hw, abs_of_neg hw]
      have := hf.mono (-w) (-v) (by linarith) (by linarith) (by linarith)
      linarith
    · subst hw
      simp only [lt_irrefl, if_false, if_true]
      have := hpos (-v) (by linarith) (by linarith)
      linarith
    · rw [if_neg (not_lt.2 hw.le), if_neg hw.ne', abs_of_pos hw]
      have := hpos (-v) (by linarith) (by linarith)
      have := hpos w hw h1
      linarith
  · subst hv
    rw [if_neg (lt_irrefl _), if_pos rfl, if_neg (not_lt.2 h.le), if_neg h.ne', abs_of_pos h]
    have := hpos w h h1
    linarith
  · have hw : 0 < w := hv.trans h
    rw [if_neg (not_lt.2 hv.le), if_neg hv.ne', abs_of_pos hv, if_neg (not_lt.2 hw.le), if_neg hw.ne', abs_of_pos hw]
    have := hf.mono v w hv.le h h1
    linarith

theorem bezWarp_ends {f : K → K} (hf : PowLaws f) : bezWarp f (-1) = 0 ∧ bezWarp f 1 = 1 := by
  unfold bezWarp
  have h1 : (-1 : K) < 0 := by linarith [one_pos (α := K)]
  have h2 : ¬ (1 : K) < 0 := by linarith [one_pos (α := K)]
  rw [if_pos h1, if_neg h2, if_neg one_ne_zero, abs_neg, abs_one, hf.one]
  norm_num

theorem bezParams_ok {f : K → K} (hf : PowLaws f) {n : Nat} (hn : 2 ≤ n) :
    (bezParams f n).head? = some 0 ∧ (bezParams f n).getLast? = some 1 ∧ (bezParams f n).Pairwise (· < ·) ∧
      ∀ u ∈ bezParams f n, 0 ≤ u ∧ u ≤ 1 := by
  have e : bezParams f n = (linspace (-1) 1 n).map (bezWarp f) := rfl
  have h11 : (-1 : K) < 1 := by linarith [one_pos (α := K)]
  obtain ⟨w0, w1⟩ := bezWarp_ends hf
  have hr := linspace_range h11.le hn
  rw [e]
  refine ⟨?_, ?_, ?_, ?_⟩
  · rw [List.head?_map, linspace_head _ _ (by omega), Option.map_some, w0]
  · rw [List.getLast?_map, linspace_getLast _ _ hn, Option.map_some, w1]
  · rw [List.pairwise_map]
    refine List.Pairwise.imp_of_mem ?_ (linspace_inc h11 hn)
    intro a b ha hb hab
    exact bezWarp_mono hf (hr a ha).1 hab (hr b hb).2
  · intro u hu
    obtain ⟨v, hv, rfl⟩ := List.mem_map.1 hu
    obtain ⟨h0, h1⟩ := hr v hv
    constructor
    · rcases h0.lt_or_eq with h | h
      · rw [← w0]
        exact (bezWarp_mono hf (le_refl _) h h1).le
      · rw [← h, w0]
    · rcases h1.lt_or_eq with h | h
      · rw [← w1]
        exact (bezWarp_mono hf h0 h (le_refl _)).le
      · rw [h, w1]

/-! ### Commands -/

theorem walk_lines_last (t : Num K) (pts : List (Pt K)) (h : pts ≠ []) :
    ∀ (pen : Pt K) (prev : Option (Sec K)), ∃ a b, (walk t pen prev (pts.map PenItem.lineTo)).getLast? = some (.line a b) := by
  induction pts with
  | nil => exact absurd rfl h
  | cons p pts ih =>
    intro pen prev
    rw [List.map_cons, walk_cons]
    by_cases hp : pts = []
    · subst hp
      exact ⟨pen, p, rfl⟩
    · obtain ⟨a, b, hab⟩ := ih hp ((PenItem.lineTo p).sec pen prev |>.endPt t) (some ((PenItem.lineTo p).sec pen prev))
      refine ⟨a, b, ?_⟩
      rw [List.getLast?_append, hab]
      rfl

/-- Arcs have a radius for which the number of points can be computed. -/
def ArcOk [FloorRing K] (t : Num K) (tol : K) : CurveCmd K → Prop
  | .arc rx ry i f _ => ∃ n, arcSteps t |f - i| (t.sqrt tol) (max rx ry) = .ok n
  | _ => True

theorem ellipsePt_eq (t : Num K) (ht : Trig.Laws t.toTrig) (rx ry rot a : K) :
    ellipsePt t rx ry rot (a - rot) = ellipseAt t rx ry rot a := by
  unfold ellipsePt ellipseAt
  by_cases h : rot = 0
  · subst h
    rw [if_pos rfl, ht.zero.1, ht.zero.2]
    refine Prod.ext ?_ ?_ <;> simp
  · rw [if_neg h]
    refine Prod.ext ?_ ?_ <;> simp only <;> ring

theorem arc_grown [FloorRing K] (t : Num K) (ht : Trig.Laws t.toTrig) (rx ry i f rot : K) (c : Curve K)
    (prev : Option (Sec K)) (h : ∃ n, arcSteps t |f - i| (t.sqrt c.tol) (max rx ry) = .ok n) :
    ∃ c', c.arc t rx ry i f rot = (c', none) ∧ Grown t c c' (walk t c.pen prev [.arcTo rx ry rot i f]) ∧
      c'.lastC = none ∧ c'.lastQ = none := by
  obtain ⟨n, hn⟩ := h
  unfold Curve.arc
  have hpen : c.forget.pen = c.pen := rfl
  have htol : c.forget.tol = c.tol := rfl
  simp only [htol, hpen, hn]
  refine ⟨_, rfl, ?_, rfl, rfl⟩
  obtain ⟨m, hm1, hm2⟩ : ∃ m : Nat, (max 3 (1 + n)).toNat = m + 1 ∧ 2 ≤ m :=
    ⟨(max 3 (1 + n)).toNat - 1, by omega, by omega⟩
  rw [hm1]
  have hm0 : (m : K) ≠ 0 := by exact_mod_cast (by omega : m ≠ 0)
  have e1 : (linspace (i - rot) (f - rot) (m + 1)).map (ellipsePt t rx ry rot) =
      (List.range (m + 1)).map fun j : Nat => ellipseAt t rx ry rot (i + (j : K) / (m : K) * (f - i)) := by
    unfold linspace
    rw [List.map_map]
    refine List.map_congr_left fun j _ => ?_
    simp only [Function.comp]
    rw [← ellipsePt_eq t ht]
    congr 1
    have e0 : ((m + 1 : Nat) : K) - 1 = (m : K) := by push_cast; ring
    rw [e0]
    ring
  have e2 : ((List.range (m + 1)).map fun j : Nat => ellipseAt t rx ry rot (i + (j : K) / (m : K) * (f - i))).headD (0, 0)
      = ellipseAt t rx ry rot i := by
    rw [List.range_succ_eq_map]
    simp
  have e3 : ((List.range (m + 1)).map fun j : Nat => ellipseAt t rx ry rot (i + (j : K) / (m : K) * (f - i))).drop 1 =
      (List.range m).map fun j : Nat => ellipseAt t rx ry rot (i + ((j : K) + 1) / (m : K) * (f - i)) := by
    rw [List.range_succ_eq_map]
    simp [Function.comp_def]
  rw [e1, e2, e3, List.map_map]
  refine Grown.one t c _ _ _ rfl rfl ⟨m, hm2, ?_⟩ ?_
  · refine List.map_congr_left fun j _ => ?_
    simp only [Function.comp, Sec.curve, PenItem.sec]
    refine Prod.ext ?_ ?_ <;> simp only <;> ring
  · obtain ⟨k, rfl⟩ : ∃ k, m = k + 1 := ⟨m - 1, by omega⟩
    rw [List.range_succ, List.map_append, List.getLast?_append]
    simp only [List.map_cons, List.map_nil, List.getLast?_singleton, Option.some_or, Function.comp]
    have e4 : ((k : K) + 1) / ((k + 1 : Nat) : K) = 1 := by
      have : ((k + 1 : Nat) : K) = (k : K) + 1 := by push_cast; ring
      rw [this] at hm0 ⊢
      exact div_self hm0
    rw [e4]
    unfold Sec.endPt
    simp only [Sec.curve, PenItem.sec]
    congr 1
    refine Prod.ext ?_ ?_ <;> simp only <;> ring

theorem flat3_map (g : Pt K → Pt K) (l : List (Pt K × Pt K × Pt K)) :
    (l.flatMap fun q => [q.1, q.2.1, q.2.2]).map g =
      (l.map fun q => (g q.1, g q.2.1, g q.2.2)).flatMap fun q => [q.1, q.2.1, q.2.2] := by
  induction l with
  | nil => rfl
  | cons q l ih => simp only [List.flatMap_cons, List.map_append, List.map_cons, List.map_nil, ih]

theorem flat2_map (g : Pt K → Pt K) (l : List (Pt K × Pt K)) :
    (l.flatMap fun q => [q.1, q.2]).map g = (l.map fun q => (g q.1, g q.2)).flatMap fun q => [q.1, q.2] := by
  induction l with
  | nil => rfl
  | cons q l ih => simp only [List.flatMap_cons, List.map_append, List.map_cons, List.map_nil, ih]

theorem cubic_grown [Archimedean K] (t : Num K) (l : List (Pt K × Pt K × Pt K)) (hl : l ≠ []) (c : Curve K)
    (prev : Option (Sec K)) (htol : 0 < c.tol) (rel : Bool) (args : List (CArg K))
    (ha : PointArgs args (l.flatMap fun q => [q.1, q.2.1, q.2.2])) :
    ∃ N c', (∀ fuel, N ≤ fuel → c.cubic fuel rel args = (c', none)) ∧
      Grown t c c' (walk t c.pen prev (l.map fun q => PenItem.cubicTo (placed rel c.pen q.1) (placed rel c.pen q.2.1)
        (placed rel c.pen q.2.2))) ∧
      c'.lastC = Sec.ctrlC ((walk t c.pen prev (l.map fun q => PenItem.cubicTo (placed rel c.pen q.1)
        (placed rel c.pen q.2.1) (placed rel c.pen q.2.2))).getLast?.or prev) ∧
      c'.lastQ = Sec.ctrlQ ((walk t c.pen prev (l.map fun q => PenItem.cubicTo (placed rel c.pen q.1)
        (placed rel c.pen q.2.1) (placed rel c.pen q.2.2))).getLast?.or prev) := by
  obtain ⟨N, c', h1, h2, h3, h4, h5, h6⟩ := cubicLoop_grown t
    (l.map fun q => (placed rel c.pen q.1, placed rel c.pen q.2.1, placed rel c.pen q.2.2)) { c with lastQ := none }
    prev none htol
  have hpen : Curve.pen { c with lastQ := none } = c.pen := rfl
  rw [List.map_map] at h2 h5 h6
  simp only [Function.comp_def, hpen] at h2 h5 h6
  obtain ⟨q, hq⟩ : ∃ q, l.getLast? = some q := by
    cases h : l.getLast? with
    | none => exact absurd (List.getLast?_eq_none_iff.1 h) hl
    | some q => exact ⟨q, rfl⟩
  rw [List.getLast?_map, hq] at h1 h5
  refine ⟨N, { c' with lastC := some (placed rel c.pen q.2.1) }, ?_, ?_, ?_, ?_⟩
  · intro fuel hfuel
    unfold Curve.cubic
    rw [parse_encodes ha, toAbs_eq]
    simp only
    rw [flat3_map, h1 fuel hfuel]
    rfl
  · obtain ⟨k1, pts, k2, k3, k4⟩ := h2
    exact ⟨k1, pts, k2, k3, k4⟩
  · rw [h5]; rfl
  · rw [h6 (by simpa using hl)]
    exact h4

theorem py_mapM_ok {α β : Type} (f : α → Py β) (g : α → β) (l : List α) (h : ∀ a ∈ l, f a = .ok (g a)) :
    l.mapM f = .ok (l.map g) := by
  induction l with
  | nil => rfl
  | cons a l ih =>
    rw [List.mapM_cons, h a List.mem_cons_self]
    show ((l.mapM f) >>= fun r => pure (g a :: r)) = _
    rw [ih fun x hx => h x (List.mem_cons_of_mem _ hx)]
    rfl

theorem interpArgs_ok (cycle : Bool) (pen : Pt K) (points : List (Pt K)) (l : List (Pt K × Pt K))
    (hl : l.length = points.length + (if cycle then 1 else 0)) :
    ∃ args, interpArgs cycle (pen :: points) (l.map Prod.fst) (l.map Prod.snd) = .ok args ∧
      PointArgs args (((l.zip (points ++ [pen])).map fun q => (q.1.1, q.1.2, q.2)).flatMap
        fun q => [q.1, q.2.1, q.2.2]) := by
  have enc : ∀ m : List (Pt K × Pt K × Pt K), PointArgs
      (m.map fun q => [CArg.re q.1.1, .re q.1.2, .re q.2.1.1, .re q.2.1.2, .re q.2.2.1, .re q.2.2.2]).flatten
      (m.flatMap fun q => [q.1, q.2.1, q.2.2]) := by
    intro m
    induction m with
    | nil => exact .nil
    | cons q m ih => exact .pair _ _ (.pair _ _ (.pair _ _ ih))
  have hlist : ∀ k, k ≤ l.length → k ≤ points.length →
      ((List.range k).mapM fun i => do
        let a ← idx (l.map Prod.fst) i
        let b ← idx (l.map Prod.snd) i
        let p ← idx (pen :: points) (i + 1)
        pure [CArg.re a.1, .re a.2, .re b.1, .re b.2, .re p.1, .re p.2]) =
      (.ok (((l.take k).zip (points.take k)).map fun q =>
        [CArg.re q.1.1.1, .re q.1.1.2, .re q.1.2.1, .re q.1.2.2, .re q.2.1, .re q.2.2]) : Py _) := by
    intro k h1 h2
    rw [py_mapM_ok _ (fun i => [CArg.re (l.getD i ((0, 0), (0, 0))).1.1, .re (l.getD i ((0, 0), (0, 0))).1.2,
      .re (l.getD i ((0, 0), (0, 0))).2.1, .re (l.getD i ((0, 0), (0, 0))).2.2, .re (points.getD i (0, 0)).1,
      .re (points.getD i (0, 0)).2])]
    · congr 1
      refine List.ext_getElem ?_ ?_
      · simp [h1, h2]
      · intro i hi1 hi2
        simp only [List.length_map, List.length_range] at hi1
        simp [List.getD_eq_getElem?_getD, List.getElem?_eq_getElem (by omega : i < l.length),
          List.getElem?_eq_getElem (by omega : i < points.length)]
    · intro i hi
      have hi := List.mem_range.1 hi
      unfold idx
      rw [List.getElem?_map, List.getElem?_map, List.getElem?_cons_succ, List.getElem?_eq_getElem (by omega : i < l.length),
        List.getElem?_eq_getElem (by omega : i < points.length)]
      simp [List.getD_eq_getElem?_getD, List.getElem?_eq_getElem (by omega : i < l.length),
        List.getElem?_eq_getElem (by omega : i < points.length)]
      rfl
  unfold interpArgs
  simp only [List.length_cons, Nat.add_one_sub_one]
  rw [hlist points.length (by omega) (le_refl _)]
  cases cycle with
  | false =>
    simp only [Bool.false_eq_true, if_false, Nat.add_zero] at hl ⊢
    refine ⟨_, rfl, ?_⟩
    have := enc ((l.zip points).map fun q => (q.1.1, q.1.2, q.2))
    rw [List.map_map] at this
    rw [← hl, List.take_length, hl, List.take_length]
    have e : l.zip (points ++ [pen]) = l.zip points := by
      have := List.zip_append (l₁ := l) (r₁ := []) (l₂ := points) (r₂ := [pen]) hl
      rw [List.append_nil] at this
      rw [this]
      simp
    rw [e]
    exact this
  | true =>
    simp only [if_true] at hl ⊢
    obtain ⟨l', x, rfl⟩ : ∃ l' x, l = l' ++ [x] := by
      rcases List.eq_nil_or_concat l with h | ⟨l', x, h⟩
      · subst h; simp at hl
      · exact ⟨l', x, by rw [h, List.concat_eq_append]⟩
    have hl' : l'.length = points.length := by simpa using hl
    have e1 : (l' ++ [x]).take points.length = l' := by rw [← hl', List.take_left']; rfl
    have i1 : idx ((l' ++ [x]).map Prod.fst) (((l' ++ [x]).map Prod.fst).length - 1) = .ok x.1 := by
      unfold idx
      simp
    have i2 : idx ((l' ++ [x]).map Prod.snd) (((l' ++ [x]).map Prod.snd).length - 1) = .ok x.2 := by
      unfold idx
      simp
    have i3 : idx (pen :: points) 0 = .ok pen := rfl
    rw [i1, i2, i3, e1, List.take_length]
    refine ⟨_, rfl, ?_⟩
    have := enc (((l' ++ [x]).zip (points ++ [pen])).map fun q => (q.1.1, q.1.2, q.2))
    rw [List.map_map, List.zip_append hl', List.map_append, List.flatten_append] at this
    rw [List.zip_append hl']
    exact this

theorem run_grown [FloorRing K] (t : CurveNum K) (ht : Trig.Laws t.toTrig) (hp : PowLaws t.pow08) (cmd : CurveCmd K)
    (items : List (PenItem K)) (c : Curve K) (prev : Option (Sec K)) (htol : 0 < c.tol) (hd : Denotes c.pen cmd items)
    (hc : c.lastC = Sec.ctrlC prev) (hq : c.lastQ = Sec.ctrlQ prev) (ha : ArcOk t.toNum c.tol cmd) :
    ∃ N c', (∀ fuel, N ≤ fuel → c.run t fuel cmd = (c', none)) ∧
      Grown t.toNum c c' (walk t.toNum c.pen prev items) ∧
      c'.lastC = Sec.ctrlC ((walk t.toNum c.pen prev items).getLast?.or prev) ∧
      c'.lastQ = Sec.ctrlQ ((walk t.toNum c.pen prev items).getLast?.or prev) := by
  have lines : ∀ pts : List (Pt K), pts ≠ [] →
      Grown t.toNum c { c.forget with points := c.points ++ pts } (walk t.toNum c.pen prev (pts.map PenItem.lineTo)) ∧
      none = Sec.ctrlC ((walk t.toNum c.pen prev (pts.map PenItem.lineTo)).getLast?.or prev) ∧
      none = Sec.ctrlQ ((walk t.toNum c.pen prev (pts.map PenItem.lineTo)).getLast?.or prev) := by
    intro pts hpts
    obtain ⟨a, b, hab⟩ := walk_lines_last t.toNum pts hpts c.pen prev
    refine ⟨lines_grown t.toNum pts c prev none none, ?_, ?_⟩ <;> rw [hab] <;> rfl
  have mm : ∀ {α : Type} (l : List α) (g : α → Pt K), (l.map fun a => PenItem.lineTo (g a)) = (l.map g).map PenItem.lineTo := by
    intro α l g
    rw [List.map_map]
    rfl
  cases hd with
  | line rel he hne =>
    rename_i args pts
    obtain ⟨h1, h2, h3⟩ := lines (pts.map (placed rel c.pen)) (by simpa using hne)
    rw [mm]
    refine ⟨0, _, fun fuel _ => ?_, h1, h2, h3⟩
    show c.line rel args = _
    unfold Curve.line
    rw [parse_encodes he, toAbs_eq]
  | hor rel hne =>
    rename_i xs
    obtain ⟨h1, h2, h3⟩ := lines (xs.map fun x => (if rel then c.pen.1 + x else x, c.pen.2)) (by simpa using hne)
    rw [mm]
    exact ⟨0, _, fun fuel _ => rfl, h1, h2, h3⟩
  | ver rel hne =>
    rename_i ys
    obtain ⟨h1, h2, h3⟩ := lines (ys.map fun y => (c.pen.1, if rel then c.pen.2 + y else y)) (by simpa using hne)
    rw [mm]
    exact ⟨0, _, fun fuel _ => rfl, h1, h2, h3⟩
  | arc rx ry i f r =>
    obtain ⟨c', h1, h2, h3, h4⟩ := arc_grown t.toNum ht rx ry i f r c prev ha
    exact ⟨0, c', fun fuel _ => h1, h2, h3, h4⟩
  | cubic rel he hne => exact cubic_grown t.toNum _ hne c prev htol rel _ he
  | smoothCubic rel he hne =>
    rename_i args l
    obtain ⟨N, c', h1, h2, h3, h4⟩ := smoothCubicLoop_grown t.toNum
      (l.map fun q => (placed rel c.pen q.1, placed rel c.pen q.2))
      { c with lastQ := none, lastC := some (c.lastC.getD c.pen) } prev htol (by
        show (some (c.lastC.getD c.pen)).getD _ = _
        rw [Option.getD_some, hc]
        rfl)
    have hpen : Curve.pen { c with lastQ := none, lastC := some (c.lastC.getD c.pen) } = c.pen := rfl
    rw [List.map_map] at h2 h4
    simp only [Function.comp_def, hpen] at h2 h4
    obtain ⟨h5, h6⟩ := h4 (by simpa using hne)
    refine ⟨N, c', ?_, ?_, h5, ?_⟩
    · intro fuel hfuel
      show c.smoothCubic fuel rel args = _
      unfold Curve.smoothCubic
      rw [parse_encodes he, toAbs_eq]
      simp only
      rw [flat2_map, h1 fuel hfuel]
      rfl
    · exact h2
    · rw [h6]; exact h3
  | quad rel he hne =>
    rename_i args l
    obtain ⟨N, c', h1, h2, h3, h4, h5, h6⟩ := quadLoop_grown t.toNum
      (l.map fun q => (placed rel c.pen q.1, placed rel c.pen q.2)) { c with lastC := none } prev none htol
    have hpen : Curve.pen { c with lastC := none } = c.pen := rfl
    rw [List.map_map] at h2 h5 h6
    simp only [Function.comp_def, hpen] at h2 h5 h6
    obtain ⟨q, hq⟩ : ∃ q, l.getLast? = some q := by
      cases h : l.getLast? with
      | none => exact absurd (List.getLast?_eq_none_iff.1 h) hne
      | some q => exact ⟨q, rfl⟩
    rw [List.getLast?_map, hq] at h1 h5
    refine ⟨N, { c' with lastQ := some (placed rel c.pen q.1) }, ?_, ?_, ?_, ?_⟩
    · intro fuel hfuel
      show c.quad fuel rel args = _
      unfold Curve.quad
      rw [parse_encodes he, toAbs_eq]
      simp only
      rw [flat2_map, h1 fuel hfuel]
      rfl
    · obtain ⟨k1, pts, k2, k3, k4⟩ := h2
      exact ⟨k1, pts, k2, k3, k4⟩
    · rw [h6 (by simpa using hne)]
      exact h3
    · rw [h5]; rfl
  | smoothQuad rel he hne =>
    rename_i args l
    obtain ⟨N, c', h1, h2, h3, h4⟩ := smoothQuadLoop_grown t.toNum (l.map (placed rel c.pen))
      { c with lastC := none, lastQ := some (c.lastQ.getD c.pen) } prev htol (by
        show (some (c.lastQ.getD c.pen)).getD _ = _
        rw [Option.getD_some, hq]
        rfl)
    have hpen : Curve.pen { c with lastC := none, lastQ := some (c.lastQ.getD c.pen) } = c.pen := rfl
    rw [List.map_map] at h2 h4
    simp only [Function.comp_def, hpen] at h2 h4
    obtain ⟨h5, h6⟩ := h4 (by simpa using hne)
    refine ⟨N, c', ?_, ?_, ?_, h5⟩
    · intro fuel hfuel
      show c.smoothQuad fuel rel args = _
      unfold Curve.smoothQuad
      rw [parse_encodes he, toAbs_eq]
      simp only
      rw [h1 fuel hfuel]
      rfl
    · exact h2
    · rw [h6]; exact h3
  | general rel he hne =>
    rename_i args pts
    obtain ⟨b1, b2, b3, b4⟩ := bezParams_ok hp (n := (c.pen :: pts.map (placed rel c.pen)).length + 1)
      (by simp)
    obtain ⟨N, ps, h1, h2, h3⟩ := addBez_spec c.forget htol _ b1 b2 b3 b4 (c.pen :: pts.map (placed rel c.pen))
      (by simp)
    refine ⟨N, { c.forget with points := c.points ++ ps }, ?_, ?_, rfl, rfl⟩
    · intro fuel hfuel
      show c.general t fuel rel args = _
      unfold Curve.general
      rw [parse_encodes he, toAbs_eq]
      simp only
      rw [h1 fuel hfuel]
      rfl
    · exact Grown.one t.toNum c _ _ ps rfl rfl h3 h2
  | interp rel cycle hobby hne hh hl =>
    rename_i points l
    obtain ⟨args, h1, h2⟩ := interpArgs_ok cycle c.pen (points.map (placed rel c.pen)) l (by simpa using hl)
    have hnz : ((l.zip (points.map (placed rel c.pen) ++ [c.pen])).map fun q => (q.1.1, q.1.2, q.2)) ≠ [] := by
      intro h
      have := congrArg List.length h
      have hpos := List.length_pos_iff.2 hne
      have hle : 1 ≤ l.length := by rw [hl]; omega
      simp only [List.length_map, List.length_zip, List.length_append, List.length_nil, List.length_cons] at this
      omega
    obtain ⟨N, c', g1, g2, g3, g4⟩ := cubic_grown t.toNum _ hnz c prev htol false args h2
    rw [List.map_map] at g2 g3 g4
    refine ⟨N, c', ?_, g2, g3, g4⟩
    intro fuel hfuel
    show c.interp hobby fuel rel cycle points = _
    unfold Curve.interp
    rw [if_neg hne, toAbs_eq]
    simp only [hh, h1]
    exact g1 fuel hfuel

/-! ### The theorems -/

theorem runs_grown [FloorRing K] (t : CurveNum K) (ht : Trig.Laws t.toTrig) (hp : PowLaws t.pow08)
    (cmds : List (CurveCmd K)) : ∀ (secs : List (Sec K)) (c : Curve K) (prev : Option (Sec K)), 0 < c.tol →
    Means t.toNum c.pen prev cmds secs → c.lastC = Sec.ctrlC prev → c.lastQ = Sec.ctrlQ prev →
    (∀ cmd ∈ cmds, ArcOk t.toNum c.tol cmd) →
    ∃ N c', (∀ fuel, N ≤ fuel → forOut (Curve.run t fuel) c cmds = (c', none)) ∧ Grown t.toNum c c' secs := by
  induction cmds with
  | nil =>
    intro secs c prev _ hm _ _ _
    cases hm
    exact ⟨0, c, fun _ _ => rfl, Grown.refl _ _ _ rfl rfl⟩
  | cons cmd cmds ih =>
    intro secs c prev htol hm hc hq ha
    cases hm with
    | cons hd hm =>
      obtain ⟨N, c1, h1, h2, h3, h4⟩ := run_grown t ht hp cmd _ c prev htol hd hc hq (ha cmd List.mem_cons_self)
      have hpen : c1.pen = penAfter t.toNum c.pen (walk t.toNum c.pen prev _) := h2.2.choose_spec.2.2
      rw [← hpen] at hm
      obtain ⟨M, c2, k1, k2⟩ := ih _ c1 _ (by rw [h2.1]; exact htol) hm h3 h4
        (fun x hx => by rw [h2.1]; exact ha x (List.mem_cons_of_mem _ hx))
      refine ⟨max N M, c2, ?_, h2.trans k2⟩
      intro fuel hf
      rw [forOut, h1 fuel (le_trans (le_max_left _ _) hf)]
      exact k1 fuel (le_trans (le_max_right _ _) hf)

/-- **C57**. Any sequence of calls draws the sections that the commands mean, one after the other: each starts at the
end of the one before, smooth commands continue the section before if it is of the same kind. The vertices of the
curve are the starting point followed by those of every section, and the pen is at the end of the last one. -/
theorem C57_commands [FloorRing K] (t : CurveNum K) (ht : Trig.Laws t.toTrig) (hp : PowLaws t.pow08) (start : Pt K)
    (tolerance : K) (htol : tolerance ≠ 0) (cmds : List (CurveCmd K)) (secs : List (Sec K))
    (hm : Means t.toNum start none cmds secs) (ha : ∀ cmd ∈ cmds, ArcOk t.toNum (tolerance ^ 2) cmd) :
    ∃ N c, (∀ fuel, N ≤ fuel → forOut (Curve.run t fuel) (Curve.new start tolerance) cmds = (c, none)) ∧
      (∃ pts, List.Forall₂ (Vertices t.toNum (tolerance ^ 2)) secs pts ∧ c.points = start :: pts.flatten) ∧
      c.pen = penAfter t.toNum start secs := by
  obtain ⟨N, c, h1, -, pts, h3, h4, h5⟩ := runs_grown t ht hp cmds secs (Curve.new start tolerance) none
    (by show 0 < tolerance ^ 2; positivity) hm rfl rfl ha
  exact ⟨N, c, h1, ⟨pts, h3, h4⟩, h5⟩

/-- The last vertex of a section is its end. -/
theorem vertices_end (t : Num K) (err : K) (s : Sec K) (pts : List (Pt K)) (h : Vertices t err s pts) :
    pts.getLast? = some (s.endPt t) := by
  cases s with
  | line a b => rw [show pts = [b] from h, end_line]; rfl
  | ellipse a rx ry rot a0 a1 =>
    obtain ⟨n, hn, rfl⟩ := h
    obtain ⟨k, rfl⟩ : ∃ k, n = k + 1 := ⟨n - 1, by omega⟩
    rw [List.range_succ, List.map_append, List.getLast?_append]
    simp only [List.map_cons, List.map_nil, List.getLast?_singleton, Option.some_or]
    have e4 : ((k : K) + 1) / ((k + 1 : Nat) : K) = 1 := by
      have h0 : ((k + 1 : Nat) : K) ≠ 0 := by exact_mod_cast Nat.succ_ne_zero k
      have : ((k + 1 : Nat) : K) = (k : K) + 1 := by push_cast; ring
      rw [this] at h0 ⊢
      exact div_self h0
    rw [e4]
    rfl
  | quad a b c => obtain ⟨l, h1, _, rfl⟩ := h; exact samples_last h1
  | cubic a b c d => obtain ⟨l, h1, _, rfl⟩ := h; exact samples_last h1
  | general ctrl => obtain ⟨l, h1, _, rfl⟩ := h; exact samples_last h1

theorem forall₂_mem_left {α β : Type} {R : α → β → Prop} {a : List α} {b : List β} (h : List.Forall₂ R a b) :
    ∀ x ∈ a, ∃ y ∈ b, R x y := by
  induction h with
  | nil => intro x hx; cases hx
  | cons h _ ih =>
    intro x hx
    rcases List.mem_cons.1 hx with rfl | hx
    · exact ⟨_, List.mem_cons_self, h⟩
    · obtain ⟨y, hy, hr⟩ := ih x hx
      exact ⟨y, List.mem_cons_of_mem _ hy, hr⟩

/-- **C57**. The end of every section is a vertex of the curve, exactly. -/
theorem C57_section_ends [FloorRing K] (t : CurveNum K) (ht : Trig.Laws t.toTrig) (hp : PowLaws t.pow08) (start : Pt K)
    (tolerance : K) (htol : tolerance ≠ 0) (cmds : List (CurveCmd K)) (secs : List (Sec K))
    (hm : Means t.toNum start none cmds secs) (ha : ∀ cmd ∈ cmds, ArcOk t.toNum (tolerance ^ 2) cmd) :
    ∃ N c, (∀ fuel, N ≤ fuel → forOut (Curve.run t fuel) (Curve.new start tolerance) cmds = (c, none)) ∧
      ∀ s ∈ secs, s.endPt t.toNum ∈ c.points := by
  obtain ⟨N, c, h1, ⟨pts, h3, h4⟩, -⟩ := C57_commands t ht hp start tolerance htol cmds secs hm ha
  refine ⟨N, c, h1, fun s hs => ?_⟩
  obtain ⟨p, hpm, hv⟩ := forall₂_mem_left h3 s hs
  rw [h4]
  refine List.mem_cons_of_mem _ (List.mem_flatten.2 ⟨p, hpm, ?_⟩)
  exact List.mem_of_getLast? (vertices_end _ _ _ _ hv)

theorem walk_cubic_ends (t : Num K) (l : List ((Pt K × Pt K) × Pt K)) : ∀ (pen : Pt K) (prev : Option (Sec K)),
    (walk t pen prev (l.map fun q => .cubicTo q.1.1 q.1.2 q.2)).map (fun s => s.endPt t) = l.map Prod.snd := by
  induction l with
  | nil => intro _ _; rfl
  | cons q l ih =>
    intro pen prev
    rw [List.map_cons, walk_cons, List.map_append, ih]
    show [(Sec.cubic pen q.1.1 q.1.2 q.2).endPt t] ++ _ = _
    rw [end_cubic]
    rfl

/-- **C57**. An interpolating curve passes exactly through all points given to `I` or `i`, whatever control points
`_hobby` computes; a cycle comes back to its start. -/
theorem C57_interpolation [FloorRing K] (t : CurveNum K)
    (c : Curve K) (htol : 0 < c.tol) (rel cycle : Bool) (hobby : Hobby K) (points : List (Pt K))
    (l : List (Pt K × Pt K)) (hne : points ≠ [])
    (hh : hobby (c.pen :: points.map (placed rel c.pen)) = .ok (l.map Prod.fst, l.map Prod.snd))
    (hl : l.length = points.length + (if cycle then 1 else 0)) :
    ∃ N c', (∀ fuel, N ≤ fuel → c.interp hobby fuel rel cycle points = (c', none)) ∧
      (∃ ext, c'.points = c.points ++ ext ∧ ∀ p ∈ points, placed rel c.pen p ∈ ext) ∧
      (cycle = true → c'.pen = c.pen) := by
  obtain ⟨args, h1, h2⟩ := interpArgs_ok cycle c.pen (points.map (placed rel c.pen)) l (by simpa using hl)
  have hnz : ((l.zip (points.map (placed rel c.pen) ++ [c.pen])).map fun q => (q.1.1, q.1.2, q.2)) ≠ [] := by
    intro h
    have := congrArg List.length h
    have hpos := List.length_pos_iff.2 hne
    have hle : 1 ≤ l.length := by rw [hl]; omega
    simp only [List.length_map, List.length_zip, List.length_append, List.length_nil, List.length_cons] at this
    omega
  obtain ⟨N, c', g1, ⟨-, pts, g2, g3, g4⟩, -, -⟩ := cubic_grown t.toNum _ hnz c none htol false args h2
  rw [List.map_map] at g2 g4
  have hends := walk_cubic_ends t.toNum (l.zip (points.map (placed rel c.pen) ++ [c.pen])) c.pen none
  have hlen : l.length ≤ (points.map (placed rel c.pen) ++ [c.pen]).length := by
    rw [hl]; simp; split <;> omega
  refine ⟨N, c', ?_, ⟨pts.flatten, g3, ?_⟩, ?_⟩
  · intro fuel hfuel
    unfold Curve.interp
    rw [if_neg hne, toAbs_eq]
    simp only [hh, h1]
    exact g1 fuel hfuel
  · intro p hpp
    have hmem : placed rel c.pen p ∈ (l.zip (points.map (placed rel c.pen) ++ [c.pen])).map Prod.snd := by
      obtain ⟨i, hi, rfl⟩ := List.mem_iff_getElem.1 hpp
      refine List.mem_map.2 ⟨(l[i]'(by rw [hl]; omega), placed rel c.pen points[i]), ?_, rfl⟩
      refine List.mem_iff_getElem.2 ⟨i, ?_, ?_⟩
      · rw [List.length_zip]
        simp only [List.length_append, List.length_map, List.length_cons, List.length_nil]
        rw [hl]
        omega
      · rw [List.getElem_zip, List.getElem_append_left (by simpa using hi), List.getElem_map]
    rw [← hends] at hmem
    obtain ⟨s, hs, hse⟩ := List.mem_map.1 hmem
    obtain ⟨ps, hps, hv⟩ := forall₂_mem_left g2 s hs
    rw [← hse]
    exact List.mem_flatten.2 ⟨ps, hps, List.mem_of_getLast? (vertices_end _ _ _ _ hv)⟩
  · intro hcyc
    subst hcyc
    simp only [if_true] at hl
    have hlast := congrArg List.getLast? hends
    rw [List.getLast?_map, List.getLast?_map] at hlast
    have hz : (l.zip (points.map (placed rel c.pen) ++ [c.pen])).getLast?.map Prod.snd = some c.pen := by
      rw [← List.getLast?_map, List.map_snd_zip (by simp [hl])]
      simp
    rw [hz] at hlast
    rw [g4]
    unfold penAfter
    show (match (walk t.toNum c.pen none ((l.zip (points.map (placed rel c.pen) ++ [c.pen])).map fun q =>
      PenItem.cubicTo q.1.1 q.1.2 q.2)).getLast? with
      | some s => s.endPt t.toNum
      | none => c.pen) = c.pen
    cases hw : (walk t.toNum c.pen none ((l.zip (points.map (placed rel c.pen) ++ [c.pen])).map fun q =>
      PenItem.cubicTo q.1.1 q.1.2 q.2)).getLast? with
    | none => rfl
    | some s =>
      rw [hw] at hlast
      simpa using hlast

/-- The arguments moved by `d`. -/
def Spec.shiftArgs (d : Pt K) : List (CArg K) → List (CArg K)
  | [] => []
  | .cx z :: r => .cx (d.1 + z.1, d.2 + z.2) :: shiftArgs d r
  | .re x :: .re y :: r => .re (d.1 + x) :: .re (d.2 + y) :: shiftArgs d r
  | l => l

theorem parse_shift (d : Pt K) (args : List (CArg K)) :
    parseArgs (shiftArgs d args) = ((parseArgs args).1.map (placed true d), (parseArgs args).2) := by
  fun_induction shiftArgs d args with
  | case1 => rfl
  | case2 z r ih => simp only [parseArgs, ih, List.map_cons]; rfl
  | case3 x y r ih => simp only [parseArgs, ih, List.map_cons]; rfl
  | case4 l h1 h2 h3 =>
    match l with
    | [] => exact absurd rfl h1
    | .cx z :: r => exact absurd rfl (h2 z r)
    | .re x :: .re y :: r => exact absurd rfl (h3 x y r)
    | [.re x] => rfl
    | .re x :: .cx z :: r => rfl

/-- **C57**. A command in lower case is the one in upper case with all arguments moved by the position of the pen when
the method is called, errors included. -/
theorem C57_relative [FloorRing K] (t : CurveNum K) (fuel : Nat) (c : Curve K) (args : List (CArg K)) (xs : List K)
    (hobby : Hobby K) (cycle : Bool) (points : List (Pt K)) :
    c.run t fuel (.line true args) = c.run t fuel (.line false (shiftArgs c.pen args)) ∧
    c.run t fuel (.hor true xs) = c.run t fuel (.hor false (xs.map (c.pen.1 + ·))) ∧
    c.run t fuel (.ver true xs) = c.run t fuel (.ver false (xs.map (c.pen.2 + ·))) ∧
    c.run t fuel (.cubic true args) = c.run t fuel (.cubic false (shiftArgs c.pen args)) ∧
    c.run t fuel (.smoothCubic true args) = c.run t fuel (.smoothCubic false (shiftArgs c.pen args)) ∧
    c.run t fuel (.quad true args) = c.run t fuel (.quad false (shiftArgs c.pen args)) ∧
    c.run t fuel (.smoothQuad true args) = c.run t fuel (.smoothQuad false (shiftArgs c.pen args)) ∧
    c.run t fuel (.general true args) = c.run t fuel (.general false (shiftArgs c.pen args)) ∧
    c.run t fuel (.interp true cycle hobby points) =
      c.run t fuel (.interp false cycle hobby (points.map fun p => (c.pen.1 + p.1, c.pen.2 + p.2))) := by
  have e1 : ∀ l : List (Pt K), (l.map (placed true c.pen)).map (c.toAbs false) = l.map (c.toAbs true) := by
    intro l
    rw [List.map_map]
    rfl
  refine ⟨?_, ?_, ?_, ?_, ?_, ?_, ?_, ?_, ?_⟩ <;> simp only [Curve.run]
  · unfold Curve.line
    rw [parse_shift, e1]
  · unfold Curve.hor
    rw [List.map_map]
    rfl
  · unfold Curve.ver
    rw [List.map_map]
    rfl
  · unfold Curve.cubic
    rw [parse_shift, e1]
  · unfold Curve.smoothCubic
    rw [parse_shift, e1]
  · unfold Curve.quad
    rw [parse_shift, e1]
  · unfold Curve.smoothQuad
    rw [parse_shift, e1]
  · unfold Curve.general
    rw [parse_shift]
    simp only [e1]
  · unfold Curve.interp
    simp only [List.map_eq_nil_iff]
    have e2 : (points.map fun p => (c.pen.1 + p.1, c.pen.2 + p.2)).map (c.toAbs false) = points.map (c.toAbs true) :=
      e1 points
    rw [e2]

/-- **C57**, difference from SVG. In SVG 2 each point of a relative command is relative to the one before; here all
are relative to the pen at the start of the call. `l` with two points ends at the pen plus the second; SVG would end
at the pen plus both, which is a different point unless the first is (0, 0). -/
theorem C57_not_svg (c : Curve K) (p q : Pt K) :
    let r := c.line true [.cx p, .cx q]
    r.2 = none ∧ r.1.points = c.points ++ [(c.pen.1 + p.1, c.pen.2 + p.2), (c.pen.1 + q.1, c.pen.2 + q.2)] ∧
      (r.1.pen = (c.pen.1 + p.1 + q.1, c.pen.2 + p.2 + q.2) ↔ p = (0, 0)) := by
  refine ⟨rfl, rfl, ?_⟩
  have : (c.line true [.cx p, .cx q]).1.pen = (c.pen.1 + q.1, c.pen.2 + q.2) := by
    unfold Curve.pen Curve.line
    simp [parseArgs, Curve.toAbs, List.getLastD_eq_getLast?, Curve.pen]
  rw [this, Prod.mk.injEq]
  constructor
  · rintro ⟨h1, h2⟩
    refine Prod.ext ?_ ?_ <;> simp only <;> linarith
  · rintro rfl
    constructor <;> ring

/-- **C57**, error branches: `C` and `Q` without arguments raise UnboundLocalError and `I` without points ValueError;
a number without a partner at the end raises IndexError after the points before it have been drawn. -/
theorem C57_errors [FloorRing K] (t : CurveNum K) (fuel : Nat) (c : Curve K) (rel cycle : Bool) (hobby : Hobby K)
    (args : List (CArg K)) (pts : List (Pt K)) (he : PointArgs args pts) (x : K) :
    c.run t fuel (.cubic rel []) = ({ c with lastQ := none }, some .unboundLocal) ∧
    c.run t fuel (.quad rel []) = ({ c with lastC := none }, some .unboundLocal) ∧
    c.run t fuel (.interp rel cycle hobby []) = (c, some .valueError) ∧
    c.run t fuel (.line rel (args ++ [.re x])) =
      ({ c.forget with points := c.points ++ pts.map (placed rel c.pen) }, some .indexError) ∧
    c.run t fuel (.general rel (args ++ [.re x])) = (c.forget, some .indexError) := by
  have hp : parseArgs (args ++ [.re x]) = (pts, some .indexError) := by
    induction he with
    | nil => rfl
    | complex z _ ih => rw [List.cons_append, parseArgs, ih]
    | pair x y _ ih => rw [List.cons_append, List.cons_append, parseArgs, ih]
  refine ⟨rfl, rfl, rfl, ?_, ?_⟩
  · show c.line rel _ = _
    unfold Curve.line
    rw [hp]
    rfl
  · show c.general t fuel rel _ = _
    unfold Curve.general
    rw [hp]

/-- **C57**. `get_points` leaves out the last vertex exactly if it is closer to the first than the tolerance; so a
curve that comes back to its start gets no vertex twice, and a curve without sections has no points at all. -/
theorem C57_get_points (c : Curve K) (first last : Pt K) (mid : List (Pt K)) :
    (c.points = first :: (mid ++ [last]) → c.getPoints = if sqDist last first < c.tol then first :: mid else c.points) ∧
    (c.points = [first] → 0 < c.tol → c.getPoints = []) := by
  constructor
  · intro h
    unfold Curve.getPoints
    rw [h]
    simp only [List.headD_cons, List.getLastD_eq_getLast?]
    have e1 : (first :: (mid ++ [last])).getLast? = some last := by
      rw [← List.cons_append, List.getLast?_append]; rfl
    have e2 : (first :: (mid ++ [last])).dropLast = first :: mid := by
      rw [← List.cons_append, List.dropLast_concat]
    rw [e1, e2]
    rfl
  · intro h ht
    unfold Curve.getPoints
    rw [h]
    have : sqErr ([first].getLastD (0, 0)) ([first].headD (0, 0)) = 0 := by
      simp [sqErr, List.getLastD]
    rw [this, if_pos ht]
    rfl

/-! ### Non-vacuity -/

/-- The functions of numpy over the reals. -/
noncomputable def realCurve : CurveNum ℝ := { realNum with pow08 := fun x => x ^ ((4 : ℝ) / 5) }

/-- They meet the assumptions. -/
theorem realCurve_laws : Trig.Laws realCurve.toTrig ∧ PowLaws realCurve.pow08 := by
  refine ⟨realNum_laws.trig, ?_, ?_, ?_⟩
  · exact Real.zero_rpow (by norm_num)
  · exact Real.one_rpow _
  · intro a b h0 h1 _
    exact Real.rpow_lt_rpow h0 h1 (by norm_num)

/-- **C57**. Over the reals the number of points of an arc can be computed if the tolerance is at most the larger
diameter. -/
theorem C57_arc_ok (tolerance rx ry i f rot : ℝ) (h0 : 0 < tolerance) (h1 : tolerance ≤ 2 * max rx ry) :
    ArcOk realNum (tolerance ^ 2) (.arc rx ry i f rot) := by
  have hr : 0 < max rx ry := by linarith
  have e : realNum.sqrt (tolerance ^ 2) = tolerance := Real.sqrt_sq h0.le
  have h2 : 0 < tolerance / max rx ry := div_pos h0 hr
  have h3 : tolerance / max rx ry ≤ 2 := by
    rw [div_le_iff₀ hr]
    exact h1
  have e2 : realNum.acos (1 - tolerance / max rx ry) = some (Real.arccos (1 - tolerance / max rx ry)) := by
    unfold realNum
    exact if_pos ⟨by linarith, by linarith⟩
  have h4 : Real.arccos (1 - tolerance / max rx ry) ≠ 0 := by
    intro h
    rw [Real.arccos_eq_zero] at h
    linarith
  refine ⟨truncInt (|f - i| / 2 / Real.arccos (1 - tolerance / max rx ry) + 1 / 2), ?_⟩
  unfold arcSteps
  rw [if_neg hr.ne', e, e2]
  simp only
  rw [if_neg h4]

/-- Lines, a cubic, a smooth cubic in two groups that continues it, a smooth quadratic that does not, and an arc. -/
def penSample (K : Type) [Field K] : List (CurveCmd K) :=
  [.line true [.re 1, .re 0, .cx (2, 1)], .cubic false [.cx (3, 2), .cx (4, 2), .cx (5, 1)],
   .smoothCubic true [.re 1, .re (-1), .cx (2, 0), .cx (3, 1), .cx (4, 0)], .smoothQuad true [.cx (1, 1)],
   .arc 2 1 0 90 0]

example : ∃ secs, Means realCurve.toNum (0, 0) none (penSample ℝ) secs ∧ secs.length = 7 ∧
    (∃ a b c d, secs[3]? = some (.cubic a b c d) ∧ a = (5, 1) ∧ b = (6, 0) ∧ c = (6, 0) ∧ d = (7, 1)) ∧
    (∃ a b c, secs[5]? = some (.quad a b c) ∧ b = a ∧ a = (9, 1) ∧ c = (10, 2)) ∧
    ∀ cmd ∈ penSample ℝ, ArcOk realCurve.toNum ((1 / 10 : ℝ) ^ 2) cmd := by
  refine ⟨_, .cons (.line true (.pair 1 0 (.complex (2, 1) .nil)) (by simp))
    (.cons (.cubic false (l := [((3, 2), (4, 2), (5, 1))]) (.complex _ (.complex _ (.complex _ .nil))) (by simp))
    (.cons (.smoothCubic true (l := [((1, -1), (2, 0)), ((3, 1), (4, 0))])
      (.pair _ _ (.complex _ (.complex _ (.complex _ .nil)))) (by simp))
    (.cons (.smoothQuad true (.complex (1, 1) .nil) (by simp)) (.cons (.arc 2 1 0 90 0) (.nil _ _))))), rfl,
    ⟨_, _, _, _, rfl, ?_⟩, ⟨_, _, _, rfl, ?_⟩, ?_⟩
  · simp only [penAfter, walk, PenItem.sec, placed, List.map, List.getLast?_singleton, List.getLast?_cons_cons, Option.or,
      end_cubic, end_line, mirrored, Prod.mk.injEq]
    norm_num
  · simp only [penAfter, walk, PenItem.sec, placed, List.map, List.getLast?_singleton, List.getLast?_cons_cons, Option.or,
      end_cubic, end_line, mirrored]
    norm_num
  · intro cmd h
    simp only [penSample, List.mem_cons, List.not_mem_nil, or_false] at h
    rcases h with rfl | rfl | rfl | rfl | rfl
    · trivial
    · trivial
    · trivial
    · trivial
    · exact C57_arc_ok _ _ _ _ _ _ (by norm_num) (by norm_num)

/-- Rational functions, to run the model. -/
def ratCurve : CurveNum ℚ := { ratNum with pow08 := id }

/-- The same, run. -/
example : let r := forOut (Curve.run ratCurve 1000) (Curve.new (0, 0) (1 / 10)) (penSample ℚ)
    r.2 = none ∧ r.1.pen = (8, 3) ∧ (5, 1) ∈ r.1.points ∧ (7, 1) ∈ r.1.points ∧ (9, 1) ∈ r.1.points := by
  decide +kernel

/-- A closed interpolation. -/
def loopSample : Out (Curve ℚ) :=
  Curve.interp (fun p => .ok (p.map fun q => (q.1 + 1, q.2), p.map fun q => (q.1, q.2 + 1)))
    1000 true true [(4, 0), (4, 4)] (Curve.new (0, 0) (1 / 10))

example : loopSample.2 = none ∧ loopSample.1.pen = (0, 0) ∧ (4, 0) ∈ loopSample.1.points ∧
    (4, 4) ∈ loopSample.1.points ∧ loopSample.1.getPoints.length + 1 = loopSample.1.points.length := by
  decide +kernel

end Gdspy
