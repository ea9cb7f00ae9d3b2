import Verif.Lemmas.OffsetPaths
import Verif.Lemmas.Tree

/-!
The region of the trees that `ClipperOffset` returns.
-/

set_option linter.unusedSectionVars false

namespace Gdspy

open Spec

variable {K : Type} [Field K] [LinearOrder K] [IsStrictOrderedRing K]

theorem clockwise_wind (b : IBox) (hx : b.x0 < b.x1) (hy : b.y0 < b.y1) (p : Pt K) : wind (ofGrid (clockwise b)) p =
    if (b.x0 : K) ≤ p.1 ∧ p.1 < b.x1 ∧ (b.y0 : K) < p.2 ∧ p.2 ≤ b.y1 then -1 else 0 := by
  have hr : ofGrid (K := K) (clockwise b) = (([((b.x0 : K), (b.y0 : K)), ((b.x1 : K), (b.y0 : K)), ((b.x1 : K), (b.y1 : K)),
      ((b.x0 : K), (b.y1 : K))] : Pgon K).reverse) := by
    simp [ofGrid, clockwise]
  have hy' : (b.y0 : K) < b.y1 := by exact_mod_cast hy
  have hx' : (b.x0 : K) < b.x1 := by exact_mod_cast hx
  rw [hr, wind_reverse, wind_trapezoid _ _ _ _ _ _ hy', xAt_vertical, xAt_vertical]
  by_cases h1 : (b.y0 : K) < p.2 ∧ p.2 ≤ b.y1
  · rw [if_pos h1]
    by_cases h2 : p.1 < b.x1
    · by_cases h3 : p.1 < (b.x0 : K)
      · rw [if_pos h2, if_pos h3, if_neg (fun h => absurd h.1 (not_le.2 h3))]; rfl
      · rw [if_pos h2, if_neg h3, if_pos ⟨not_lt.1 h3, h2, h1⟩]; rfl
    · have h3 : ¬ p.1 < (b.x0 : K) := fun h => h2 (h.trans hx')
      rw [if_neg h2, if_neg h3, if_neg (fun h => h2 h.2.1)]; rfl
  · rw [if_neg h1, if_neg (fun h => h1 h.2.2)]; rfl

theorem frame_around {e : UnionEngine} (he : ExactUnion K e) (A : List (List IPt)) :
    ∃ b, framePath (e.bounds A) = clockwise b ∧ Around K b A := by
  obtain ⟨h1, h2, h3⟩ := he.bounds A
  refine ⟨⟨(e.bounds A).x0 - 10, (e.bounds A).x1 + 10, (e.bounds A).y0 - 10, (e.bounds A).y1 + 10⟩, rfl, by simp only; omega, by simp only; omega, ?_⟩
  intro P hP p hp
  obtain ⟨a, b, c, d⟩ := h3 P hP p hp
  push_cast
  refine ⟨?_, ?_, ?_, ?_⟩ <;> linarith

/-- What `Execute` makes of the moved outlines. -/
def executed (e : UnionEngine) (grow : Prop) [Decidable grow] (dest : List (List IPt)) : List PolyNode :=
  if grow then e.tree false dest
  else
    match e.tree true (dest ++ [framePath (e.bounds dest)]) with
    | [.mk _ (n :: l)] => n :: l
    | _ => []

theorem total_cons (P : Pgon K) (A : List (Pgon K)) (p : Pt K) : total (P :: A) p = wind P p + total A p := by simp [total]

theorem total_app (A B : List (Pgon K)) (p : Pt K) : total (A ++ B) p = total A p + total B p := by simp [total]

theorem executed_region {e : UnionEngine} (he : ExactUnion K e) (grow : Prop) [Decidable grow] (dest : List (List IPt))
    (hd : ∀ P ∈ dest, Rectilinear P) :
    Sound K (executed e grow dest) ∧ ∀ p : Pt K, Filled (executed e grow dest) p ↔ 0 < total (dest.map ofGrid) p := by
  unfold executed
  by_cases hg : grow
  · rw [if_pos hg]
    exact he.positive dest hd
  · rw [if_neg hg]
    obtain ⟨b, hb, hA⟩ := frame_around he dest
    rw [hb]
    obtain ⟨c, l, h1, h2, h3, h4, h5⟩ := he.negative dest b hd hA
    rw [h1]
    have hl : (match ([.mk c l] : List PolyNode) with
      | [.mk _ (n :: l)] => n :: l
      | _ => []) = l := by cases l <;> rfl
    rw [hl]
    refine ⟨h4, fun p => ?_⟩
    rw [filled_frame (by norm_num) h3, h2, h5, List.map_append, List.map_singleton, total_app, total_cons,
      clockwise_wind b hA.1 hA.2.1]
    have h0 : total ([] : List (Pgon K)) p = 0 := rfl
    rw [h0]
    by_cases hin : (b.x0 : K) ≤ p.1 ∧ p.1 < b.x1 ∧ (b.y0 : K) < p.2 ∧ p.2 ≤ b.y1
    · rw [if_pos hin]; constructor
      · rintro ⟨-, h⟩; omega
      · intro h; exact ⟨by decide, by omega⟩
    · rw [if_neg hin]
      simp only [ne_eq, not_true_eq_false, false_and, false_iff]
      intro hpos
      have : ∃ P ∈ dest, wind (ofGrid P) p ≠ 0 := by
        by_contra hc
        push Not at hc
        have : total (dest.map ofGrid) p = 0 := by
          unfold total
          apply List.sum_eq_zero
          intro x hx
          simp only [List.mem_map, exists_exists_and_eq_and] at hx
          obtain ⟨P, hP, rfl⟩ := hx
          exact hc P hP
        omega
      obtain ⟨P, hP, hw⟩ := this
      obtain ⟨g1, g2, g3, g4⟩ := hA.2.2 P hP p hw
      exact hin ⟨by linarith, by linarith, by linarith, by linarith⟩

/-- The outlines that the binding makes of a tree. -/
theorem sound_paths {sort : List (List IPt) → List (List IPt)} (hsort : SortsByLeft sort) {tree : List PolyNode} (h : Sound K tree) :
    ∃ out, treePaths sort tree = .ok out ∧ (∀ q ∈ out, Rectilinear q) ∧ (∀ q ∈ out, ∃ p : Pt K, wind (ofGrid q) p ≠ 0) ∧
      ∀ p : Pt K, Covers (out.map ofGrid) p ↔ Filled tree p := by
  obtain ⟨out, h1, ns, h2, h3⟩ := C69_tree_partial (K := K) hsort (tree := tree) fun n hn =>
    ⟨(h.rectilinear n hn).1, (h.rectilinear n hn).2, h.inside n hn⟩
  have left : ∀ q ∈ out, ∃ n ∈ ns, Rectilinear q ∧ ∀ p : Pt K, wind (ofGrid q) p = nodeWind n p := by
    clear h1 h2
    induction h3 with
    | nil => simp
    | cons hx _ ih =>
      intro q hq
      rcases List.mem_cons.1 hq with rfl | hq
      · exact ⟨_, List.mem_cons_self, hx⟩
      · obtain ⟨n, hn, hr⟩ := ih q hq
        exact ⟨n, List.mem_cons_of_mem _ hn, hr⟩
  have right : ∀ n ∈ ns, ∃ q ∈ out, ∀ p : Pt K, wind (ofGrid q) p = nodeWind n p := by
    clear h1 h2 left
    induction h3 with
    | nil => simp
    | cons hx _ ih =>
      intro n hn
      rcases List.mem_cons.1 hn with rfl | hn
      · exact ⟨_, List.mem_cons_self, hx.2⟩
      · obtain ⟨q, hq, hr⟩ := ih n hn
        exact ⟨q, List.mem_cons_of_mem _ hq, hr⟩
  refine ⟨out, h1, fun q hq => ?_, fun q hq => ?_, fun p => ?_⟩
  · obtain ⟨n, _, hr, _⟩ := left q hq
    exact hr
  · obtain ⟨n, hn, _, hw⟩ := left q hq
    obtain ⟨p, hp⟩ := h.nonempty n ((h2 n).1 hn)
    exact ⟨p, by rw [hw]; exact hp⟩
  · unfold Covers Filled
    simp only [List.mem_map, exists_exists_and_eq_and]
    constructor
    · rintro ⟨q, hq, hw⟩
      obtain ⟨n, hn, _, hr⟩ := left q hq
      exact ⟨n, (h2 n).1 hn, by rw [← hr]; exact hw⟩
    · rintro ⟨n, hn, hw⟩
      obtain ⟨q, hq, hr⟩ := right n ((h2 n).2 hn)
      exact ⟨q, hq, by rw [hr]; exact hw⟩

variable [FloorRing K]

/-- The end of `offset`, after the binding has returned polygons: they are fractured. -/
theorem offset_result {clip : Engine K} (hclip : Exact Rectilinear clip) {precision : K} (hp : 0 < precision) {out : List (List IPt)}
    (hr : ∀ q ∈ out, Rectilinear q) (hn : ∀ q ∈ out, ∃ p : Pt K, wind (ofGrid q) p ≠ 0) (fuel maxPoints : Nat) (layer datatype : Int)
    (hgrid : maxPoints ≤ 4 ∨ StaysOnGrid Rectilinear clip) (region : Pt K → Prop)
    (hregion : ∀ p, Covers (out.map ofGrid) p ↔ region p) (R : List (Pgon K))
    (hR : R = buildTuple (1 / precision) (out.map fun P => P.map fun v => ((v.1 : K), (v.2 : K)))) :
    ∃ r, (if R = [] then (.ok .none : Py (BoolOut K)) else do
        let r ← fractured clip fuel maxPoints precision R layer datatype
        .ok (BoolOut.ofFracture r)) = .ok r ∧ (maxPoints ≤ 4 → r ≠ .outOfFuel) ∧
      (r ≠ .outOfFuel → IsResult r (fun v => region (unit precision v)) layer datatype maxPoints) := by
  have hcov : ∀ v, Covers R v ↔ region (unit precision v) := by
    intro v
    rw [hR, covers_build hp]
    exact hregion _
  have hnon : ∀ q ∈ R, ∃ v, wind q v ≠ 0 := by
    intro q hq
    rw [hR] at hq
    obtain ⟨r, hr', rfl⟩ := List.mem_map.1 hq
    obtain ⟨q, hq', rfl⟩ := List.mem_map.1 hr'
    obtain ⟨v, hv⟩ := hn q hq'
    refine ⟨(precision * v.1, precision * v.2), ?_⟩
    rw [wind_build hp]
    have : unit precision (precision * v.1, precision * v.2) = v := by
      unfold unit
      ext <;> simp <;> field_simp
    rw [this]
    exact hv
  have hgr : maxPoints ≤ 4 ∨ (StaysOnGrid Rectilinear clip ∧ ∀ q ∈ R, Gridded Rectilinear precision q) := by
    rcases hgrid with h | h
    · exact Or.inl h
    · refine Or.inr ⟨h, ?_⟩
      intro q hq
      rw [hR] at hq
      obtain ⟨r, hr', rfl⟩ := List.mem_map.1 hq
      obtain ⟨q, hq', rfl⟩ := List.mem_map.1 hr'
      refine ⟨q, hr q hq', ?_⟩
      apply List.map_congr_left
      intro w _
      ext <;> simp [mul_comm]
  clear hR
  by_cases hR : R = []
  · subst hR
    refine ⟨.none, by simp, by simp, fun _ => ⟨fun v => ?_, ?_, by simp⟩⟩
    · refine Iff.trans ?_ (hcov v)
      simp [Covers]
    · simp only [true_iff]
      intro v hv
      have := (hcov v).2 hv
      simp [Covers] at this
  · obtain ⟨r, h1, h2, h3⟩ := fractured_spec class_rectilinear hclip hp R fuel maxPoints layer datatype hgr
    refine ⟨BoolOut.ofFracture r, ?_, ?_, ?_⟩
    · simp only [hR, if_false]
      rw [h1, py_bind_ok]
    · intro hm
      have := h2 hm
      cases r with
      | none => exact absurd rfl this
      | some ps => simp [BoolOut.ofFracture]
    · intro hfuel
      cases r with
      | none => exact absurd rfl hfuel
      | some ps =>
        obtain ⟨h4, h5⟩ := h3 ps rfl
        refine ⟨fun v => ?_, ?_, ?_⟩
        · refine Iff.trans ?_ ((h4 v).trans (hcov v))
          constructor
          · rintro ⟨ps', h, hv⟩
            cases h
            exact hv
          · intro h
            exact ⟨ps, rfl, h⟩
        · constructor
          · intro h; cases h
          · intro h
            obtain ⟨q, hq⟩ := List.exists_mem_of_ne_nil _ hR
            obtain ⟨v, hv⟩ := hnon q hq
            exact absurd ((hcov v).1 ⟨q, hq, hv⟩) (h v)
        · intro ps' h
          cases h
          exact h5

/-! ## The moved outlines -/

/-- The signed number of bands and corner rectangles at a point. -/
def shift (d : K) (P : List IPt) (p : Pt K) : Int := if 0 < d then margin d P p else -margin d P p

theorem stepOut_near {d : K} (h1 : -(1 / 2) < d) (h2 : d < 1 / 2) (a b v : IPt) : stepOut d a b v = v := by
  have key : ∀ (n : Int) (x : K), -(1 / 2) < x → x < 1 / 2 → clipRound ((n : K) + x) = n := by
    intro n x h3 h4
    have := clipRound_near ((n : K) + x)
    rw [abs_le] at this
    have e : |((clipRound ((n : K) + x) - n : Int) : K)| < 1 := by
      push_cast
      rw [abs_lt]
      constructor <;> linarith [this.1, this.2]
    have e2 : |clipRound ((n : K) + x) - n| < 1 := by exact_mod_cast e
    have := Int.abs_lt_one_iff.1 e2
    omega
  unfold stepOut
  by_cases h : a.1 = b.1
  · rw [if_pos h]
    by_cases hb : a.2 < b.2
    · rw [if_pos hb, key _ _ h1 h2]
    · rw [if_neg hb, key _ _ (by linarith) (by linarith)]
  · rw [if_neg h]
    by_cases hb : a.1 < b.1
    · rw [if_pos hb, key _ _ (by linarith) (by linarith)]
    · rw [if_neg hb, key _ _ h1 h2]

/-- Distances of less than half a grid unit move nothing. -/
theorem margin_near {d : K} (h1 : -(1 / 2) < d) (h2 : d < 1 / 2) (P : List IPt) (p : Pt K) : margin d P p = 0 := by
  have flat : ∀ a b : IPt, wind (ofGrid (K := K) [a, a, b, b]) p = 0 := by
    intro a b
    rw [wind_eq_sum]
    have h3 := edgeWind_swap p ((gp a : Pt K), gp b)
    simp only [Prod.swap_prod_mk] at h3
    simp [edges, edgeWind_self, h3]
  by_contra hc
  have hpos : 0 < margin d P p := by omega
  rw [margin_pos] at hpos
  rcases hpos with ⟨e, _, h⟩ | ⟨c, _, _, h⟩
  · unfold band at h
    rw [stepOut_near h1 h2, stepOut_near h1 h2] at h
    exact h (flat _ _)
  · unfold cornerBox at h
    rw [stepOut_near h1 h2, stepOut_near h1 h2] at h
    exact h (flat _ _)

theorem doOffset_total {t : Num K} (ht : Num.Polar t) {c : OffsetCfg K} (hj : c.join = .miter) (hl : c.miterLim ≤ 1) {L : List (List IPt)}
    (hL : ∀ P ∈ L, Outline P) : (∀ P ∈ doOffset t c L, Rectilinear P) ∧
      ∀ p, total ((doOffset t c L).map ofGrid) p = total (L.map ofGrid) p + (L.map (shift c.delta · p)).sum := by
  unfold doOffset
  by_cases h0 : c.delta > -(1 / 10 ^ 20) ∧ c.delta < 1 / 10 ^ 20
  · rw [if_pos h0]
    refine ⟨fun P hP => (hL P hP).rectilinear, fun p => ?_⟩
    have : (L.map (shift c.delta · p)).sum = 0 := by
      apply List.sum_eq_zero
      intro x hx
      obtain ⟨P, _, rfl⟩ := List.mem_map.1 hx
      unfold shift
      have h3 : (1 : K) / 10 ^ 20 ≤ 1 / 2 := by norm_num
      rw [margin_near (by linarith [h0.1]) (by linarith [h0.2])]
      simp
    rw [this, add_zero]
  · rw [if_neg h0]
    have hne : c.delta ≠ 0 := by
      intro h
      apply h0
      rw [h]
      constructor <;> norm_num
    have hc : MiterCfg c := ⟨hj, hl, hne⟩
    constructor
    · intro Q hQ
      obtain ⟨P, hP, rfl⟩ := List.mem_map.1 hQ
      rw [offsetContour_eq ht hc (hL P hP)]
      exact (moved_wind (hL P hP) c.delta ((0 : K), (0 : K))).1
    · intro p
      induction L with
      | nil => simp [total]
      | cons P L ih =>
        have hP := hL P (by simp)
        have ih' := ih fun Q hQ => hL Q (List.mem_cons_of_mem _ hQ)
        simp only [List.map_cons, total_cons, List.sum_cons] at ih' ⊢
        rw [ih', offsetContour_eq ht hc hP]
        have : wind (ofGrid (movedOutline c.delta P)) p = wind (ofGrid P) p + shift c.delta P p := by
          unfold shift
          by_cases hd : 0 < c.delta
          · rw [if_pos hd, moved_right hP hd.le]
          · rw [if_neg hd, moved_left hP (not_lt.1 hd)]; ring
        rw [this]
        ring

end Gdspy
