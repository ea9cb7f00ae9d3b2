import Verif.Props.C70Area

/-!
# C70: paths with two points

`get_polygons` treats paths with two points apart from the others.
-/

set_option linter.unusedSectionVars false

namespace Gdspy

open Spec

section Straight

variable {K : Type} [Field K] [LinearOrder K] [IsStrictOrderedRing K] [FloorRing K]

/-- What `twoOutline` computes with. -/
theorem twoOutline_eq (ctx : FlexCtx K) (tol : K) (fin : FlexEnd K) (p q : Pt K) (o0 o1 w0 w1 : K) :
    let a := (beside ctx.num p q o0 o1).1
    let b := (beside ctx.num p q o0 o1).2
    let right := beside ctx.num a b (-1 * (w0 / 2)) (-1 * (w1 / 2))
    let left := beside ctx.num a b (1 * (w0 / 2)) (1 * (w1 / 2))
    let back := Side.ahead ctx.num (b, a) (0, 0) 1
    let on := Side.ahead ctx.num (a, b) (0, 0) 1
    let straight (d0 d1 : K) : Pgon K :=
      if w0 = w1 then [padd right.1 (psmul d0 back), padd left.1 (psmul d0 back), padd left.2 (psmul d1 on),
        padd right.2 (psmul d1 on)]
      else [right.1, padd right.1 (psmul d0 back), padd left.1 (psmul d0 back), left.1, left.2, padd left.2 (psmul d1 on),
        padd right.2 (psmul d1 on), right.2]
    twoOutline ctx tol fin p q o0 o1 w0 w1 = match fin with
      | .flush => .ok [right.1, left.1, left.2, right.2]
      | .fn f => .ok ((f right.1 (pneg (psub right.2 right.1)) left.1 (psub left.2 left.1)).reverse ++
          f right.2 (psub right.2 right.1) left.2 (pneg (psub left.2 left.1)))
      | .smooth => do
        let s ← hobbyCap ctx tol right.1 left.1 (ctx.num.atan2 (-(psub right.2 right.1).2) (-(psub right.2 right.1).1))
          (ctx.num.atan2 (psub left.2 left.1).2 (psub left.2 left.1).1)
        let e ← hobbyCap ctx tol left.2 right.2 (ctx.num.atan2 (psub left.2 left.1).2 (psub left.2 left.1).1)
          (ctx.num.atan2 (-(psub right.2 right.1).2) (-(psub right.2 right.1).1))
        .ok (s ++ e)
      | .round => do
        let s ← roundCap ctx.num tol a (pneg (psub b a)) (w0 / 2) (-1)
        let e ← roundCap ctx.num tol b (psub b a) (w1 / 2) (-1)
        .ok (s ++ e)
      | .extended => .ok (straight (w0 / 2) (w1 / 2))
      | .pair d0 d1 => .ok (straight d0 d1) := by
  intro a b right left back on straight
  have ha : padd p (psmul o0 (unitNormal ctx.num (psub q p))) = a := by rw [unitNormal_toLeft]; rfl
  have hb : padd q (psmul o1 (unitNormal ctx.num (psub q p))) = b := by rw [unitNormal_toLeft]; rfl
  have hr0 : psub a (psmul (w0 / 2) (unitNormal ctx.num (psub b a))) = right.1 := by
    rw [unitNormal_toLeft]
    refine Prod.ext ?_ ?_ <;> simp only [right, beside, psub, psmul] <;> ring
  have hr1 : psub b (psmul (w1 / 2) (unitNormal ctx.num (psub b a))) = right.2 := by
    rw [unitNormal_toLeft]
    refine Prod.ext ?_ ?_ <;> simp only [right, beside, psub, psmul] <;> ring
  have hl0 : padd a (psmul (w0 / 2) (unitNormal ctx.num (psub b a))) = left.1 := by
    rw [unitNormal_toLeft]
    refine Prod.ext ?_ ?_ <;> simp only [left, beside, padd, psub, psmul] <;> ring
  have hl1 : padd b (psmul (w1 / 2) (unitNormal ctx.num (psub b a))) = left.2 := by
    rw [unitNormal_toLeft]
    refine Prod.ext ?_ ?_ <;> simp only [left, beside, padd, psub, psmul] <;> ring
  have hn : normSq (psub b a) = dist2 a b := by simp only [normSq, psub, dist2]; ring
  have hn' : dist2 b a = dist2 a b := by simp only [dist2]; ring
  have hon (x : Pt K) (d : K) : padd x (psmul d (psmul (1 / ctx.num.sqrt (normSq (psub b a))) (psub b a))) =
      padd x (psmul d on) := by
    rw [hn]
    refine Prod.ext ?_ ?_ <;> simp only [on, Side.ahead, Side.vec, padd, psub, psmul] <;> ring
  have hback (x : Pt K) (d : K) : psub x (psmul d (psmul (1 / ctx.num.sqrt (normSq (psub b a))) (psub b a))) =
      padd x (psmul d back) := by
    rw [hn]
    refine Prod.ext ?_ ?_ <;> simp only [back, Side.ahead, Side.vec, padd, psub, psmul, hn'] <;> ring
  unfold twoOutline
  simp only [ha, hb, hr0, hr1, hl0, hl1, hon, hback]
  cases fin <;> rfl

end Straight

section Round

theorem pneg_psub (p q : Pt ℝ) : pneg (psub p q) = psub q p := by
  refine Prod.ext ?_ ?_ <;> simp only [pneg, psub] <;> ring

/-- The outline of a path with two points. Missing: what the functions for smooth ends and the given functions return. -/
theorem C70_two_partial {ctx : FlexCtx ℝ} (hc : ctx.num = realNum) {tol : ℝ} {fin : FlexEnd ℝ} {p q : Pt ℝ} (hpq : p ≠ q)
    {o0 o1 w0 w1 : ℝ} (hw0 : 0 < w0) (hw1 : 0 < w1) {P : Pgon ℝ} (hP : twoOutline ctx tol fin p q o0 o1 w0 w1 = .ok P) :
    ∃ a b, CentreLine realNum [p, q] [o0, o1] [a, b] ∧ TwoOutlineOk realNum fin a b w0 w1 P := by
  have h := twoOutline_eq ctx tol fin p q o0 o1 w0 w1
  rw [hP, hc] at h
  have hab := beside_ne realNum hpq o0 o1
  refine ⟨(beside realNum p q o0 o1).1, (beside realNum p q o0 o1).2, ⟨rfl, rfl, rfl, fun i hi => ?_⟩, ?_⟩
  · simp only [List.length_cons, List.length_nil] at hi
    omega
  simp only at h
  generalize (beside realNum p q o0 o1).1 = a at *
  generalize (beside realNum p q o0 o1).2 = b at *
  cases fin with
  | flush =>
    cases h
    exact ⟨_, _, rfl, rfl, fun h => by simp at h, fun _ => rfl⟩
  | extended =>
    simp only at h
    cases h
    refine ⟨_, _, rfl, rfl, fun h => ⟨[_, _], [_, _], rfl, rfl, ?_⟩, fun h => ?_⟩
    · rw [if_pos h.1]
      rfl
    · rw [if_neg fun e => h ⟨e, .inl rfl⟩]
      rfl
  | pair d0 d1 =>
    simp only at h
    cases h
    refine ⟨_, _, rfl, rfl, fun h => ⟨[_, _], [_, _], rfl, rfl, ?_⟩, fun h => ?_⟩
    · rw [if_pos h.1]
      rfl
    · rw [if_neg fun e => h ⟨e, .inr ⟨_, _, rfl⟩⟩]
      rfl
  | smooth =>
    obtain ⟨s, hs, h⟩ := bind_ok_inv h.symm
    obtain ⟨e, he, h⟩ := bind_ok_inv h
    cases h
    exact ⟨s, e.reverse, trivial, trivial, fun h => by simp at h, fun _ => by rw [List.reverse_reverse]⟩
  | fn f =>
    cases h
    exact ⟨_, (f _ _ _ _).reverse, trivial, trivial, fun h => by simp at h, fun _ => by rw [List.reverse_reverse]⟩
  | round =>
    obtain ⟨s, hs, h⟩ := bind_ok_inv h.symm
    obtain ⟨e, he, h⟩ := bind_ok_inv h
    cases h
    refine ⟨s, e.reverse, ?_, ?_, fun h => by simp at h, fun _ => by rw [List.reverse_reverse]⟩
    · have := roundCap_begin hc tol hab hw0 none none w1 (g := s) (by
        simp only [flexCap]
        rw [hc, ← pneg_psub]
        exact hs) (extensions (K := ℝ) .round).1
      rw [hc] at this
      exact this
    · have hn : normSq (psub b a) = dist2 a b := by simp only [normSq, psub, dist2]; ring
      have hsq (y : ℝ) : realNum.sqrt y = Real.sqrt y := rfl
      have hu : Side.ahead realNum (a, b) (0, 0) 1 =
          ((psub b a).1 / Real.sqrt (normSq (psub b a)), (psub b a).2 / Real.sqrt (normSq (psub b a))) := by
        rw [hn]
        simp only [Side.ahead, Side.vec, psub, hsq]
        refine Prod.ext ?_ ?_ <;> simp only <;> ring
      obtain ⟨h1, h2, h3, h4, h5⟩ := roundCap_ok (fun h => hab (by
        simp only [psub, Prod.mk.injEq] at h
        exact Prod.ext (by linarith [h.1]) (by linarith [h.2]))) (half_pos hw1) (.inr rfl) he _ hu
      have hn2 : (b.1 - a.1) ^ 2 + (b.2 - a.2) ^ 2 = dist2 a b := by simp only [dist2]; ring
      have hr : (beside realNum a b (-1 * (w0 / 2)) (-1 * (w1 / 2))).2 =
          (b.1 - -1 * (w1 / 2) * (Side.ahead realNum (a, b) (0, 0) 1).2, b.2 + -1 * (w1 / 2) * (Side.ahead realNum (a, b) (0, 0) 1).1) := by
        simp only [beside, toLeft, Side.ahead, Side.vec, hn2]
        refine Prod.ext ?_ ?_ <;> simp only <;> ring
      have hl : (beside realNum a b (1 * (w0 / 2)) (1 * (w1 / 2))).2 =
          (b.1 + -1 * (w1 / 2) * (Side.ahead realNum (a, b) (0, 0) 1).2, b.2 - -1 * (w1 / 2) * (Side.ahead realNum (a, b) (0, 0) 1).1) := by
        simp only [beside, toLeft, Side.ahead, Side.vec, hn2]
        refine Prod.ext ?_ ?_ <;> simp only <;> ring
      simp only [EndOk]
      rw [hr, hl]
      refine ⟨by simpa using h1, by rw [List.head?_reverse]; exact h3, by rw [List.getLast?_reverse]; exact h2,
        fun x hx => h4 x (List.mem_reverse.1 hx), ?_⟩
      rw [List.pairwise_reverse]
      refine h5.imp fun {x y} h => ?_
      simp only
      linarith

/-- The polygons of a path with two points; without points apart there are none. Missing: as above, and what happens to
polygons that are cut. -/
theorem C70_two_polygons_partial {ctx : FlexCtx ℝ} (hc : ctx.num = realNum) {f g : Flex ℝ} {d : PolyDict ℝ} {p q : Pt ℝ}
    (hget : f.getPolygons ctx = (g, .ok d)) (hn : f.cache = none) (hm : f.maxPoints ≤ 4) (h2 : f.points = [p, q])
    (hpos : ∀ r ∈ f.widths, ∀ w ∈ r, 0 < w) :
    (p = q → d = []) ∧
    (p ≠ q → ∃ Ps : List (Pgon ℝ), Ps.length = f.n ∧
      (∀ key : Int × Int, (d.lookup key).getD [] =
        ((List.zip (List.range f.n) Ps).filter fun x =>
          f.layers[x.1]? = some key.1 ∧ f.datatypes[x.1]? = some key.2).map Prod.snd) ∧
      ∀ (k : Nat) (P : Pgon ℝ), Ps[k]? = some P → ∃ fin o0 o1 w0 w1 a b,
        f.ends[k]? = some fin ∧
        f.offsets[0]?.bind (·[k]?) = some o0 ∧ f.offsets[1]?.bind (·[k]?) = some o1 ∧
        f.widths[0]?.bind (·[k]?) = some w0 ∧ f.widths[1]?.bind (·[k]?) = some w1 ∧
        CentreLine realNum [p, q] [o0, o1] [a, b] ∧ TwoOutlineOk realNum fin a b w0 w1 P) := by
  unfold Flex.getPolygons at hget
  rw [hn] at hget
  simp only at hget
  generalize hx : f.compute ctx = x at hget
  obtain ⟨g', d', e⟩ := x
  cases e with
  | some e => cases hget
  | none =>
    cases hget
    unfold Flex.compute at hx
    rw [if_pos (by rw [h2]; rfl), h2] at hx
    simp only at hx
    refine ⟨fun hpq => ?_, fun hpq => ?_⟩
    · rw [if_pos hpq] at hx
      cases hx
      rfl
    · rw [if_neg hpq] at hx
      simp only [Prod.mk.injEq] at hx
      obtain ⟨rfl, hx⟩ := hx
      obtain ⟨Ps, h4, h5, h6⟩ := forPolys_contents hm _ hx
      have hlen : Ps.length = f.n := by rw [← h4.length_eq, List.length_range]
      refine ⟨Ps, hlen, fun key => h6 key, fun k P hk => ?_⟩
      have hkn : k < f.n := by
        rw [← hlen]
        exact (List.getElem?_eq_some_iff.1 hk).1
      have hP : f.twoOf ctx k = .ok P := by
        have h7 := (List.forall₂_iff_get.1 h4).2 k (by simpa using hkn) (by rw [hlen]; exact hkn)
        simp only [List.get_eq_getElem, List.getElem_range] at h7
        rw [h7, (List.getElem?_eq_some_iff.1 hk).2]
      have hidx : ∀ {α : Type} {l : List α} {i : Nat} {a : α}, idx l i = .ok a → l[i]? = some a := by
        intro α l i a h
        unfold idx at h
        split at h <;> simp_all
      have hidx2 : ∀ {l : List (List ℝ)} {i : Nat} {a : ℝ}, (idx l i >>= fun r => idx r k) = .ok a →
          l[i]?.bind (·[k]?) = some a := by
        intro l i a h
        obtain ⟨r, hr, h⟩ := bind_ok_inv h
        rw [hidx hr]
        exact hidx h
      have hmem : ∀ {i : Nat} {w : ℝ}, f.widths[i]?.bind (·[k]?) = some w → 0 < w := by
        intro i w h
        obtain ⟨r, hr, h⟩ := Option.bind_eq_some_iff.1 h
        exact hpos r (List.mem_of_getElem? hr) w (List.mem_of_getElem? h)
      unfold Flex.twoOf at hP
      obtain ⟨p', hp', hP⟩ := bind_ok_inv hP
      obtain ⟨q', hq', hP⟩ := bind_ok_inv hP
      obtain ⟨fin, hfin, hP⟩ := bind_ok_inv hP
      obtain ⟨o0, ho0, hP⟩ := bind_ok_inv hP
      obtain ⟨o1, ho1, hP⟩ := bind_ok_inv hP
      obtain ⟨w0, hw0, hP⟩ := bind_ok_inv hP
      obtain ⟨w1, hw1, hP⟩ := bind_ok_inv hP
      have ep := hidx hp'
      have eq := hidx hq'
      rw [h2] at ep eq
      cases ep
      cases eq
      obtain ⟨a, b, hl, ho⟩ := C70_two_partial hc hpq (hmem (hidx2 hw0)) (hmem (hidx2 hw1)) hP
      exact ⟨fin, o0, o1, w0, w1, a, b, hidx hfin, hidx2 ho0, hidx2 ho1, hidx2 hw0, hidx2 hw1, hl, ho⟩

end Round

section Area

variable {K : Type} [Field K] [LinearOrder K] [IsStrictOrderedRing K] [FloorRing K]

/-- The area of a path with two points: a trapezium and the extensions. -/
theorem C70_two_area {ctx : FlexCtx K} (ht : Num.Polar ctx.num) (tol : K) {fin : FlexEnd K} {p q : Pt K} (hpq : p ≠ q)
    {o0 o1 w0 w1 : K} (hfin : fin = .flush ∨ fin = .extended ∨ ∃ a b, fin = .pair a b) :
    ∃ a b P, CentreLine ctx.num [p, q] [o0, o1] [a, b] ∧ twoOutline ctx tol fin p q o0 o1 w0 w1 = .ok P ∧
      shoelace P = -((w0 + w1) * ctx.num.sqrt (dist2 a b) + 2 * w0 * (reach fin w0).1 + 2 * w1 * (reach fin w1).2) := by
  have h := twoOutline_eq ctx tol fin p q o0 o1 w0 w1
  have hab := beside_ne ctx.num hpq o0 o1
  simp only at h
  generalize ha : (beside ctx.num p q o0 o1).1 = a at *
  generalize hb : (beside ctx.num p q o0 o1).2 = b at *
  have hline : CentreLine ctx.num [p, q] [o0, o1] [a, b] := by
    refine ⟨rfl, ha.symm, hb.symm, fun i hi => ?_⟩
    simp only [List.length_cons, List.length_nil] at hi
    omega
  have h1 := cross_toLeft ht hab 1 0
  have h2 := ahead_cross ht hab
  have h3 : Side.ahead ctx.num (b, a) (0, 0) 1 = pneg (Side.ahead ctx.num (a, b) (0, 0) 1) := by
    have : dist2 b a = dist2 a b := by simp only [dist2]; ring
    refine Prod.ext ?_ ?_ <;> simp only [Side.ahead, Side.vec, pneg, this] <;> ring
  rw [h3] at h
  have h4 : b = padd a (psmul (ctx.num.sqrt (dist2 a b)) (Side.ahead ctx.num (a, b) (0, 0) 1)) := by
    have h0 := sqrt_pos_of ht (dist2_pos_of (a := (a, b)) hab)
    simp only at h0
    simp only [Side.ahead, Side.vec, padd, psmul]
    generalize ctx.num.sqrt (dist2 a b) = s at h0
    refine Prod.ext ?_ ?_ <;> simp only <;> field_simp <;> ring
  simp only [beside] at h
  generalize Side.ahead ctx.num (a, b) (0, 0) 1 = u at *
  generalize hs : ctx.num.sqrt (dist2 a b) = s at *
  generalize toLeft ctx.num (b.1 - a.1, b.2 - a.2) = n at *
  subst h4
  rcases hfin with rfl | rfl | ⟨d0, d1, rfl⟩
  · refine ⟨a, _, _, hline, h, ?_⟩
    rw [hs]
    simp only [shoelace_chain, chain, cross, List.cons_append, List.nil_append, padd, psmul, reach]
    linear_combination -((w0 + w1) * s) * h2
  · refine ⟨a, _, _, hline, h, ?_⟩
    rw [hs]
    split
    · rename_i hw
      subst hw
      simp only [shoelace_chain, chain, cross, List.cons_append, List.nil_append, padd, psmul, pneg, reach]
      linear_combination -((w0 + w0) * s + 2 * w0 * (w0 / 2) + 2 * w0 * (w0 / 2)) * h2
    · simp only [shoelace_chain, chain, cross, List.cons_append, List.nil_append, padd, psmul, pneg, reach]
      linear_combination -((w0 + w1) * s + 2 * w0 * (w0 / 2) + 2 * w1 * (w1 / 2)) * h2
  · refine ⟨a, _, _, hline, h, ?_⟩
    rw [hs]
    split
    · rename_i hw
      subst hw
      simp only [shoelace_chain, chain, cross, List.cons_append, List.nil_append, padd, psmul, pneg, reach]
      linear_combination -((w0 + w0) * s + 2 * w0 * d0 + 2 * w0 * d1) * h2
    · simp only [shoelace_chain, chain, cross, List.cons_append, List.nil_append, padd, psmul, pneg, reach]
      linear_combination -((w0 + w1) * s + 2 * w0 * d0 + 2 * w1 * d1) * h2

end Area

end Gdspy
