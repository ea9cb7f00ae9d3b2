import Verif.Props.C75Outline
import Verif.Props.C74Straight

/-!
# C75: areas of PolyPaths
-/

set_option linter.unusedSectionVars false

namespace Gdspy

open Spec

variable {K : Type} [Field K] [LinearOrder K] [IsStrictOrderedRing K]

/-- Twice the area between two sides. -/
def bandSum (s0 s1 : List (Pt K)) : K :=
  chain s0 - chain s1 + cross (s0.getLastD (0, 0)) (s1.getLastD (0, 0)) + cross (s1.headD (0, 0)) (s0.headD (0, 0))

theorem chain_dup (l m : List (Pt K)) (p : Pt K) : chain (l ++ p :: p :: m) = chain (l ++ p :: m) := by
  rw [chain_join, chain_join l m, chain]
  simp only [cross]
  ring

/-- With both ends of both sides. -/
theorem chain_around {x y e f : Pt K} {a b : List (Pt K)} {a' b' : List (Pt K)} (ha : x :: a = a' ++ [e]) (hb : y :: b = b' ++ [f]) :
    chain (x :: a ++ (y :: b).reverse ++ [x]) = bandSum (x :: a) (y :: b) := by
  have h1 : (y :: b).reverse = f :: b'.reverse := by rw [hb, List.reverse_append]; rfl
  have e1 : chain (x :: a ++ (y :: b).reverse ++ [x]) = chain (x :: a) + cross e f + chain ((y :: b).reverse ++ [x]) := by
    rw [h1, ha, List.append_assoc, List.append_assoc, List.singleton_append, chain_join]
    show _ + (cross e f + chain (f :: (b'.reverse ++ [x]))) = _
    rw [← List.cons_append]
    ring
  have e2 : chain ((y :: b).reverse ++ [x]) = -chain (y :: b) + cross y x := by
    rw [List.reverse_cons, List.append_assoc, List.singleton_append, chain_join, ← List.reverse_cons, chain_reverse]
    simp [chain]
  have l0 : (x :: a).getLastD (0, 0) = e := by rw [ha, List.getLastD_concat]
  have l1 : (y :: b).getLastD (0, 0) = f := by rw [hb, List.getLastD_concat]
  rw [e1, e2]
  unfold bandSum
  rw [l0, l1]
  simp only [List.headD_cons]
  ring

theorem outline_area {s0 s1 : List (Pt K)} (h0 : s0 ≠ []) (h1 : s1 ≠ []) : shoelace (outlineBetween s0 s1) = bandSum s0 s1 := by
  obtain ⟨x, a, rfl⟩ := List.exists_cons_of_ne_nil h0
  obtain ⟨y, b, rfl⟩ := List.exists_cons_of_ne_nil h1
  obtain ⟨a', e, ha⟩ : ∃ a' e, x :: a = a' ++ [e] := by
    rcases List.eq_nil_or_concat (x :: a) with h | ⟨l, e, h⟩
    · cases h
    · exact ⟨l, e, by rw [h, List.concat_eq_append]⟩
  obtain ⟨b', f, hb⟩ : ∃ b' f, y :: b = b' ++ [f] := by
    rcases List.eq_nil_or_concat (y :: b) with h | ⟨l, e, h⟩
    · cases h
    · exact ⟨l, e, by rw [h, List.concat_eq_append]⟩
  rw [← chain_around ha hb]
  -- the first point
  obtain ⟨S, hS⟩ : ∃ S, S = if (x :: a).head? = (y :: b).head? then (y :: b).drop 1 else y :: b := ⟨_, rfl⟩
  have hfirst : chain (x :: a ++ S.reverse ++ [x]) = chain (x :: a ++ (y :: b).reverse ++ [x]) := by
    by_cases hxy : x = y
    · have : S = b := by rw [hS, hxy]; simp
      rw [this, List.reverse_cons, ← hxy, List.append_assoc, List.append_assoc, List.append_assoc, List.singleton_append]
      rw [← List.append_assoc, ← List.append_assoc, chain_dup]
    · have : S = y :: b := by rw [hS]; simp [hxy]
      rw [this]
  have hlast : shoelace (x :: a ++ (if (x :: a).getLast? = S.getLast? then S.dropLast else S).reverse) = chain (x :: a ++ S.reverse ++ [x]) := by
    rw [List.cons_append, shoelace_chain, ← List.cons_append]
    by_cases he : (x :: a).getLast? = S.getLast?
    · rw [if_pos he]
      rw [ha, List.getLast?_concat] at he
      obtain ⟨S', hS'⟩ := List.getLast?_eq_some_iff.1 he.symm
      rw [hS', List.dropLast_concat, List.reverse_append, ha]
      simp only [List.reverse_cons, List.reverse_nil, List.nil_append, List.append_assoc, List.cons_append]
      rw [chain_dup]
    · rw [if_neg he]
  unfold outlineBetween
  simp only
  rw [← hS, hlast, hfirst]

/-- The pieces have the area of the whole. -/
theorem pieces_area {s0 s1 : List (Pt K)} {gs : List (Pgon K)} (h : Pieces s0 s1 gs) : s0 ≠ [] → s1 ≠ [] →
    (gs.map shoelace).sum = bandSum s0 s1 := by
  induction h with
  | whole =>
    intro h0 h1
    simp [outline_area h0 h1]
  | @cut a b a' b' p p' gs h ih =>
    intro _ _
    rw [List.map_cons, List.sum_cons, ih (by simp) (by simp), outline_area (by simp) (by simp)]
    unfold bandSum
    rw [chain_join a b p, chain_join a' b' p']
    have l (c d : List (Pt K)) (z : Pt K) : (c ++ z :: d).getLastD (0, 0) = (z :: d).getLastD (0, 0) := by
      rw [List.getLastD_eq_getLast?, List.getLastD_eq_getLast?, List.getLast?_append]
      cases h : (z :: d).getLast? with
      | none => simp at h
      | some y => rfl
    have hd (c d : List (Pt K)) (z : Pt K) : (c ++ z :: d).headD (0, 0) = (c ++ [z]).headD (0, 0) := by
      cases c <;> rfl
    rw [l a b, l a' b', hd a b, hd a' b', l a [], l a' []]
    simp only [List.getLastD_cons, List.getLastD_nil, List.headD_cons, cross]
    ring

/-! ### The specification determines the result -/

theorem meet_unique {x c b0 b1 p p' : Pt K} (h : Side.turn (x, c) (b0, b1) ≠ 0) (h1 : OnLine x c p) (h2 : OnLine b0 b1 p)
    (h1' : OnLine x c p') (h2' : OnLine b0 b1 p') : p = p' := by
  obtain ⟨s, hs⟩ := h1
  obtain ⟨u, hu⟩ := h2
  obtain ⟨s', hs'⟩ := h1'
  obtain ⟨u', hu'⟩ := h2'
  have e1 := congrArg Prod.fst (hs.symm.trans hu)
  have e2 := congrArg Prod.snd (hs.symm.trans hu)
  have e1' := congrArg Prod.fst (hs'.symm.trans hu')
  have e2' := congrArg Prod.snd (hs'.symm.trans hu')
  simp only at e1 e2 e1' e2'
  have : (s - s') * Side.turn (x, c) (b0, b1) = 0 := by
    simp only [Side.turn, Side.vec]
    linear_combination (b1.2 - b0.2) * (e1 - e1') - (b1.1 - b0.1) * (e2 - e2')
  have hss : s = s' := by
    rcases mul_eq_zero.1 this with h' | h'
    · linear_combination h'
    · exact absurd h' h
  rw [hs, hs', hss]

theorem turn_nonzero {z : K} (h : 1 / 10 ^ 30 < |z|) : z ≠ 0 := by
  rintro rfl
  rw [abs_zero] at h
  exact absurd h (not_lt.2 (by positivity))

theorem Spec.Flank.unique {bevel : Bool} {x : Pt K} {l : List (Side K)} {y y' : List (Pt K)} (h : Flank bevel x l y) :
    Flank bevel x l y' → y = y' := by
  induction h generalizing y' with
  | last => intro h'; cases h'; rfl
  | straight h1 _ ih =>
    intro h'
    cases h' with
    | straight _ h' => exact ih h'
    | miter h2 => exact absurd h1 (not_le.2 h2)
    | bevel h2 => exact absurd h1 (not_le.2 h2)
  | miter h1 h2 h3 h4 _ ih =>
    intro h'
    cases h' with
    | straight h5 => exact absurd h5 (not_le.2 h1)
    | miter h5 h6 h7 h8 h' =>
      obtain rfl := meet_unique (turn_nonzero h1) h2 h3 h6 h7
      rw [ih h']
    | bevel h5 h6 h7 h8 h9 =>
      obtain rfl := meet_unique (turn_nonzero h1) h2 h3 h6 h7
      exact absurd ⟨h8, h9⟩ h4
  | bevel h1 h2 h3 h4 h4' _ ih =>
    intro h'
    cases h' with
    | straight h5 => exact absurd h5 (not_le.2 h1)
    | miter h5 h6 h7 h8 h' =>
      obtain rfl := meet_unique (turn_nonzero h1) h2 h3 h6 h7
      exact absurd ⟨h4, h4'⟩ h8
    | bevel h5 h6 h7 h8 h9 h' => rw [ih h']

theorem Spec.Ribbon.sameArea {t : Num K} {bevel : Bool} {f0 f1 : Nat → K} {pts : List (Pt K)} {gs gs' : List (Pgon K)}
    (h : Ribbon t bevel f0 f1 pts gs) (h' : Ribbon t bevel f0 f1 pts gs') : (gs.map shoelace).sum = (gs'.map shoelace).sum := by
  obtain ⟨a, b, r, l, e1, e2, e3, e4, e5⟩ := h
  obtain ⟨a', b', r', l', d1, d2, d3, d4, d5⟩ := h'
  rw [e1] at d1
  rw [e2] at d2
  cases d1
  cases d2
  obtain rfl := e3.unique d3
  obtain rfl := e4.unique d4
  rw [pieces_area e5 (by simp) (by simp), pieces_area d5 (by simp) (by simp)]

theorem Spec.HalfDisc.unique {t : Num K} (ht : Num.Laws t) {c u : Pt K} {r : K} {g g' : Pgon K} (h : HalfDisc t c r u g)
    (h' : HalfDisc t c r u g') : g = g' := by
  obtain ⟨α, rfl, rfl⟩ := h
  obtain ⟨β, e, rfl⟩ := h'
  rw [Prod.mk.injEq] at e
  simp only [(ht.trig.add _ _).1, (ht.trig.add _ _).2, e.1, e.2]

theorem Spec.Lengthened.unique {t : Num K} {w0 w1 : K} {pts p1 p2 : List (Pt K)} (h : Lengthened t w0 w1 pts p1)
    (h' : Lengthened t w0 w1 pts p2) : p1 = p2 := by
  have hx : ∀ i, i = 0 ∨ i + 1 < pts.length → p1.getD i (0, 0) = p2.getD i (0, 0) := by
    intro i hi
    rcases Nat.eq_zero_or_pos i with rfl | h0
    · rw [h.first, h'.first]
    · rw [h.inner i h0 (by omega), h'.inner i h0 (by omega)]
  refine List.ext_getElem (h.length.trans h'.length.symm) fun i hi hi' => ?_
  have key : p1.getD i (0, 0) = p2.getD i (0, 0) := by
    by_cases hlt : i = 0 ∨ i + 1 < pts.length
    · exact hx i hlt
    · have : i = pts.length - 1 := by
        have := h.length
        omega
      rw [this, h.last, h'.last, hx _ (by omega)]
  rw [List.getD_eq_getElem?_getD, List.getD_eq_getElem?_getD, List.getElem?_eq_getElem hi, List.getElem?_eq_getElem hi'] at key
  exact key

theorem Spec.EndsOf.unique {τ : Type} {t : Num K} (ht : Num.Laws t) {widths dists : List K} {n : Nat} {tag : Nat → τ} {ends : PolyEnd}
    {pts p1 p2 : List (Pt K)} {c1 c2 : List (Pgon K × τ)} (h : EndsOf t widths dists n tag ends pts p1 c1)
    (h' : EndsOf t widths dists n tag ends pts p2 c2) : p1 = p2 ∧ c1 = c2 := by
  rcases h with ⟨e, rfl, rfl⟩ | ⟨e, rfl, o, w, rfl, hr⟩ | ⟨e, hx, rfl⟩ <;> rcases h' with ⟨e', rfl, rfl⟩ | ⟨e', rfl, o', w', rfl, hr'⟩ | ⟨e', hx', rfl⟩
  · exact ⟨rfl, rfl⟩
  · exfalso; rcases e with rfl | rfl <;> simp at e'
  · exfalso; rcases e with rfl | rfl <;> simp at e'
  · exfalso; rcases e with rfl | rfl <;> simp at e'
  · refine ⟨rfl, ?_⟩
    congr 1
    · refine List.map_congr_left fun ii hii => ?_
      rw [((hr ii (List.mem_range.1 hii)).1).unique ht (hr' ii (List.mem_range.1 hii)).1]
    · refine List.map_congr_left fun ii hii => ?_
      rw [((hr ii (List.mem_range.1 hii)).2).unique ht (hr' ii (List.mem_range.1 hii)).2]
  · exfalso; rcases e with rfl | rfl <;> simp at e'
  · exfalso; rcases e with rfl | rfl <;> simp at e'
  · exfalso; rcases e with rfl | rfl <;> simp at e'
  · exact ⟨hx.unique hx', rfl⟩

theorem sum_perm_flat {n : Nat} {gs : Nat → List (Pgon K)} {U : List (TaggedPoly K)} {f : Nat → Int × Int}
    (h : U.Perm ((List.range n).flatMap fun ii => (gs ii).map fun g => (g, f ii))) :
    ((U.map (·.1)).map shoelace).sum = ((List.range n).map fun ii => ((gs ii).map shoelace).sum).sum := by
  have h1 := ((h.map (·.1)).map shoelace).sum_eq
  rw [h1]
  clear h h1
  induction List.range n with
  | nil => simp
  | cons i l ih =>
    rw [List.flatMap_cons, List.map_append, List.map_append, List.sum_append, List.map_cons, List.sum_cons, ih]
    congr 1
    simp [List.map_map, Function.comp_def]

section Cut

variable [FloorRing K]

/-- **C75.** The limit on the number of vertices does not change the total (signed) area. -/
theorem C75_cut {t : Num K} (ht : Num.Laws t) (hp : Num.Polar t) {pts : List (Pt K)} {widths : List K} {n : Nat} {dists : List K}
    {corners : PolyCorner} {ends : PolyEnd} {mp mp' : Nat} {layer datatype : List Int} {P P' : PolySet K}
    (h : polyPathNew t pts widths n dists corners ends mp layer datatype = .ok P)
    (h' : polyPathNew t pts widths n dists corners ends mp' layer datatype = .ok P') :
    (P.polygons.map shoelace).sum = (P'.polygons.map shoelace).sum := by
  by_cases hn : pts.length = 2 ∧ n = 1
  · obtain ⟨h2, rfl⟩ := hn
    match pts, h2 with
    | [p, q], _ =>
      have : P = P' := Except.ok.inj (h.symm.trans h')
      rw [this]
  · obtain ⟨b, p1, c1, U, gs, e1, e2, e3, e4, e5⟩ := C75_outline ht hp hn h
    obtain ⟨b', p2, c2, U', gs', d1, d2, d3, d4, d5⟩ := C75_outline ht hp hn h'
    have hb : b = b' := by
      rcases e1 with ⟨rfl, h⟩ | ⟨rfl, h⟩ <;> rcases d1 with ⟨rfl, h'⟩ | ⟨rfl, h'⟩
      · rfl
      · exfalso; rcases h with rfl | rfl <;> simp at h'
      · exfalso; rcases h with rfl | rfl <;> simp at h'
      · rfl
    obtain ⟨rfl, rfl⟩ := e2.unique ht d2
    subst hb
    rw [e3.polygons, d3.polygons]
    simp only [List.map_append, List.sum_append]
    rw [sum_perm_flat e4, sum_perm_flat d4]
    congr 2
    refine List.map_congr_left fun ii hii => ?_
    exact (e5 ii (List.mem_range.1 hii)).1.sameArea (d5 ii (List.mem_range.1 hii)).1

end Cut

/-! ### Constant width -/

variable [FloorRing K]

/-- The line goes straight on at `c`; or it turns (the area between the two sections is at least 2 / 10^30), and the mitre does not take more than half of the next section. -/
def Spec.MiterCorner (t : Num K) (w : K) (p c q : Pt K) : Prop :=
  (cornerTurn p c q = 0 ∧ 0 < aheadAt p c q) ∨
    (2 / 10 ^ 30 < |cornerTurn p c q| ∧ 2 * |inset t w p c q| ≤ t.sqrt (dist2 c q))

/-- Every corner of a line is such a corner. -/
def Spec.MiterCorners (t : Num K) (w : K) : List (Pt K) → Prop
  | p :: c :: q :: r => MiterCorner t w p c q ∧ MiterCorners t w (c :: q :: r)
  | _ => True

theorem miter_open {t : Num K} (ht : Num.Polar t) {w : K} {p c q : Pt K} (h1 : 0 < dist2 p c) (h2 : 0 < dist2 c q)
    (h : MiterCorner t w p c q) : t.sqrt (dist2 p c) * t.sqrt (dist2 c q) + aheadAt p c q ≠ 0 := by
  have hs1 := sqrt_pos_of ht h1
  have hs2 := sqrt_pos_of ht h2
  rcases h with ⟨_, h⟩ | ⟨h, _⟩
  · positivity
  · intro h0
    have hq1 := ht.sqrtSq _ h1.le
    have hq2 := ht.sqrtSq _ h2.le
    have e : (t.sqrt (dist2 p c) * t.sqrt (dist2 c q)) ^ 2 = aheadAt p c q ^ 2 + cornerTurn p c q ^ 2 := by
      rw [mul_pow, hq1, hq2]
      simp only [dist2, aheadAt, cornerTurn]
      ring
    have e' : cornerTurn p c q ^ 2 = 0 := by
      linear_combination (t.sqrt (dist2 p c) * t.sqrt (dist2 c q) - aheadAt p c q) * h0 - e
    rw [pow_eq_zero_iff (by norm_num)] at e'
    rw [e', abs_zero] at h
    exact absurd h (not_lt.2 (by positivity))

theorem miter_opens {t : Num K} (ht : Num.Polar t) {w : K} : ∀ (r : List (Pt K)) (p q : Pt K), Apart (p :: q :: r) →
    MiterCorners t w (p :: q :: r) → OpenCorners t (p :: q :: r)
  | [], _, _, _, _ => trivial
  | b :: r, _, c, hd, hc => ⟨miter_open ht hd.1 hd.2.1 hc.1, miter_opens ht r c b hd.2 hc.2⟩

theorem beside_lane (t : Num K) (d : K) (p q : Pt K) : beside t p q d d = (laneAt t d p q 0, laneAt t d p q 1) := by
  unfold beside laneAt
  refine Prod.ext (Prod.ext ?_ ?_) (Prod.ext ?_ ?_) <;> simp only <;> ring

theorem lane_turn (t : Num K) (d u : K) (p c q : Pt K) :
    Side.turn (laneAt t d p c u, (beside t p c d d).2) (beside t c q d d) = (1 - u) * cornerTurn p c q := by
  rw [beside_lane, beside_lane]
  simp only [Side.turn, Side.vec, laneAt, cornerTurn]
  ring

/-- A side of a line that goes straight on. -/
theorem lane_on {t : Num K} (ht : Num.Polar t) {p c q : Pt K} (h1 : 0 < dist2 p c) (h2 : 0 < dist2 c q) (h : cornerTurn p c q = 0)
    (h' : 0 < aheadAt p c q) (d u : K) :
    laneAt t d p c u = laneAt t d c q (-((1 - u) * t.sqrt (dist2 p c) / t.sqrt (dist2 c q))) ∧
      (c.1 - p.1) * t.sqrt (dist2 c q) = (q.1 - c.1) * t.sqrt (dist2 p c) ∧
      (c.2 - p.2) * t.sqrt (dist2 c q) = (q.2 - c.2) * t.sqrt (dist2 p c) := by
  have hs1 := sqrt_pos_of ht h1
  have hs2 := sqrt_pos_of ht h2
  have hq1 := ht.sqrtSq _ h1.le
  have hq2 := ht.sqrtSq _ h2.le
  have e1 : (c.1 - p.1) ^ 2 + (c.2 - p.2) ^ 2 = dist2 p c := by simp only [dist2]; ring
  have e2 : (q.1 - c.1) ^ 2 + (q.2 - c.2) ^ 2 = dist2 c q := by simp only [dist2]; ring
  have ha : aheadAt p c q = t.sqrt (dist2 p c) * t.sqrt (dist2 c q) := by
    have e : (t.sqrt (dist2 p c) * t.sqrt (dist2 c q)) ^ 2 = aheadAt p c q ^ 2 := by
      rw [mul_pow, hq1, hq2]
      have : cornerTurn p c q ^ 2 = 0 := by rw [h]; ring
      simp only [dist2, aheadAt, cornerTurn] at this ⊢
      linear_combination this
    exact ((sq_eq_sq₀ (by positivity) h'.le).1 e).symm
  have k1 : (c.1 - p.1) * t.sqrt (dist2 c q) = (q.1 - c.1) * t.sqrt (dist2 p c) := by
    apply mul_left_cancel₀ hs2.ne'
    have : (c.1 - p.1) * dist2 c q = (q.1 - c.1) * aheadAt p c q := by
      rw [← e2]
      simp only [aheadAt, cornerTurn] at h ⊢
      linear_combination (q.2 - c.2) * h
    rw [ha] at this
    linear_combination this + (c.1 - p.1) * hq2
  have k2 : (c.2 - p.2) * t.sqrt (dist2 c q) = (q.2 - c.2) * t.sqrt (dist2 p c) := by
    apply mul_left_cancel₀ hs2.ne'
    have : (c.2 - p.2) * dist2 c q = (q.2 - c.2) * aheadAt p c q := by
      rw [← e2]
      simp only [aheadAt, cornerTurn] at h ⊢
      linear_combination -(q.1 - c.1) * h
    rw [ha] at this
    linear_combination this + (c.2 - p.2) * hq2
  refine ⟨?_, k1, k2⟩
  unfold laneAt toLeft
  simp only [e1, e2]
  have n1 := hs1.ne'
  have n2 := hs2.ne'
  refine Prod.ext ?_ ?_ <;> simp only
  · field_simp
    linear_combination ((u - 1) * t.sqrt (dist2 p c)) * k1 - d * k2
  · field_simp
    linear_combination ((u - 1) * t.sqrt (dist2 p c)) * k2 + d * k1

theorem sq_eq_one_iff_sign {σ : K} (h : σ ^ 2 = 1) : σ = 1 ∨ σ = -1 := by
  have : (σ - 1) * (σ + 1) = 0 := by linear_combination h
  rcases mul_eq_zero.1 this with h | h
  · exact Or.inl (by linear_combination h)
  · exact Or.inr (by linear_combination h)

theorem laneSum_shift (t : Num K) (w σ τ : K) (p q : Pt K) (r : List (Pt K)) :
    laneSum t w σ τ (p :: q :: r) =
      laneSum t w σ 0 (p :: q :: r) - σ * τ / t.sqrt (dist2 p q) * cross (laneAt t (σ * (w / 2)) p q 0) (q.1 - p.1, q.2 - p.2) := by
  cases r with
  | nil => simp only [laneSum]; ring
  | cons b r => simp only [laneSum]; ring

/-- One side of a path of constant width. -/
theorem flank_chain {t : Num K} (ht : Num.Polar t) {w σ : K} (hσ : σ ^ 2 = 1) : ∀ (r : List (Pt K)) (p q : Pt K) (τ : K) (i : Nat)
    {y : List (Pt K)}, Apart (p :: q :: r) → MiterCorners t w (p :: q :: r) → σ * τ / t.sqrt (dist2 p q) ≤ 1 / 2 →
    Flank false (laneAt t (σ * (w / 2)) p q (σ * τ / t.sqrt (dist2 p q))) (flankSides t (fun _ => σ * (w / 2)) i (p :: q :: r)) y →
    y.getLast? = some (laneEnd t (σ * (w / 2)) (p :: q :: r)) ∧
      chain (laneAt t (σ * (w / 2)) p q (σ * τ / t.sqrt (dist2 p q)) :: y) = laneSum t w σ τ (p :: q :: r)
  | [], p, q, τ, i, y, hd, _, hτ, h => by
    have e : flankSides t (fun _ => σ * (w / 2)) i [p, q] = [beside t p q (σ * (w / 2)) (σ * (w / 2))] := rfl
    rw [e] at h
    cases h with
    | last =>
      rw [beside_lane]
      refine ⟨rfl, ?_⟩
      simp only [chain, lane_cross, laneSum]
      ring
  | q :: r, p, c, τ, i, y, hd, hc, hτ, h => by
    have e : flankSides t (fun _ => σ * (w / 2)) i (p :: c :: q :: r) = beside t p c (σ * (w / 2)) (σ * (w / 2)) ::
      beside t c q (σ * (w / 2)) (σ * (w / 2)) :: flankSides t (fun _ => σ * (w / 2)) (i + 1 + 1) (q :: r) := rfl
    have e' : flankSides t (fun _ => σ * (w / 2)) (i + 1) (c :: q :: r) =
      beside t c q (σ * (w / 2)) (σ * (w / 2)) :: flankSides t (fun _ => σ * (w / 2)) (i + 1 + 1) (q :: r) := rfl
    have hL := sqrt_pos_of ht hd.1
    have hM := sqrt_pos_of ht hd.2.1
    have ih := fun (τ : K) (i : Nat) (y : List (Pt K)) => flank_chain ht hσ (w := w) r c q τ i (y := y)
    rw [e] at h
    cases h with
    | straight h1 h =>
      rw [lane_turn] at h1
      rcases hc.1 with ⟨h2, h3⟩ | ⟨h2, _⟩
      · obtain ⟨k0, k1, k2⟩ := lane_on ht hd.1 hd.2.1 h2 h3 (σ * (w / 2)) (σ * τ / t.sqrt (dist2 p c))
        have hu : -((1 - σ * τ / t.sqrt (dist2 p c)) * t.sqrt (dist2 p c) / t.sqrt (dist2 c q)) =
            σ * (-(σ * (1 - σ * τ / t.sqrt (dist2 p c)) * t.sqrt (dist2 p c))) / t.sqrt (dist2 c q) := by
          have : σ * (-(σ * (1 - σ * τ / t.sqrt (dist2 p c)) * t.sqrt (dist2 p c))) =
            -(σ ^ 2 * ((1 - σ * τ / t.sqrt (dist2 p c)) * t.sqrt (dist2 p c))) := by ring
          rw [this, hσ, one_mul, neg_div]
        rw [k0, hu] at h
        rw [k0, hu]
        obtain ⟨g1, g2⟩ := ih _ (i + 1) _ hd.2 hc.2 (by
          rw [← hu]
          have : 0 ≤ (1 - σ * τ / t.sqrt (dist2 p c)) * t.sqrt (dist2 p c) / t.sqrt (dist2 c q) := by
            apply div_nonneg _ hM.le
            exact mul_nonneg (by linarith) hL.le
          linarith) (e' ▸ h)
        refine ⟨g1, ?_⟩
        have hin : inset t w p c q = 0 := by
          unfold inset
          rw [h2, mul_zero, zero_div]
        have h00 := (lane_on ht hd.1 hd.2.1 h2 h3 (σ * (w / 2)) 1).1
        rw [sub_self, zero_mul, zero_div, neg_zero] at h00
        rw [g2, laneSum_shift, laneSum, hin, ← hu]
        have e3 : cross (laneAt t (σ * (w / 2)) p c 0) (c.1 - p.1, c.2 - p.2) =
            t.sqrt (dist2 p c) / t.sqrt (dist2 c q) * cross (laneAt t (σ * (w / 2)) c q 0) (q.1 - c.1, q.2 - c.2) := by
          have e4 : cross (laneAt t (σ * (w / 2)) c q 0) (c.1 - p.1, c.2 - p.2) =
              cross (laneAt t (σ * (w / 2)) p c 0) (c.1 - p.1, c.2 - p.2) := by
            rw [← h00]
            unfold laneAt cross
            simp only
            ring
          rw [← e4]
          generalize laneAt t (σ * (w / 2)) c q 0 = z
          have n2 := hM.ne'
          unfold cross
          simp only
          field_simp
          linear_combination z.1 * k2 - z.2 * k1
        rw [e3]
        ring
      · exfalso
        rw [abs_mul] at h1
        have : 1 / 2 ≤ |1 - σ * τ / t.sqrt (dist2 p c)| := le_trans (by linarith) (le_abs_self _)
        have h4 : 1 / 2 * (2 / 10 ^ 30) < |1 - σ * τ / t.sqrt (dist2 p c)| * |cornerTurn p c q| :=
          mul_lt_mul' this h2 (by positivity) (by linarith)
        have : (1 : K) / 2 * (2 / 10 ^ 30) = 1 / 10 ^ 30 := by ring
        linarith
    | @miter _ _ _ _ pts z h1 h2 h3 _ h =>
      rw [lane_turn] at h1
      rcases hc.1 with ⟨h5, _⟩ | ⟨h5, h6⟩
      · rw [h5, mul_zero, abs_zero] at h1
        exact absurd h1 (not_lt.2 (by positivity))
      · have hmeet := lane_meet ht (w := w) hd.1 hd.2.1 (miter_open ht hd.1 hd.2.1 hc.1) σ
        have hz : z = laneAt t (σ * (w / 2)) c q (σ * inset t w p c q / t.sqrt (dist2 c q)) := by
          refine meet_unique (b0 := (beside t c q (σ * (w / 2)) (σ * (w / 2))).1) (b1 := (beside t c q (σ * (w / 2)) (σ * (w / 2))).2)
            ?_ h2 h3 ?_ ?_
          · rw [lane_turn]
            exact turn_nonzero h1
          · rw [← hmeet, beside_lane]
            have hne : 1 - σ * τ / t.sqrt (dist2 p c) ≠ 0 := by
              have : 0 < 1 - σ * τ / t.sqrt (dist2 p c) := by linarith
              exact this.ne'
            refine ⟨(1 + -(σ * inset t w p c q / t.sqrt (dist2 p c)) - σ * τ / t.sqrt (dist2 p c)) / (1 - σ * τ / t.sqrt (dist2 p c)), ?_⟩
            generalize σ * τ / t.sqrt (dist2 p c) = u at *
            generalize σ * inset t w p c q / t.sqrt (dist2 p c) = v at *
            unfold laneAt
            refine Prod.ext ?_ ?_ <;> simp only <;> field_simp <;> ring1
          · rw [beside_lane]
            refine ⟨σ * inset t w p c q / t.sqrt (dist2 c q), ?_⟩
            unfold laneAt
            refine Prod.ext ?_ ?_ <;> simp only <;> ring1
        subst hz
        obtain ⟨g1, g2⟩ := ih (inset t w p c q) (i + 1) _ hd.2 hc.2 (by
          rw [div_le_iff₀ hM]
          have h7 : |σ| = 1 := by
            rcases sq_eq_one_iff_sign hσ with rfl | rfl <;> simp
          have : σ * inset t w p c q ≤ |inset t w p c q| := by
            refine le_trans (le_abs_self _) ?_
            rw [abs_mul, h7, one_mul]
          linarith) (e' ▸ h)
        constructor
        · rw [List.getLast?_cons, g1]
          rfl
        · rw [chain, g2, ← hmeet, lane_cross, laneSum]
          ring
    | bevel _ _ _ h0 => cases h0

/-- The area of the path of constant width along a line. -/
theorem ribbon_area {t : Num K} (ht : Num.Polar t) {w : K} {p q : Pt K} {r : List (Pt K)} {gs : List (Pgon K)} {f0 f1 : Nat → K}
    (h0 : ∀ j, f0 j = -1 * (w / 2)) (h1 : ∀ j, f1 j = 1 * (w / 2)) (hd : Apart (p :: q :: r)) (hc : MiterCorners t w (p :: q :: r))
    (h : Ribbon t false f0 f1 (p :: q :: r) gs) : (gs.map shoelace).sum = 2 * (w * lineLength t (p :: q :: r)) := by
  obtain rfl : f0 = fun _ => -1 * (w / 2) := funext h0
  obtain rfl : f1 = fun _ => 1 * (w / 2) := funext h1
  obtain ⟨a, b, y, z, e1, e2, e3, e4, e5⟩ := h
  cases e1
  cases e2
  rw [pieces_area e5 (by simp) (by simp)]
  rw [beside_lane] at e3 e4 ⊢
  rw [beside_lane]
  simp only at e3 e4 ⊢
  have hz (σ : K) : σ * 0 / t.sqrt (dist2 p q) = 0 := by rw [mul_zero, zero_div]
  obtain ⟨g1, g2⟩ := flank_chain ht (w := w) (σ := -1) (by norm_num) r p q 0 0 (y := y) hd hc (by rw [hz]; norm_num) (by rw [hz]; exact e3)
  obtain ⟨g1', g2'⟩ := flank_chain ht (w := w) (σ := 1) (by norm_num) r p q 0 0 (y := z) hd hc (by rw [hz]; norm_num) (by rw [hz]; exact e4)
  rw [hz] at g2 g2'
  have area := lane_area ht (w := w) r p q 0 hd (miter_opens ht r p q hd hc)
  rw [mul_zero, zero_mul, zero_div, add_zero] at area
  unfold bandSum
  rw [g2, g2']
  have l0 (x : Pt K) : (x :: y).getLastD (0, 0) = laneEnd t (-1 * (w / 2)) (p :: q :: r) := by
    rw [List.getLastD_eq_getLast?, List.getLast?_cons, g1]
    rfl
  have l1 (x : Pt K) : (x :: z).getLastD (0, 0) = laneEnd t (1 * (w / 2)) (p :: q :: r) := by
    rw [List.getLastD_eq_getLast?, List.getLast?_cons, g1']
    rfl
  rw [l0, l1]
  simp only [List.headD_cons]
  linear_combination area

/-- **C75.** A single path of constant width with mitred corners and flush ends has the area width times length, in however many
pieces it is cut. -/
theorem C75_area {t : Num K} (ht : Num.Laws t) (hp : Num.Polar t) {p q b : Pt K} {r : List (Pt K)} {widths : List K} {w : K} {dists : List K}
    {corners : PolyCorner} {ends : PolyEnd} {mp : Nat} {layer datatype : List Int} {P : PolySet K}
    (hw : ∀ j, cyc widths j = w) (hc : corners = .miter ∨ corners = .code 0) (he : ends = .flush ∨ ends = .code 0)
    (hd : Apart (p :: q :: b :: r)) (hm : MiterCorners t w (p :: q :: b :: r))
    (h : polyPathNew t (p :: q :: b :: r) widths 1 dists corners ends mp layer datatype = .ok P) :
    (P.polygons.map shoelace).sum = 2 * (w * lineLength t (p :: q :: b :: r)) := by
  obtain ⟨bv, p1, c1, U, gs, e1, e2, e3, e4, e5⟩ := C75_outline ht hp (by simp) h
  have hbv : bv = false := by
    rcases e1 with ⟨h, _⟩ | ⟨_, h⟩
    · exact h
    · exfalso; rcases hc with rfl | rfl <;> simp at h
  subst hbv
  rcases e2 with ⟨_, rfl, rfl⟩ | ⟨h, -⟩ | ⟨h, -⟩
  · rw [e3.polygons, List.nil_append, sum_perm_flat e4]
    have := ribbon_area hp (w := w) (fun j => by unfold flankOff lane; rw [hw]; simp) (fun j => by unfold flankOff lane; rw [hw]; simp) hd hm
      (e5 0 (by omega)).1
    simpa using this
  · exfalso; rcases he with rfl | rfl <;> simp at h
  · exfalso; rcases he with rfl | rfl <;> simp at h

end Gdspy
