import Verif.Props.C75
import Verif.Spec.Ribbon
import Mathlib.Tactic.FieldSimp
import Mathlib.Tactic.LinearCombination

/-!
# C75: the sides of a PolyPath
-/

set_option linter.unusedSectionVars false

namespace Gdspy

open Spec

variable {K : Type} [Field K] [LinearOrder K] [IsStrictOrderedRing K]

/-- One side at a corner. -/
def sideStep (bevel : Bool) (n ii : Nat) (σ : K) (l : List (Pt K)) (k : PolyKink K) : List (Pt K) :=
  l ++ polyTurn bevel (l.getLastD (0, 0)) (polySide n ii k.d k.w σ k.c k.v) (polySide n ii k.d k.w σ k.c k.v')
    (polySide n ii k.d1 k.w1 σ k.q k.v')

theorem polyStep_sides (bevel : Bool) (n ii : Nat) (k : PolyKink K) (s : TwoSides K) :
    polyStep bevel n ii k s = (sideStep bevel n ii (-1) s.1 k, sideStep bevel n ii 1 s.2 k) := rfl

/-- A side along all corners, without cuts. -/
def sideRun (bevel : Bool) (n ii : Nat) (σ : K) (ks : List (PolyKink K)) (l : List (Pt K)) : List (Pt K) :=
  ks.foldl (sideStep bevel n ii σ) l

theorem sideStep_last (bevel : Bool) (n ii : Nat) (σ : K) (k : PolyKink K) (l : List (Pt K)) (x : Pt K) :
    sideStep bevel n ii σ (l ++ [x]) k = l ++ sideStep bevel n ii σ [x] k := by
  unfold sideStep
  simp

theorem sideStep_ends (bevel : Bool) (n ii : Nat) (σ : K) (k : PolyKink K) (x : Pt K) :
    ∃ l y, sideStep bevel n ii σ [x] k = l ++ [y] := by
  rcases List.eq_nil_or_concat (sideStep bevel n ii σ [x] k) with h | ⟨l, y, h⟩
  · unfold sideStep at h
    simp at h
  · exact ⟨l, y, by rw [h, List.concat_eq_append]⟩

theorem sideRun_last (bevel : Bool) (n ii : Nat) (σ : K) : ∀ (ks : List (PolyKink K)) (l : List (Pt K)) (x : Pt K),
    sideRun bevel n ii σ ks (l ++ [x]) = l ++ sideRun bevel n ii σ ks [x]
  | [], l, x => rfl
  | k :: ks, l, x => by
    obtain ⟨m, y, h⟩ := sideStep_ends bevel n ii σ k x
    unfold sideRun
    rw [List.foldl_cons, List.foldl_cons, sideStep_last, h, ← List.append_assoc]
    have h1 := sideRun_last bevel n ii σ ks (l ++ m) y
    have h2 := sideRun_last bevel n ii σ ks m y
    unfold sideRun at h1 h2
    rw [h1, h2, List.append_assoc]

theorem sideRun_head (bevel : Bool) (n ii : Nat) (σ : K) : ∀ (ks : List (PolyKink K)) (l : List (Pt K)) (x : Pt K),
    ∃ y, sideRun bevel n ii σ ks (x :: l) = x :: y
  | [], l, x => ⟨l, rfl⟩
  | k :: ks, l, x => by
    unfold sideRun
    rw [List.foldl_cons]
    exact sideRun_head bevel n ii σ ks (l ++ _) x

/-- The polygon that is cut off, and what is left. -/
theorem polyCut_outline {s : TwoSides K} {g : Pgon K} {s' : TwoSides K} (h : polyCut s = .ok (g, s')) :
    ∃ a a' p p', s.1 = a ++ [p] ∧ s.2 = a' ++ [p'] ∧ g = outlineBetween (a ++ [p]) (a' ++ [p']) ∧ s' = ([p], [p']) := by
  unfold polyCut at h
  obtain ⟨x, hx, h⟩ := bind_ok_inv h
  obtain ⟨y, hy, h⟩ := bind_ok_inv h
  have hx' := idx_some hx
  have hy' := idx_some hy
  rw [← List.head?_eq_getElem?, List.head?_reverse] at hx' hy'
  have h1 : (dropFirst s).1 = s.1 := by
    unfold dropFirst
    split <;> rfl
  have h2 : (dropFirst s).2 = if s.1.head? = s.2.head? then s.2.drop 1 else s.2 := by
    unfold dropFirst
    split <;> rfl
  rw [h1] at hx'
  have hy2 : s.2.getLast? = some y := by
    rw [h2] at hy'
    split at hy'
    · rw [List.getLast?_drop] at hy'
      split at hy'
      · cases hy'
      · exact hy'
    · exact hy'
  obtain ⟨a, ha⟩ : ∃ a, s.1 = a ++ [x] := List.getLast?_eq_some_iff.1 hx'
  obtain ⟨a', ha'⟩ : ∃ a', s.2 = a' ++ [y] := List.getLast?_eq_some_iff.1 hy2
  cases h
  refine ⟨a, a', x, y, ha, ha', ?_, rfl⟩
  unfold outlineBetween
  simp only
  rw [← ha, ← ha', h1, hx', ← h2, hy']
  by_cases hxy : x = y
  · rw [if_pos hxy, if_pos (by rw [hxy])]
  · rw [if_neg hxy, if_neg (by simpa using hxy)]

theorem polyFinish_outline {s : TwoSides K} (h1 : s.1 ≠ []) (h2 : s.2 ≠ []) (e : Pt K × Pt K) :
    polyFinish s e = outlineBetween (s.1 ++ [e.1]) (s.2 ++ [e.2]) := by
  obtain ⟨u, v⟩ := s
  obtain ⟨e0, e1⟩ := e
  obtain ⟨x, a, rfl⟩ := List.exists_cons_of_ne_nil h1
  obtain ⟨y, b, rfl⟩ := List.exists_cons_of_ne_nil h2
  have hd : ∀ l : List (Pt K), (y :: b ++ l).drop 1 = (y :: b).drop 1 ++ l := fun l => rfl
  have hh : ∀ (z : Pt K) (c l : List (Pt K)), (z :: c ++ l).head? = (z :: c).head? := fun z c l => rfl
  unfold polyFinish dropFirst outlineBetween
  simp only
  rw [hh, hh, hd]
  have hc : (if (x :: a).head? = (y :: b).head? then (y :: b).drop 1 ++ [e1] else y :: b ++ [e1])
      = (if (x :: a).head? = (y :: b).head? then (y :: b).drop 1 else y :: b) ++ [e1] := by
    split <;> rfl
  have hp : (if (x :: a).head? = (y :: b).head? then (x :: a, (y :: b).drop 1) else (x :: a, y :: b))
      = (x :: a, if (x :: a).head? = (y :: b).head? then (y :: b).drop 1 else y :: b) := by
    split <;> rfl
  rw [hc, hp]
  simp only [List.getLast?_concat, Option.some.injEq, List.dropLast_concat]
  by_cases he : e0 = e1
  · rw [if_pos he, if_pos he, he]
    simp
  · rw [if_neg he, if_neg he]

/-- One path: its polygons are the pieces between its two sides. -/
theorem pathRun_pieces {bevel : Bool} {n mp ii : Nat} (e : Pt K × Pt K) : ∀ (ks : List (PolyKink K)) {a b : TwoSides K} {gs : List (Pgon K)},
    a.1 ≠ [] → a.2 ≠ [] → pathRun bevel n mp ii ks a = .ok (gs, b) →
    Pieces (sideRun bevel n ii (-1) ks a.1 ++ [e.1]) (sideRun bevel n ii 1 ks a.2 ++ [e.2]) (gs ++ [polyFinish b e])
  | [], a, b, gs, h1, h2, h => by
    cases h
    rw [List.nil_append, polyFinish_outline h1 h2]
    exact Pieces.whole
  | k :: ks, a, b, gs, h1, h2, h => by
    unfold pathRun at h
    obtain ⟨r, hr, h⟩ := bind_ok_inv h
    obtain ⟨r', hr', h⟩ := bind_ok_inv h
    cases h
    have hs1 : (polyStep bevel n ii k a).1 ≠ [] := by
      rw [polyStep_sides]
      unfold sideStep
      simp [h1]
    have hs2 : (polyStep bevel n ii k a).2 ≠ [] := by
      rw [polyStep_sides]
      unfold sideStep
      simp [h2]
    unfold polyMayCut at hr
    split at hr
    · obtain ⟨c, hc, hr⟩ := bind_ok_inv hr
      cases hr
      obtain ⟨x, x', p, p', e1, e2, e3, e4⟩ := polyCut_outline (g := c.1) (s' := c.2) hc
      have ih := pathRun_pieces e ks (a := c.2) (by rw [e4]; simp) (by rw [e4]; simp) hr'
      rw [e4] at ih
      have f1 : sideRun bevel n ii (-1) (k :: ks) a.1 = x ++ sideRun bevel n ii (-1) ks [p] := by
        rw [← sideRun_last, ← e1, polyStep_sides]
        rfl
      have f2 : sideRun bevel n ii 1 (k :: ks) a.2 = x' ++ sideRun bevel n ii 1 ks [p'] := by
        rw [← sideRun_last, ← e2, polyStep_sides]
        rfl
      obtain ⟨y, hy⟩ : ∃ y, sideRun bevel n ii (-1) ks [p] = p :: y := sideRun_head _ _ _ _ _ _ _
      obtain ⟨y', hy'⟩ : ∃ y', sideRun bevel n ii 1 ks [p'] = p' :: y' := sideRun_head _ _ _ _ _ _ _
      rw [f1, f2, hy, hy', e3]
      rw [hy, hy'] at ih
      simp only [List.append_assoc, List.cons_append, Option.toList_some, List.nil_append]
      exact Pieces.cut ih
    · cases hr
      have ih := pathRun_pieces e ks hs1 hs2 hr'
      show Pieces _ _ (Option.toList none ++ r'.1 ++ _)
      exact ih

/-- What is added to a side at a corner. -/
theorem polyTurn_spec (bevel : Bool) (x : Pt K) (a b : Side K) :
    (|Side.turn (x, a.2) b| ≤ 1 / 10 ^ 30 ∧ polyTurn bevel x a.2 b.1 b.2 = []) ∨
      (1 / 10 ^ 30 < |Side.turn (x, a.2) b| ∧ ∃ p, OnLine x a.2 p ∧ OnLine b.1 b.2 p ∧
        ((bevel = true ∧ OuterCorner x a b p ∧ polyTurn bevel x a.2 b.1 b.2 = [a.2, b.1]) ∨
          (¬ (bevel = true ∧ OuterCorner x a b p) ∧ polyTurn bevel x a.2 b.1 b.2 = [p]))) := by
  have hvec : (psub x a.2).1 * (psub b.1 b.2).2 - (psub b.1 b.2).1 * (psub x a.2).2 = Side.turn (x, a.2) b := by
    simp only [psub, Side.turn, Side.vec]
    ring
  by_cases ht : 1 / 10 ^ 30 < |Side.turn (x, a.2) b|
  · refine Or.inr ⟨ht, ?_⟩
    have h0 : Side.turn (x, a.2) b ≠ 0 := by
      intro h
      rw [h, abs_zero] at ht
      exact absurd ht (not_lt.2 (by positivity))
    obtain ⟨D, hD⟩ : ∃ D, D = Side.turn (x, a.2) b := ⟨_, rfl⟩
    rw [← hD] at h0
    obtain ⟨p, hp⟩ : ∃ p : Pt K, p =
      (((psub x a.2).1 * (psub b.1 b.2).2 * b.2.1 - (psub b.1 b.2).1 * (psub x a.2).2 * a.2.1 +
          (psub x a.2).1 * (psub b.1 b.2).1 * (a.2.2 - b.2.2)) / D,
       -((psub x a.2).2 * (psub b.1 b.2).1 * b.2.2 - (psub b.1 b.2).2 * (psub x a.2).1 * a.2.2 +
          (psub x a.2).2 * (psub b.1 b.2).2 * (a.2.1 - b.2.1)) / D) := ⟨_, rfl⟩
    have hD' := hD
    simp only [Side.turn, Side.vec] at hD'
    refine ⟨p, ?_, ?_, ?_⟩
    · refine ⟨1 - ((b.2.1 - a.2.1) * (b.1.2 - b.2.2) - (b.2.2 - a.2.2) * (b.1.1 - b.2.1)) / D, ?_⟩
      rw [hp]
      simp only [psub]
      ext
      · simp only
        rw [div_eq_iff h0]
        field_simp
        rw [hD']
        ring
      · simp only
        rw [div_eq_iff h0]
        field_simp
        rw [hD']
        ring
    · refine ⟨1 - ((a.2.1 - b.2.1) * (x.2 - a.2.2) - (a.2.2 - b.2.2) * (x.1 - a.2.1)) / -D, ?_⟩
      rw [hp]
      simp only [psub]
      ext
      · simp only
        rw [div_eq_iff h0]
        field_simp
        rw [hD']
        ring
      · simp only
        rw [div_eq_iff h0]
        field_simp
        rw [hD']
        ring
    · have ho : OuterCorner x a b p ↔ ((p.1 - b.1.1) * (psub b.1 b.2).1 + (p.2 - b.1.2) * (psub b.1 b.2).2 > 0 ∧
          (p.1 - a.2.1) * (psub x a.2).1 + (p.2 - a.2.2) * (psub x a.2).2 < 0) := by
        unfold OuterCorner
        simp only [psub, Side.vec]
        constructor
        · rintro ⟨h1, h2⟩
          constructor
          · linear_combination h2
          · linear_combination h1
        · rintro ⟨h1, h2⟩
          constructor
          · linear_combination h2
          · linear_combination h1
      have e : polyTurn bevel x a.2 b.1 b.2 = if bevel = true ∧ (p.1 - b.1.1) * (psub b.1 b.2).1 + (p.2 - b.1.2) * (psub b.1 b.2).2 > 0 ∧
          (p.1 - a.2.1) * (psub x a.2).1 + (p.2 - a.2.2) * (psub x a.2).2 < 0 then [a.2, b.1] else [p] := by
        unfold polyTurn
        simp only [hvec]
        rw [if_pos ht, ← hD, hp]
      rw [e, ho]
      by_cases hb : bevel = true ∧ (p.1 - b.1.1) * (psub b.1 b.2).1 + (p.2 - b.1.2) * (psub b.1 b.2).2 > 0 ∧
          (p.1 - a.2.1) * (psub x a.2).1 + (p.2 - a.2.2) * (psub x a.2).2 < 0
      · exact Or.inl ⟨hb.1, hb.2, if_pos hb⟩
      · exact Or.inr ⟨hb, if_neg hb⟩
  · refine Or.inl ⟨not_lt.1 ht, ?_⟩
    unfold polyTurn
    simp only [hvec]
    exact if_neg ht

/-- The distances of a side of path `ii` of `n`: `σ` is -1 for the right one and 1 for the left one, `hw` are halves of widths. -/
def offAt (hw dists : List K) (n ii : Nat) (σ : K) (j : Nat) : K :=
  (ii : K) * cycVal dists j - ((n : K) - 1) * cycVal dists j / 2 + σ * cycVal hw j

theorem polyNormal_inv {t : Num K} {p q v : Pt K} (h : polyNormal t p q = .ok v) :
    v = toLeft t (q.1 - p.1, q.2 - p.2) ∧ t.sqrt ((q.1 - p.1) ^ 2 + (q.2 - p.2) ^ 2) ≠ 0 := by
  unfold polyNormal polyUnit at h
  obtain ⟨u, hu, h⟩ := bind_ok_inv h
  change (if t.sqrt ((q.1 - p.1) ^ 2 + (q.2 - p.2) ^ 2) = 0 then Except.error PyErr.unmodelled
    else Except.ok ((q.1 - p.1) / t.sqrt ((q.1 - p.1) ^ 2 + (q.2 - p.2) ^ 2),
      (q.2 - p.2) / t.sqrt ((q.1 - p.1) ^ 2 + (q.2 - p.2) ^ 2))) = Except.ok u at hu
  by_cases h0 : t.sqrt ((q.1 - p.1) ^ 2 + (q.2 - p.2) ^ 2) = 0
  · rw [if_pos h0] at hu
    cases hu
  · rw [if_neg h0] at hu
    cases hu
    cases h
    exact ⟨by simp only [toLeft, neg_div], h0⟩

/-- A side along the line from the point with index `i` on. -/
theorem flank_run {t : Num K} {bevel : Bool} {hw dists : List K} {n ii : Nat} {σ : K} : ∀ (r : List (Pt K)) (p q x : Pt K) (i : Nat)
    {vs : List (Pt K)}, polyNormals t (p :: q :: r) = .ok vs →
    ∃ v e y, vs[0]? = some v ∧ vs.getLast? = some e ∧
      sideRun bevel n ii σ (polyKinks hw dists i (p :: q :: r) vs) [x] ++
        [polySide n ii (cycVal dists (i + r.length + 1)) (cycVal hw (i + r.length + 1)) σ ((q :: r).getLastD (0, 0)) e] = x :: y ∧
      Flank bevel x (flankSides t (offAt hw dists n ii σ) i (p :: q :: r)) y ∧
      polySide n ii (cycVal dists i) (cycVal hw i) σ p v = (beside t p q (offAt hw dists n ii σ i) (offAt hw dists n ii σ (i + 1))).1
  | [], p, q, x, i, vs, h => by
    unfold polyNormals at h
    obtain ⟨v, hv, h⟩ := bind_ok_inv h
    obtain ⟨l, hl, h⟩ := bind_ok_inv h
    cases hl
    cases h
    obtain ⟨rfl, -⟩ := polyNormal_inv hv
    exact ⟨_, _, _, rfl, rfl, rfl, Flank.last, rfl⟩
  | c :: r, p, q, x, i, vs, h => by
    unfold polyNormals at h
    obtain ⟨v, hv, h⟩ := bind_ok_inv h
    obtain ⟨l, hl, h⟩ := bind_ok_inv h
    cases h
    obtain ⟨rfl, -⟩ := polyNormal_inv hv
    obtain ⟨v', l', rfl⟩ : ∃ v' l', l = v' :: l' := by
      unfold polyNormals at hl
      obtain ⟨v', -, hl⟩ := bind_ok_inv hl
      obtain ⟨l', -, hl⟩ := bind_ok_inv hl
      cases hl
      exact ⟨_, _, rfl⟩
    have ih := fun x => flank_run (bevel := bevel) (hw := hw) (dists := dists) (n := n) (ii := ii) (σ := σ) r q c x (i + 1) hl
    obtain ⟨a, ha⟩ : ∃ a, a = beside t p q (offAt hw dists n ii σ i) (offAt hw dists n ii σ (i + 1)) := ⟨_, rfl⟩
    obtain ⟨b, hb⟩ : ∃ b, b = beside t q c (offAt hw dists n ii σ (i + 1)) (offAt hw dists n ii σ (i + 2)) := ⟨_, rfl⟩
    have hv' : v' = toLeft t (c.1 - q.1, c.2 - q.2) := by
      unfold polyNormals at hl
      obtain ⟨w, hw, hl⟩ := bind_ok_inv hl
      obtain ⟨l', -, hl⟩ := bind_ok_inv hl
      cases hl
      exact (polyNormal_inv hw).1
    have hstep : ∀ m, sideStep bevel n ii σ [x] ⟨q, c, toLeft t (q.1 - p.1, q.2 - p.2), v', cycVal hw (i + 1), cycVal hw (i + 2),
        cycVal dists (i + 1), cycVal dists (i + 2)⟩ = x :: m ↔ polyTurn bevel x a.2 b.1 b.2 = m := by
      intro m
      rw [ha, hb, hv']
      unfold sideStep
      rw [List.singleton_append, List.cons.injEq]
      exact ⟨fun h => h.2, fun h => ⟨rfl, h⟩⟩
    have hsides : flankSides t (offAt hw dists n ii σ) i (p :: q :: c :: r)
        = a :: flankSides t (offAt hw dists n ii σ) (i + 1) (q :: c :: r) := by rw [ha]; rfl
    have hsides' : flankSides t (offAt hw dists n ii σ) (i + 1) (q :: c :: r)
        = b :: flankSides t (offAt hw dists n ii σ) (i + 2) (c :: r) := by rw [hb]; rfl
    have hrun : ∀ m, polyTurn bevel x a.2 b.1 b.2 = m →
        sideRun bevel n ii σ (polyKinks hw dists i (p :: q :: c :: r) (toLeft t (q.1 - p.1, q.2 - p.2) :: v' :: l')) [x] =
        sideRun bevel n ii σ (polyKinks hw dists (i + 1) (q :: c :: r) (v' :: l')) (x :: m) := by
      intro m hm
      rw [← (hstep m).2 hm]
      rfl
    have hidx : i + (c :: r).length + 1 = i + 1 + r.length + 1 := by
      rw [List.length_cons]
      omega
    have hlast : ∀ z : Pt K, (q :: c :: r).getLastD z = (c :: r).getLastD z := fun z => by
      simp [List.getLastD]
    rw [hidx, hlast, hsides, hsides']
    rcases polyTurn_spec bevel x a b with ⟨h1, h2⟩ | ⟨h1, z, h2, h3, ⟨h4, h5, h6⟩ | ⟨h4, h5⟩⟩
    · obtain ⟨v, e, y, e1, e2, e3, e4, -⟩ := ih x
      rw [hsides'] at e4
      refine ⟨_, e, y, rfl, ?_, ?_, Flank.straight h1 e4, rfl⟩
      · rw [← e2]
        rfl
      · rw [hrun _ h2]
        exact e3
    · obtain ⟨v, e, y, e1, e2, e3, e4, -⟩ := ih b.1
      rw [hsides'] at e4
      refine ⟨_, e, _, rfl, ?_, ?_, Flank.bevel h1 h2 h3 h4 h5 e4, rfl⟩
      · rw [← e2]
        rfl
      · rw [hrun _ h6]
        have := sideRun_last bevel n ii σ (polyKinks hw dists (i + 1) (q :: c :: r) (v' :: l')) [x, a.2] b.1
        rw [show [x, a.2] ++ [b.1] = [x, a.2, b.1] from rfl] at this
        rw [this, List.append_assoc, e3]
        rfl
    · obtain ⟨v, e, y, e1, e2, e3, e4, -⟩ := ih z
      rw [hsides'] at e4
      refine ⟨_, e, _, rfl, ?_, ?_, Flank.miter h1 h2 h3 h4 e4, rfl⟩
      · rw [← e2]
        rfl
      · rw [hrun _ h5]
        have := sideRun_last bevel n ii σ (polyKinks hw dists (i + 1) (q :: c :: r) (v' :: l')) [x] z
        rw [show [x] ++ [z] = [x, z] from rfl] at this
        rw [this, List.append_assoc, e3]
        rfl

/-- The most vertices that a corner adds to one side. -/
def turnMost (bevel : Bool) : Nat := if bevel then 2 else 1

theorem polyTurn_length (bevel : Bool) (last p0 pp p1 : Pt K) : (polyTurn bevel last p0 pp p1).length ≤ turnMost bevel := by
  unfold polyTurn turnMost
  simp only
  split
  · split
    · rename_i h
      rw [h.1]
      simp
    · cases bevel <;> simp
  · simp

theorem outlineBetween_length (s0 s1 : List (Pt K)) : (outlineBetween s0 s1).length ≤ s0.length + s1.length := by
  unfold outlineBetween
  simp only [List.length_append, List.length_reverse]
  have h1 : (if s0.head? = s1.head? then s1.drop 1 else s1).length ≤ s1.length := by
    split
    · simp
    · exact le_refl _
  have h2 (s : List (Pt K)) : (if s0.getLast? = s.getLast? then s.dropLast else s).length ≤ s.length := by
    split
    · simp
    · exact le_refl _
  exact Nat.add_le_add_left ((h2 _).trans h1) _

/-- The polygons of one path have a limited number of vertices. -/
theorem pathRun_limit {bevel : Bool} {n mp ii : Nat} (hmp : 0 < mp) (e : Pt K × Pt K) : ∀ (ks : List (PolyKink K)) {a b : TwoSides K} {gs : List (Pgon K)},
    a.1 ≠ [] → a.2 ≠ [] → (a.1.length + a.2.length = 2 ∨ a.1.length + a.2.length + 3 ≤ mp) → pathRun bevel n mp ii ks a = .ok (gs, b) →
    ∀ g ∈ gs ++ [polyFinish b e], g.length ≤ max (2 + 2 * turnMost bevel) (mp + 2 * turnMost bevel - 3)
  | [], a, b, gs, h1, h2, hl, h => by
    cases h
    intro g hg
    rw [List.nil_append, List.mem_singleton] at hg
    subst hg
    rw [polyFinish_outline h1 h2]
    refine (outlineBetween_length _ _).trans ?_
    have : 1 ≤ turnMost bevel := by cases bevel <;> simp [turnMost]
    simp only [List.length_append, List.length_singleton]
    omega
  | k :: ks, a, b, gs, h1, h2, hl, h => by
    unfold pathRun at h
    obtain ⟨r, hr, h⟩ := bind_ok_inv h
    obtain ⟨r', hr', h⟩ := bind_ok_inv h
    cases h
    have t1 : (polyStep bevel n ii k a).1.length ≤ a.1.length + turnMost bevel := by
      rw [polyStep_sides]
      unfold sideStep
      simp only [List.length_append]
      exact Nat.add_le_add_left (polyTurn_length _ _ _ _ _) _
    have t2 : (polyStep bevel n ii k a).2.length ≤ a.2.length + turnMost bevel := by
      rw [polyStep_sides]
      unfold sideStep
      simp only [List.length_append]
      exact Nat.add_le_add_left (polyTurn_length _ _ _ _ _) _
    unfold polyMayCut at hr
    split at hr
    · obtain ⟨c, hc, hr⟩ := bind_ok_inv hr
      cases hr
      obtain ⟨x, x', p, p', e1, e2, e3, e4⟩ := polyCut_outline (g := c.1) (s' := c.2) hc
      have ih := pathRun_limit hmp e ks (a := c.2) (by rw [e4]; simp) (by rw [e4]; simp) (by rw [e4]; exact Or.inl rfl) hr'
      intro g hg
      simp only [Option.toList_some, List.cons_append, List.mem_cons] at hg
      rcases hg with rfl | hg
      · rw [e3, ← e1, ← e2]
        refine (outlineBetween_length _ _).trans ?_
        omega
      · exact ih g hg
    · rename_i hcut
      cases hr
      have hs1 : (polyStep bevel n ii k a).1 ≠ [] := by
        rw [polyStep_sides]
        unfold sideStep
        simp [h1]
      have hs2 : (polyStep bevel n ii k a).2 ≠ [] := by
        rw [polyStep_sides]
        unfold sideStep
        simp [h2]
      exact pathRun_limit hmp e ks hs1 hs2 (Or.inr (by omega)) hr'

end Gdspy
