import Verif.Spec.Manhattan
import Verif.Props.C47
import Verif.Lemmas.Chain
import Verif.Model.Deprecated
import Verif.Props.C65Moves

/-!
# C71: the polygons of an L1Path

Every path is a band of the stated width along the walk, cut across where the limit of vertices requires it.
-/

set_option linter.unusedSectionVars false

namespace Gdspy

open Spec

variable {K : Type} [Field K] [LinearOrder K] [IsStrictOrderedRing K]

/-- The heading of a state. -/
def L1State.head (s : L1State K) : Pt K := unitOf (dirOfIndex s.dir : Dir K)

theorem headingAfter_eq (h : Pt K) (t : K) : headingAfter h t = if t > 0 then (-h.2, h.1) else (h.2, -h.1) := rfl

/-- The distance of the last point of a side from the walk. -/
def atSide (pos head : Pt K) (d : K) (l : List (Pt K)) : Prop :=
  ((lastPt l).1 - pos.1) * (leftOf head).1 + ((lastPt l).2 - pos.2) * (leftOf head).2 = d

/-- The next corner of a side. -/
def cornerAt (o f : K) (pos head : Pt K) (len turn : K) : Pt K :=
  off (off pos len head 0 head) (o * f) (leftOf head) (o * |turn|) (leftOf (headingAfter head turn))

theorem l1Move_corner {s : L1State K} (hd : s.dir < 4) {w distance len turn f : K} {n ii : Nat}
    {p : List (Pt K) × List (Pt K)} (h1 : atSide (s.x, s.y) s.head ((laneOff n ii distance - w) * f) p.1)
    (h2 : atSide (s.x, s.y) s.head ((laneOff n ii distance + w) * f) p.2) :
    l1Move s w distance len turn n ii p =
      (p.1 ++ [cornerAt (laneOff n ii distance - w) f (s.x, s.y) s.head len turn],
       p.2 ++ [cornerAt (laneOff n ii distance + w) f (s.x, s.y) s.head len turn]) := by
  have hd1 : ((n : K) - 1) * distance / 2 - (ii : K) * distance = -laneOff n ii distance := by
    simp only [laneOff]
    ring
  unfold l1Move
  simp only [hd1]
  generalize laneOff n ii distance = o at *
  simp only [atSide, L1State.head, cornerAt, off, headingAfter] at *
  generalize hdd : s.dir = d at *
  have ha : |turn| = if turn > 0 then turn else -turn := by
    split
    · rename_i h; exact abs_of_pos h
    · rename_i h; exact abs_of_nonpos (not_lt.1 h)
  rw [ha]
  rcases (by omega : d = 0 ∨ d = 1 ∨ d = 2 ∨ d = 3) with rfl | rfl | rfl | rfl <;>
    simp only [dirOfIndex, unitOf, leftOf] at * <;>
    split <;>
    refine Prod.ext ?_ ?_ <;> simp only [List.append_cancel_left_eq, List.cons.injEq, and_true, Prod.mk.injEq] <;>
    constructor <;> first | ring1 | linear_combination h1 | linear_combination h2 | linear_combination -h1 | linear_combination -h2

theorem cornerAt_side (o f : K) (pos : Pt K) {head : Pt K} (hu : head.1 ^ 2 + head.2 ^ 2 = 1) (len turn : K)
    (l : List (Pt K)) :
    atSide (off pos len head 0 head) (headingAfter head turn) (o * |turn|) (l ++ [cornerAt o f pos head len turn]) := by
  simp only [atSide, lastPt, List.getLastD_concat, cornerAt, off, headingAfter, leftOf]
  split <;> simp only <;> linear_combination (o * |turn|) * hu

theorem head_unit (s : L1State K) (hd : s.dir < 4) : s.head.1 ^ 2 + s.head.2 ^ 2 = 1 := by
  unfold L1State.head
  generalize s.dir = d at *
  rcases (by omega : d = 0 ∨ d = 1 ∨ d = 2 ∨ d = 3) with rfl | rfl | rfl | rfl <;> simp [dirOfIndex, unitOf]

theorem l1Finish_end {s : L1State K} (hd : s.dir < 4) {o1 o2 len f : K}
    {p : List (Pt K) × List (Pt K)} (h1 : atSide (s.x, s.y) s.head (o1 * f) p.1)
    (h2 : atSide (s.x, s.y) s.head (o2 * f) p.2) :
    l1Finish s len p =
      (p.1 ++ [off (s.x, s.y) len s.head (o1 * f) (leftOf s.head)],
       p.2 ++ [off (s.x, s.y) len s.head (o2 * f) (leftOf s.head)]) := by
  unfold l1Finish
  simp only [atSide, L1State.head, off] at *
  generalize hdd : s.dir = d at *
  rcases (by omega : d = 0 ∨ d = 1 ∨ d = 2 ∨ d = 3) with rfl | rfl | rfl | rfl <;>
    simp only [dirOfIndex, unitOf, leftOf] at * <;>
    refine Prod.ext ?_ ?_ <;> simp only [List.append_cancel_left_eq, List.cons.injEq, and_true, Prod.mk.injEq] <;>
    constructor <;> first | ring1 | linear_combination h1 | linear_combination h2 | linear_combination -h1 | linear_combination -h2

theorem closestMid_spec (a1 a2 b1 b2 : K) : ∃ s e, (s = a1 ∨ s = a2) ∧ (e = b1 ∨ e = b2) ∧
    (∀ s' e', (s' = a1 ∨ s' = a2) → (e' = b1 ∨ e' = b2) → |s - e| ≤ |s' - e'|) ∧ closestMid a1 a2 b1 b2 = (s + e) / 2 := by
  simp only [closestMid, List.foldl_cons, List.foldl_nil]
  by_cases h1 : |a1 - b2| < |a1 - b1| <;> simp only [h1, if_true, if_false] <;>
    [by_cases h2 : |a2 - b1| < |a1 - b2|; by_cases h2 : |a2 - b1| < |a1 - b1|] <;>
    simp only [h2, if_true, if_false] <;>
    [by_cases h3 : |a2 - b2| < |a2 - b1|; by_cases h3 : |a2 - b2| < |a1 - b2|;
     by_cases h3 : |a2 - b2| < |a2 - b1|; by_cases h3 : |a2 - b2| < |a1 - b1|] <;>
    simp only [h3, if_true, if_false] <;>
    refine ⟨_, _, ?_, ?_, ?_, rfl⟩ <;>
    first
    | (exact .inl rfl)
    | (exact .inr rfl)
    | (rintro s' e' (rfl | rfl) (rfl | rfl) <;> first | exact le_rfl | (simp only [not_lt] at h1 h2 h3; linarith) | linarith)

/-- The cut across a piece. -/
theorem l1Cut_spec {s : L1State K} (hd : s.dir < 4) {ra la : List (Pt K)} {a b a' b' : Pt K}
    (h1 : (b.1 - a.1) * (leftOf s.head).1 + (b.2 - a.2) * (leftOf s.head).2 = 0)
    (h2 : (b'.1 - a'.1) * (leftOf s.head).1 + (b'.2 - a'.2) * (leftOf s.head).2 = 0) {c c' : Pt K}
    (hc : l1Cut s.dir (ra ++ [a, b], la ++ [a', b']) = (c, c')) :
    ∃ x y z z' u e, b = off a x s.head 0 s.head ∧ b' = off a' y s.head 0 s.head ∧
      c = off a z s.head 0 s.head ∧ c' = off a' z' s.head 0 s.head ∧
      (c'.1 - c.1) * s.head.1 + (c'.2 - c.2) * s.head.2 = 0 ∧ (u = a ∨ u = a') ∧ (e = b ∨ e = b') ∧
      (∀ s' e', (s' = a ∨ s' = a') → (e' = b ∨ e' = b') →
        |(u.1 - e.1) * s.head.1 + (u.2 - e.2) * s.head.2| ≤ |(s'.1 - e'.1) * s.head.1 + (s'.2 - e'.2) * s.head.2|) ∧
      2 * (c.1 * s.head.1 + c.2 * s.head.2) =
        (u.1 * s.head.1 + u.2 * s.head.2) + (e.1 * s.head.1 + e.2 * s.head.2) := by
  have e1 (l : List (Pt K)) (p q : Pt K) : lastPt (l ++ [p, q]) = q := by
    rw [lastPt, show l ++ [p, q] = (l ++ [p]) ++ [q] by simp, List.getLastD_concat]
  have e2 (l : List (Pt K)) (p q : Pt K) : prevPt (l ++ [p, q]) = p := by
    rw [prevPt, show l ++ [p, q] = (l ++ [p]) ++ [q] by simp, List.dropLast_concat, lastPt, List.getLastD_concat]
  simp only [l1Cut, e1, e2] at hc
  have hu := head_unit s hd
  have hline (p q : Pt K) (h : (q.1 - p.1) * (leftOf s.head).1 + (q.2 - p.2) * (leftOf s.head).2 = 0) :
      q = off p ((q.1 - p.1) * s.head.1 + (q.2 - p.2) * s.head.2) s.head 0 s.head := by
    simp only [leftOf] at h
    refine Prod.ext ?_ ?_ <;> simp only [off]
    · linear_combination -(q.1 - p.1) * hu - s.head.2 * h
    · linear_combination -(q.2 - p.2) * hu + s.head.1 * h
  have hmid (k : Pt K → K) (hk : ∀ p q : Pt K, |k p - k q| = |(p.1 - q.1) * s.head.1 + (p.2 - q.2) * s.head.2|) :
      ∃ u e, (u = a ∨ u = a') ∧ (e = b ∨ e = b') ∧
      (∀ s' e', (s' = a ∨ s' = a') → (e' = b ∨ e' = b') →
        |(u.1 - e.1) * s.head.1 + (u.2 - e.2) * s.head.2| ≤ |(s'.1 - e'.1) * s.head.1 + (s'.2 - e'.2) * s.head.2|) ∧
      2 * closestMid (k a) (k a') (k b) (k b') = k u + k e := by
    obtain ⟨s0, e0, hs, he, hmin, hval⟩ := closestMid_spec (k a) (k a') (k b) (k b')
    obtain ⟨u, hu, rfl⟩ : ∃ u, (u = a ∨ u = a') ∧ s0 = k u := by
      rcases hs with rfl | rfl
      · exact ⟨a, .inl rfl, rfl⟩
      · exact ⟨a', .inr rfl, rfl⟩
    obtain ⟨e, he', rfl⟩ : ∃ u, (u = b ∨ u = b') ∧ e0 = k u := by
      rcases he with rfl | rfl
      · exact ⟨b, .inl rfl, rfl⟩
      · exact ⟨b', .inr rfl, rfl⟩
    refine ⟨u, e, hu, he', fun s' e' hs' he'' => ?_, ?_⟩
    · rw [← hk, ← hk]
      refine hmin _ _ ?_ ?_
      · rcases hs' with rfl | rfl <;> simp
      · rcases he'' with rfl | rfl <;> simp
    · rw [hval]
      ring
  have h1' := hline _ _ h1
  have h2' := hline _ _ h2
  have hgoal : ((c.1 - a.1) * (leftOf s.head).1 + (c.2 - a.2) * (leftOf s.head).2 = 0) ∧
      ((c'.1 - a'.1) * (leftOf s.head).1 + (c'.2 - a'.2) * (leftOf s.head).2 = 0) ∧
      (c'.1 - c.1) * s.head.1 + (c'.2 - c.2) * s.head.2 = 0 ∧ ∃ u e, (u = a ∨ u = a') ∧ (e = b ∨ e = b') ∧
      (∀ s' e', (s' = a ∨ s' = a') → (e' = b ∨ e' = b') →
        |(u.1 - e.1) * s.head.1 + (u.2 - e.2) * s.head.2| ≤ |(s'.1 - e'.1) * s.head.1 + (s'.2 - e'.2) * s.head.2|) ∧
      2 * (c.1 * s.head.1 + c.2 * s.head.2) =
        (u.1 * s.head.1 + u.2 * s.head.2) + (e.1 * s.head.1 + e.2 * s.head.2) := by
    clear hline h1' h2' hu
    unfold L1State.head at *
    generalize hdd : s.dir = d at *
    rcases (by omega : d = 0 ∨ d = 1 ∨ d = 2 ∨ d = 3) with rfl | rfl | rfl | rfl <;>
      simp only [dirOfIndex, unitOf, leftOf] at *
    · obtain ⟨u, e, hu, he, hmin, hval⟩ := hmid Prod.fst (fun p q => by simp)
      obtain ⟨rfl, rfl⟩ := Prod.mk.inj hc
      refine ⟨by linear_combination h1, by linear_combination h2, by ring, u, e, hu, he, hmin, ?_⟩
      linear_combination hval
    · obtain ⟨u, e, hu, he, hmin, hval⟩ := hmid Prod.snd (fun p q => by simp)
      obtain ⟨rfl, rfl⟩ := Prod.mk.inj hc
      refine ⟨by linear_combination h1, by linear_combination h2, by ring, u, e, hu, he, hmin, ?_⟩
      linear_combination hval
    · obtain ⟨u, e, hu, he, hmin, hval⟩ := hmid Prod.fst (fun p q => by simp [abs_sub_comm])
      obtain ⟨rfl, rfl⟩ := Prod.mk.inj hc
      refine ⟨by linear_combination h1, by linear_combination h2, by ring, u, e, hu, he, hmin, ?_⟩
      linear_combination -hval
    · obtain ⟨u, e, hu, he, hmin, hval⟩ := hmid Prod.snd (fun p q => by simp [abs_sub_comm])
      obtain ⟨rfl, rfl⟩ := Prod.mk.inj hc
      refine ⟨by linear_combination h1, by linear_combination h2, by ring, u, e, hu, he, hmin, ?_⟩
      linear_combination -hval
  obtain ⟨g1, g2, g3, u, e, g4, g5, g6, g7⟩ := hgoal
  exact ⟨_, _, _, _, u, e, h1', h2', hline _ _ g1, hline _ _ g2, g3, g4, g5, g6, g7⟩

/-- The piece before the cut. -/
def l1Piece (dir : Nat) (q : Sides K) : Sides K := (q.1.dropLast ++ [(l1Cut dir q).1], q.2.dropLast ++ [(l1Cut dir q).2])

theorem l1SplitPoly_outline (dir : Nat) (q : Sides K) : l1SplitPoly dir q = (l1Piece dir q).outline := by
  simp [l1SplitPoly, l1Piece, Sides.outline]

/-- The last points of the sides of all paths are where they belong. -/
def OnLanes (n : Nat) (w distance f : K) (s : L1State K) : Prop :=
  ∀ ii p, s.paths[ii]? = some p → atSide (s.x, s.y) s.head ((laneOff n ii distance - w) * f) p.1 ∧
    atSide (s.x, s.y) s.head ((laneOff n ii distance + w) * f) p.2 ∧ p.1.length = p.2.length ∧ p.1 ≠ []

theorem l1Loop_pieces {w distance : K} {n mp : Nat} {ls ds : List Int} {s s' : L1State K} {lens turns : List K} {f : K}
    (hd : s.dir < 4) (hn : s.paths.length = n) (hon : OnLanes n w distance f s) (hlen : lens.length = turns.length + 1)
    (h : l1Loop w distance n mp ls ds s lens turns = .ok s') :
    ∃ rounds : List (List (Sides K)), (∀ r ∈ rounds, r.length = n) ∧
      s'.polygons = s.polygons ++ rounds.flatten.map Sides.outline ∧
      s'.layers = s.layers ++ (rounds.map fun _ => ls).flatten ∧
      s'.datatypes = s.datatypes ++ (rounds.map fun _ => ds).flatten ∧ s'.paths.length = n ∧
      (s.points ≤ 0 ∨ (turns.length : Int) < s.points → rounds = []) ∧
      ∀ ii p, s.paths[ii]? = some p → ∀ p', s'.paths[ii]? = some p' →
        CutInto (p.1 ++ sideRest (laneOff n ii distance - w) f (s.x, s.y) s.head lens turns,
          p.2 ++ sideRest (laneOff n ii distance + w) f (s.x, s.y) s.head lens turns)
          (rounds.map (·.getD ii ([], [])) ++ [l1Finish s' (lens.getLastD 0) p']) := by
  induction turns generalizing s lens f with
  | nil =>
    match lens, hlen with
    | [len], _ =>
      simp only [l1Loop, Except.ok.injEq] at h
      subst h
      refine ⟨[], by simp, by simp, by simp, by simp, hn, fun _ => rfl, fun ii p hp p' hp' => ?_⟩
      rw [hp] at hp'
      cases hp'
      obtain ⟨h1, h2, -, -⟩ := hon ii p hp
      simp only [sideRest, List.map_nil, List.nil_append, List.getLastD_cons, List.getLastD_nil]
      rw [l1Finish_end hd h1 h2]
      exact .whole _
  | cons t ts ih =>
    match lens, hlen with
    | len :: rest, hlen =>
    rw [l1Loop] at h
    obtain ⟨e1, e2, e3, e4⟩ := l1Step_end w distance n mp ls ds s len t hd
    generalize hs1 : l1Step w distance n mp ls ds s len t = s1 at *
    have hpos : (s1.x, s1.y) = off (s.x, s.y) len s.head 0 s.head := by
      rw [e1, e2]
      refine Prod.ext ?_ ?_ <;> simp only [off, L1State.head] <;> ring
    have hhead : s1.head = headingAfter s.head t := e4
    have hu := head_unit s hd
    have hlast : (len :: rest).getLastD 0 = rest.getLastD 0 := by
      cases rest with
      | nil => simp at hlen
      | cons a r => simp
    -- the paths before the cut
    have hmove (ii : Nat) (p : Sides K) (hp : s.paths[ii]? = some p) :
        l1Move s w distance len t n ii p =
          (p.1 ++ [cornerAt (laneOff n ii distance - w) f (s.x, s.y) s.head len t],
           p.2 ++ [cornerAt (laneOff n ii distance + w) f (s.x, s.y) s.head len t]) :=
      l1Move_corner hd (hon ii p hp).1 (hon ii p hp).2.1
    have hrest (o : K) (ii : Nat) : sideRest o f (s.x, s.y) s.head (len :: rest) (t :: ts) =
        cornerAt o f (s.x, s.y) s.head len t :: sideRest o |t| (s1.x, s1.y) s1.head rest ts := by
      rw [hpos, hhead]
      rfl
    have hside (o : K) (l : List (Pt K)) :
        atSide (s1.x, s1.y) s1.head (o * |t|) (l ++ [cornerAt o f (s.x, s.y) s.head len t]) := by
      rw [hpos, hhead]
      exact cornerAt_side o f _ hu len t l
    by_cases hz : s.points - 1 = 0
    · -- with a cut
      have hp1 : s1.paths = (s.paths.mapIdx fun ii p => l1Move s w distance len t n ii p).map (l1SplitRest s.dir) := by
        rw [← hs1]
        simp only [l1Step, if_pos hz]
      have hpoly : s1.polygons = s.polygons ++ ((s.paths.mapIdx fun ii p => l1Move s w distance len t n ii p).map
          (l1Piece s.dir)).map Sides.outline := by
        rw [← hs1]
        simp only [l1Step, if_pos hz, List.map_map]
        congr 1
        refine List.map_congr_left fun q _ => l1SplitPoly_outline _ _
      have hlay : s1.layers = s.layers ++ ls := by rw [← hs1]; simp only [l1Step, if_pos hz]
      have hdat : s1.datatypes = s.datatypes ++ ds := by rw [← hs1]; simp only [l1Step, if_pos hz]
      have hget (ii : Nat) (p : Sides K) (hp : s.paths[ii]? = some p) : ∃ ra la a a',
          p = (ra ++ [a], la ++ [a']) ∧ ra.length = la.length ∧
          (s.paths.mapIdx fun ii p => l1Move s w distance len t n ii p)[ii]? =
            some (ra ++ [a, cornerAt (laneOff n ii distance - w) f (s.x, s.y) s.head len t],
              la ++ [a', cornerAt (laneOff n ii distance + w) f (s.x, s.y) s.head len t]) := by
        obtain ⟨h1, h2, h3, h4⟩ := hon ii p hp
        obtain ⟨p1, p2⟩ := p
        simp only at h3 h4
        rcases List.eq_nil_or_concat p1 with rfl | ⟨ra, a, rfl⟩
        · exact absurd rfl h4
        rcases List.eq_nil_or_concat p2 with rfl | ⟨la, a', rfl⟩
        · simp at h3
        refine ⟨ra, la, a, a', by simp, by simpa using h3, ?_⟩
        rw [List.getElem?_mapIdx, hp, Option.map_some, hmove ii _ hp]
        simp
      have hon1 : OnLanes n w distance |t| s1 := by
        intro ii q hq
        rw [hp1, List.getElem?_map] at hq
        cases hp : s.paths[ii]? with
        | none => rw [List.getElem?_mapIdx, hp] at hq; simp at hq
        | some p =>
          obtain ⟨ra, la, a, a', rfl, hl, hm⟩ := hget ii p hp
          rw [hm, Option.map_some] at hq
          obtain rfl := Option.some.inj hq
          refine ⟨?_, ?_, rfl, by simp [l1SplitRest]⟩
          · have := hside (laneOff n ii distance - w) (ra ++ [a])
            simp only [atSide, lastPt, l1SplitRest, List.getLastD_concat] at this ⊢
            simpa [List.getLastD_eq_getLast?] using this
          · have := hside (laneOff n ii distance + w) (la ++ [a'])
            simp only [atSide, lastPt, l1SplitRest, List.getLastD_concat] at this ⊢
            simpa [List.getLastD_eq_getLast?] using this
      obtain ⟨rounds, hr, hq1, hq2, hq3, hq4, hq5, hq6⟩ := ih e3 (by rw [hp1]; simpa using hn) hon1 (by simpa using hlen) h
      refine ⟨((s.paths.mapIdx fun ii p => l1Move s w distance len t n ii p).map (l1Piece s.dir)) :: rounds, ?_, ?_, ?_, ?_,
        hq4, ?_, ?_⟩
      · rintro r (_ | ⟨_, hr'⟩)
        · simpa using hn
        · exact hr r hr'
      · rw [hq1, hpoly]
        simp
      · rw [hq2, hlay]
        simp
      · rw [hq3, hdat]
        simp
      · rintro (hneg | hneg)
        · omega
        · simp only [List.length_cons] at hneg
          omega
      · intro ii p hp p' hp'
        obtain ⟨ra, la, a, a', rfl, hl, hm⟩ := hget ii p hp
        obtain ⟨h1, h2, h3, h4⟩ := hon ii _ hp
        have hcut := hq6 ii (l1SplitRest s.dir (ra ++ [a, cornerAt (laneOff n ii distance - w) f (s.x, s.y) s.head len t],
          la ++ [a', cornerAt (laneOff n ii distance + w) f (s.x, s.y) s.head len t]))
          (by rw [hp1, List.getElem?_map, hm]; rfl) p' hp'
        rw [hlast, hrest _ ii, hrest _ ii]
        simp only [List.map_cons, List.cons_append]
        have hfirst : ((s.paths.mapIdx fun ii p => l1Move s w distance len t n ii p).map (l1Piece s.dir)).getD ii ([], []) =
            l1Piece s.dir (ra ++ [a, cornerAt (laneOff n ii distance - w) f (s.x, s.y) s.head len t],
              la ++ [a', cornerAt (laneOff n ii distance + w) f (s.x, s.y) s.head len t]) := by
          rw [List.getD_eq_getElem?_getD, List.getElem?_map, hm]
          rfl
        rw [hfirst]
        generalize hb : cornerAt (laneOff n ii distance - w) f (s.x, s.y) s.head len t = b at *
        generalize hb' : cornerAt (laneOff n ii distance + w) f (s.x, s.y) s.head len t = b' at *
        have hperp (o : K) (a b : Pt K) (l : List (Pt K)) (ha : atSide (s.x, s.y) s.head (o * f) (l ++ [a]))
            (hb : cornerAt o f (s.x, s.y) s.head len t = b) :
            (b.1 - a.1) * (leftOf s.head).1 + (b.2 - a.2) * (leftOf s.head).2 = 0 := by
          rw [← hb]
          simp only [atSide, lastPt, List.getLastD_concat] at ha
          simp only [cornerAt, off, headingAfter, leftOf] at ha ⊢
          split <;> simp only <;> linear_combination (o * f) * hu - ha
        have e5 (l : List (Pt K)) (p q : Pt K) : (l ++ [p, q]).dropLast = l ++ [p] := by
          rw [show l ++ [p, q] = (l ++ [p]) ++ [q] by simp, List.dropLast_concat]
        have e6 (l : List (Pt K)) (p q : Pt K) : lastPt (l ++ [p, q]) = q := by
          rw [lastPt, show l ++ [p, q] = (l ++ [p]) ++ [q] by simp, List.getLastD_concat]
        simp only [l1SplitRest, l1Piece, e5, e6, List.append_assoc, List.cons_append, List.nil_append] at hcut ⊢
        cases hc : l1Cut s.dir (ra ++ [a, b], la ++ [a', b']) with
        | mk c c' =>
          rw [hc] at hcut
          obtain ⟨x, y, z, z', u, e, g1, g2, g3, g4, g5, g6, g7, g8, g9⟩ :=
            l1Cut_spec hd (hperp _ a b ra h1 hb) (hperp _ a' b' la h2 hb') hc
          exact .cut x y z z' hl hu g1 g2 g3 g4 g5 g6 g7 g8 g9 hcut
    · -- without a cut
      have hp1 : s1.paths = s.paths.mapIdx fun ii p => l1Move s w distance len t n ii p := by
        rw [← hs1]
        simp only [l1Step, if_neg hz]
      have hpoly : s1.polygons = s.polygons := by rw [← hs1]; simp only [l1Step, if_neg hz]
      have hlay : s1.layers = s.layers := by rw [← hs1]; simp only [l1Step, if_neg hz]
      have hdat : s1.datatypes = s.datatypes := by rw [← hs1]; simp only [l1Step, if_neg hz]
      have hpts : s1.points = s.points - 1 := by rw [← hs1]; simp only [l1Step, if_neg hz]
      have hon1 : OnLanes n w distance |t| s1 := by
        intro ii q hq
        rw [hp1, List.getElem?_mapIdx] at hq
        cases hp : s.paths[ii]? with
        | none => rw [hp] at hq; simp at hq
        | some p =>
          rw [hp, Option.map_some, hmove ii p hp] at hq
          obtain rfl := Option.some.inj hq
          refine ⟨hside _ _, hside _ _, ?_, by simp⟩
          simpa using (hon ii p hp).2.2.1
      obtain ⟨rounds, hr, hq1, hq2, hq3, hq4, hq5, hq6⟩ := ih e3 (by rw [hp1]; simpa using hn) hon1 (by simpa using hlen) h
      refine ⟨rounds, hr, by rw [hq1, hpoly], by rw [hq2, hlay], by rw [hq3, hdat], hq4, ?_, ?_⟩
      · intro hcase
        refine hq5 ?_
        rw [hpts]
        rcases hcase with hc | hc
        · exact .inl (by omega)
        · simp only [List.length_cons] at hc
          by_cases h0 : s.points ≤ 1
          · exact .inl (by omega)
          · exact .inr (by omega)
      · intro ii p hp p' hp'
        have := hq6 ii _ (by rw [hp1, List.getElem?_mapIdx, hp, Option.map_some, hmove ii p hp]) p' hp'
        rw [hlast, hrest _ ii, hrest _ ii]
        simpa using this

/-- **C71**: the polygons of an `L1Path` are the pieces, made by cuts across, of one band for each path: all first pieces,
all second pieces and so on, with the layers and datatypes of the paths. Without a limit of vertices nothing is cut. -/
theorem C71_bands {initial : Pt K} {direction : Dir K} {width : K} {length turn : List K} {n : Nat} {distance : K} {mp : Nat}
    {layer datatype : LayerArg} {p : L1Path K}
    (h : l1New initial direction width length turn n distance mp layer datatype = .ok p)
    (hlen : length.length = turn.length + 1) :
    ∃ (ls ds : List Int) (rounds : List (List (Sides K))),
      layer.toList.expand n = .ok ls ∧ datatype.toList.expand n = .ok ds ∧
      p.polygons = rounds.flatten.map Sides.outline ∧
      p.layers = (rounds.map fun _ => ls).flatten ∧ p.datatypes = (rounds.map fun _ => ds).flatten ∧
      (∀ r ∈ rounds, r.length = n) ∧ (mp = 0 ∨ 2 * turn.length + 4 ≤ mp → rounds.length = 1) ∧
      ∀ ii < n, CutInto (bandAt n ii distance width initial (unitOf direction) length turn)
        (rounds.map (·.getD ii ([], []))) := by
  obtain ⟨ls, ds, d, s, last, e, h1, h2, h3, h4, h5, h6, rfl⟩ := l1New_inv h
  obtain ⟨hd4, hdir⟩ := Dir.index_inv h3
  have hlast := idx_reverse_zero length last 0 h5
  have hstart (ii : Nat) : l1Start initial (width / 2) distance n ii d =
      ([off initial (laneOff n ii distance - width / 2) (leftOf (unitOf direction)) 0 (unitOf direction)],
       [off initial (laneOff n ii distance + width / 2) (leftOf (unitOf direction)) 0 (unitOf direction)]) := by
    have hd1 : ((n : K) - 1) * distance / 2 - (ii : K) * distance = -laneOff n ii distance := by
      simp only [laneOff]
      ring
    unfold l1Start
    simp only [hd1]
    rw [← hdir]
    rcases (by omega : d = 0 ∨ d = 1 ∨ d = 2 ∨ d = 3) with rfl | rfl | rfl | rfl <;>
      simp only [dirOfIndex, unitOf, leftOf, off, Prod.mk.injEq, List.cons.injEq, and_true] <;>
      refine ⟨⟨?_, ?_⟩, ?_, ?_⟩ <;> ring
  have hhead : ({ x := initial.1, y := initial.2, dir := d
                  points := if mp = 0 then (turn.length : Int) + 1 else ((mp / 2 : Nat) : Int) - 1
                  paths := (List.range n).map fun ii => l1Start initial (width / 2) distance n ii d
                  polygons := [], layers := [], datatypes := [] } : L1State K).head = unitOf direction := by
    unfold L1State.head
    rw [hdir]
  have hu : (unitOf direction).1 ^ 2 + (unitOf direction).2 ^ 2 = 1 := by
    rw [← hdir]
    rcases (by omega : d = 0 ∨ d = 1 ∨ d = 2 ∨ d = 3) with rfl | rfl | rfl | rfl <;> simp [dirOfIndex, unitOf]
  obtain ⟨rounds, hr, hq1, hq2, hq3, hq4, hq5, hq6⟩ := l1Loop_pieces (f := 1) hd4 (by simp) (by
    intro ii q hq
    rw [hhead]
    simp only [List.getElem?_map, Option.map_eq_some_iff] at hq
    obtain ⟨k, hk, rfl⟩ := hq
    obtain ⟨hlt, rfl⟩ := List.getElem?_eq_some_iff.1 hk
    rw [List.getElem_range, hstart]
    refine ⟨?_, ?_, rfl, by simp⟩
    · simp only [atSide, lastPt, List.getLastD_cons, List.getLastD_nil, off, leftOf]
      linear_combination (laneOff n ii distance - width / 2) * hu
    · simp only [atSide, lastPt, List.getLastD_cons, List.getLastD_nil, off, leftOf]
      linear_combination (laneOff n ii distance + width / 2) * hu) hlen h4
  refine ⟨ls, ds, rounds ++ [s.paths.map (l1Finish s last)], h1, h2, ?_, ?_, ?_, ?_, ?_, ?_⟩
  · simp only [hq1, List.nil_append, List.flatten_append, List.map_append, List.flatten_cons, List.flatten_nil,
      List.append_nil]
    rfl
  · simp [hq2]
  · simp [hq3]
  · intro r hr'
    rcases List.mem_append.1 hr' with hr' | hr'
    · exact hr r hr'
    · rw [List.mem_singleton.1 hr']
      simpa using hq4
  · intro hm
    rw [hq5 ?_]
    · rfl
    · right
      simp only
      split
      · omega
      · omega
  · intro ii hii
    obtain ⟨p', hp'⟩ : ∃ p', s.paths[ii]? = some p' := ⟨_, List.getElem?_eq_getElem (by omega)⟩
    have := hq6 ii _ (by rw [List.getElem?_map, List.getElem?_range hii]; rfl) p' hp'
    beta_reduce at this
    rw [hstart, hhead, ← hlast] at this
    rw [List.map_append, List.map_singleton, List.getD_eq_getElem?_getD, List.getElem?_map, hp']
    have hl : laneOff n ii distance = ((ii : K) - ((n : K) - 1) / 2) * distance := by
      simp only [laneOff]
      ring
    rw [hl] at this
    exact this

/-! ### Areas -/

theorem shoelace_sides_chain (x y : Pt K) (r l : List (Pt K)) : shoelace (Sides.outline (x :: r, y :: l)) =
    chain (x :: r) + cross (r.getLastD x) (l.getLastD y) - chain (y :: l) + cross y x := by
  have e : Sides.outline (x :: r, y :: l) = x :: (r ++ (y :: l).reverse) := rfl
  rw [e, shoelace_chain, ← List.cons_append, List.append_assoc]
  have e2 : r.getLastD x = (x :: r).getLastD x := (List.getLastD_cons ..).symm
  have e3 : l.getLastD y = (y :: l).getLastD y := (List.getLastD_cons ..).symm
  have hr := chain_reverse (y :: l)
  have hj : chain ((y :: l).reverse ++ [x]) = chain (y :: l).reverse + cross y x := by
    rw [List.reverse_cons, List.append_assoc]
    show chain (l.reverse ++ y :: [x]) = _
    rw [chain_join]
    simp [chain]
  rw [e2, e3]
  rcases List.eq_nil_or_concat (x :: r) with h | ⟨A, p, hA⟩
  · simp at h
  rcases List.eq_nil_or_concat (y :: l) with h | ⟨B, q, hB⟩
  · simp at h
  rw [List.concat_eq_append] at hA hB
  rw [hB] at hr hj ⊢
  rw [hA, List.getLastD_concat, List.getLastD_concat, List.append_assoc]
  show chain (A ++ p :: ((B ++ [q]).reverse ++ [x])) = _
  rw [chain_join]
  have e4 : (B ++ [q]).reverse = q :: B.reverse := by simp
  have e5 : chain (p :: ((B ++ [q]).reverse ++ [x])) = cross p q + chain ((B ++ [q]).reverse ++ [x]) := by
    rw [e4]
    rfl
  rw [e5, hj, hr]
  ring

/-- Twice the area of the polygon between two sides, section by section. -/
theorem shoelace_sides (a b a' b' : Pt K) (r l : List (Pt K)) :
    shoelace (Sides.outline (a :: b :: r, a' :: b' :: l)) =
      shoelace [a, b, b', a'] + shoelace (Sides.outline (b :: r, b' :: l)) := by
  rw [shoelace_sides_chain, shoelace_sides_chain, chain, chain]
  simp only [List.getLastD_cons, shoelace, List.rotate_cons_succ, List.rotate_zero, List.nil_append, List.cons_append,
    List.zipWith_cons_cons, List.zipWith_nil_left, List.sum_cons, List.sum_nil, cross]
  ring

/-- Cuts do not change the sum of the areas. -/
theorem cutInto_area {s : Sides K} {ps : List (Sides K)} (h : CutInto s ps) :
    (ps.map fun p => shoelace p.outline).sum = shoelace s.outline := by
  induction h with
  | whole s => simp
  | @cut ra rb la lb a b c a' b' c' hd u e ps x y z z' same unit hr hl hrc hlc hac hs he hcl hh rest ih =>
    rw [List.map_cons, List.sum_cons, ih]
    -- without the sections before
    have key : ∀ (ra la : List (Pt K)), ra.length = la.length →
        shoelace (Sides.outline (ra ++ [a, c], la ++ [a', c'])) + shoelace (Sides.outline (c :: b :: rb, c' :: b' :: lb)) =
        shoelace (Sides.outline (ra ++ a :: b :: rb, la ++ a' :: b' :: lb)) := by
      intro ra
      induction ra with
      | nil =>
        intro la hla
        obtain rfl : la = [] := List.length_eq_zero_iff.1 (by simpa using hla.symm)
        simp only [List.nil_append]
        rw [shoelace_sides c, shoelace_sides a b, ← add_assoc]
        congr 1
        simp only [Sides.outline, List.reverse_cons, List.reverse_nil, List.nil_append, List.cons_append, shoelace,
          List.rotate_cons_succ, List.rotate_zero, List.zipWith_cons_cons, List.zipWith_nil_left, List.sum_cons, List.sum_nil]
        rw [hr, hl, hrc, hlc]
        simp only [off]
        ring
      | cons q ra ih2 =>
        intro la hla
        cases la with
        | nil => simp at hla
        | cons q' la =>
          have := ih2 la (by simpa using hla)
          cases ra with
          | nil =>
            obtain rfl : la = [] := by simpa using hla
            simp only [List.cons_append, List.nil_append] at this ⊢
            rw [shoelace_sides q, shoelace_sides q, add_assoc, this]
          | cons q2 ra =>
            cases la with
            | nil => simp at hla
            | cons q2' la =>
              simp only [List.cons_append] at this ⊢
              rw [shoelace_sides q, shoelace_sides q, add_assoc, this]
    exact key ra la same

/-- Twice the area between two sides of a walk that begin at `k` ahead. -/
theorem sideRest_area (o w f k : K) (pos head : Pt K) (hu : head.1 ^ 2 + head.2 ^ 2 = 1) (lens turns : List K)
    (hlen : lens.length = turns.length + 1) :
    shoelace (Sides.outline
      (off pos ((o - w) * f) (leftOf head) ((o - w) * k) head :: sideRest (o - w) f pos head lens turns,
       off pos ((o + w) * f) (leftOf head) ((o + w) * k) head :: sideRest (o + w) f pos head lens turns)) =
      2 * (2 * w * (bandLength o f lens turns - o * (f * k))) := by
  induction turns generalizing f k pos head lens with
  | nil =>
    match lens, hlen with
    | [len], _ =>
      simp only [sideRest, bandLength, Sides.outline, List.reverse_cons, List.reverse_nil, List.nil_append, List.cons_append,
        shoelace, List.rotate_cons_succ, List.rotate_zero, List.zipWith_cons_cons, List.zipWith_nil_left, List.sum_cons,
        List.sum_nil, off, leftOf]
      linear_combination (2 * (2 * w * (f * len - o * (f * k)))) * hu
  | cons t ts ih =>
    match lens, hlen with
    | len :: rest, hlen =>
      have hu' : (headingAfter head t).1 ^ 2 + (headingAfter head t).2 ^ 2 = 1 := by
        unfold headingAfter
        split <;> simp only [leftOf] <;> linear_combination hu
      simp only [sideRest, bandLength]
      rw [shoelace_sides]
      -- the corner as the beginning of the next section
      have hcorner (o : K) : off (off pos len head 0 head) (o * f) (leftOf head) (o * |t|) (leftOf (headingAfter head t)) =
          off (off pos len head 0 head) (o * |t|) (leftOf (headingAfter head t)) (o * (f * if t > 0 then 1 else -1))
            (headingAfter head t) := by
        unfold headingAfter
        split <;> refine Prod.ext ?_ ?_ <;> simp only [off, leftOf] <;> ring
      have := ih |t| (f * if t > 0 then 1 else -1) (off pos len head 0 head) (headingAfter head t) hu' rest (by simpa using hlen)
      rw [← hcorner, ← hcorner] at this
      rw [this]
      have ht : t = |t| * if t > 0 then 1 else -1 := by
        split
        · rename_i h; rw [abs_of_pos h]; ring
        · rename_i h; rw [abs_of_nonpos (not_lt.1 h)]; ring
      have hc2 (o : K) : off (off pos len head 0 head) (o * f) (leftOf head) (o * |t|) (leftOf (headingAfter head t)) =
          off pos (o * f) (leftOf head) (len - o * t) head := by
        have hl : leftOf (headingAfter head t) = ((if t > 0 then -1 else 1) * head.1, (if t > 0 then -1 else 1) * head.2) := by
          unfold headingAfter
          split <;> refine Prod.ext ?_ ?_ <;> simp only [leftOf] <;> ring
        have ht2 : |t| * (if t > 0 then -1 else 1) = -t := by
          split
          · rename_i h; rw [abs_of_pos h]; ring
          · rename_i h; rw [abs_of_nonpos (not_lt.1 h)]; ring
        rw [hl]
        refine Prod.ext ?_ ?_ <;> simp only [off]
        · linear_combination (o * head.1) * ht2
        · linear_combination (o * head.2) * ht2
      rw [hc2, hc2]
      simp only [shoelace, List.rotate_cons_succ, List.rotate_zero, List.nil_append, List.cons_append,
        List.zipWith_cons_cons, List.zipWith_nil_left, List.sum_cons, List.sum_nil, off, leftOf]
      linear_combination (2 * (2 * w * (f * len - o * (f * k) - o * (f * t)))) * hu + (4 * w * o * f) * ht

theorem bandLength_linear (o f : K) (lens turns : List K) :
    bandLength o f lens turns = bandLength 0 f lens turns + o * (bandLength 1 f lens turns - bandLength 0 f lens turns) := by
  induction turns generalizing f lens with
  | nil =>
    match lens with
    | [] => simp [bandLength]
    | [a] => simp [bandLength]
    | a :: b :: r => simp [bandLength]
  | cons t ts ih =>
    match lens with
    | [] => simp [bandLength]
    | a :: r =>
      simp only [bandLength]
      rw [ih]
      ring

/-- **C71**: twice the area of a band is twice the width times the length along its middle. -/
theorem C71_band_area (n ii : Nat) (distance width : K) (pos : Pt K) {head : Pt K} (hu : head.1 ^ 2 + head.2 ^ 2 = 1)
    {lens turns : List K} (hlen : lens.length = turns.length + 1) :
    shoelace (bandAt n ii distance width pos head lens turns).outline =
      2 * (width * bandLength (((ii : K) - ((n : K) - 1) / 2) * distance) 1 lens turns) := by
  have h := sideRest_area (((ii : K) - ((n : K) - 1) / 2) * distance) (width / 2) 1 0 pos head hu lens turns hlen
  simp only [mul_one, mul_zero] at h
  simp only [bandAt, sideOf]
  rw [h]
  ring

theorem sum_lanes (n : Nat) : ((List.range n).map fun i : Nat => (i : K)).sum = (n : K) * ((n : K) - 1) / 2 := by
  induction n with
  | zero => simp
  | succ n ih =>
    rw [List.range_succ, List.map_append, List.sum_append, ih]
    simp only [List.map_cons, List.map_nil, List.sum_cons, List.sum_nil]
    push_cast
    ring

theorem sum_swap (n : Nat) (rounds : List (List (Sides K))) (h : ∀ r ∈ rounds, r.length = n) (g : Sides K → K) :
    (rounds.flatten.map g).sum =
      ((List.range n).map fun ii => ((rounds.map (·.getD ii ([], []))).map g).sum).sum := by
  induction rounds with
  | nil => simp
  | cons r rs ih =>
    have hr : r.map g = (List.range n).map fun ii => g (r.getD ii ([], [])) := by
      have hl := h r (by simp)
      refine List.ext_getElem (by simp [hl]) fun i h1 h2 => ?_
      simp only [List.getElem_map, List.getElem_range]
      rw [List.getD_eq_getElem?_getD, List.getElem?_eq_getElem (by simpa using h1)]
      rfl
    rw [List.flatten_cons, List.map_append, List.sum_append, ih fun r hr => h r (by simp [hr]), hr]
    simp only [List.map_cons, List.sum_cons]
    rw [← List.sum_map_add]

/-- **C71**: the areas of all polygons, however they are cut, add up to the number of paths times the width times the length
(each section multiplied by its factor). -/
theorem C71_area {initial : Pt K} {direction : Dir K} {width : K} {length turn : List K} {n : Nat} {distance : K} {mp : Nat}
    {layer datatype : LayerArg} {p : L1Path K}
    (h : l1New initial direction width length turn n distance mp layer datatype = .ok p)
    (hlen : length.length = turn.length + 1) :
    (p.polygons.map shoelace).sum = 2 * ((n : K) * (width * bandLength 0 1 length turn)) := by
  obtain ⟨ls, ds, rounds, -, -, hp, -, -, hr, -, hcut⟩ := C71_bands h hlen
  have hu : (unitOf direction).1 ^ 2 + (unitOf direction).2 ^ 2 = 1 := by
    obtain ⟨ls, ds, d, s, last, e, h1, h2, h3, h4, h5, h6, rfl⟩ := l1New_inv h
    obtain ⟨hd4, hdir⟩ := Dir.index_inv h3
    rw [← hdir]
    rcases (by omega : d = 0 ∨ d = 1 ∨ d = 2 ∨ d = 3) with rfl | rfl | rfl | rfl <;> simp [dirOfIndex, unitOf]
  rw [hp, List.map_map, sum_swap n rounds hr]
  have e : (List.range n).map (fun ii => ((rounds.map (·.getD ii ([], []))).map (shoelace ∘ Sides.outline)).sum) =
      (List.range n).map fun ii : Nat => 2 * width * bandLength 0 1 length turn +
        2 * width * distance * (bandLength 1 1 length turn - bandLength 0 1 length turn) * ((ii : K) - ((n : K) - 1) / 2) := by
    refine List.map_congr_left fun ii hii => ?_
    have := cutInto_area (hcut ii (List.mem_range.1 hii))
    rw [C71_band_area n ii distance width initial hu hlen, bandLength_linear] at this
    refine (Eq.trans ?_ this).trans ?_
    · rfl
    · ring
  rw [e, List.sum_map_add, List.sum_map_mul_left, List.sum_map_mul_left]
  have hs : ((List.range n).map fun ii : Nat => (ii : K) - ((n : K) - 1) / 2).sum = 0 := by
    have : ((List.range n).map fun ii : Nat => (ii : K) - ((n : K) - 1) / 2) =
        (List.range n).map fun ii : Nat => (ii : K) + -(((n : K) - 1) / 2) := by simp [sub_eq_add_neg]
    rw [this, List.sum_map_add, sum_lanes]
    simp
    ring
  rw [hs]
  simp
  ring

/-- **C71**: `rotate` turns polygons, end point and direction about the center. -/
theorem C71_rotate {t : Num K} (ht : Num.Laws t) (angle : K) (c : Pt K) (p : L1Path K) :
    let A := (Aff.rotate (t.cos angle) (t.sin angle)).about c
    (p.rotate t angle c).polygons = p.polygons.map (List.map A.app) ∧
    ((p.rotate t angle c).x, (p.rotate t angle c).y) = A.app (p.x, p.y) ∧
    (p.direction.isNamed = true →
      (t.cos ((p.rotate t angle c).direction.dictAngle t), t.sin ((p.rotate t angle c).direction.dictAngle t)) =
        (Aff.rotate (t.cos angle) (t.sin angle)).app (unitOf p.direction)) ∧
    (p.rotate t angle c).layers = p.layers ∧ (p.rotate t angle c).datatypes = p.datatypes := by
  have hg : ∀ v : Pt K, spinPt (t.cos angle) (t.sin angle) c v = ((Aff.rotate (t.cos angle) (t.sin angle)).about c).app v := by
    intro v
    simp only [spinPt, Aff.app, Aff.about, Aff.comp, Aff.shift, Aff.rotate]
    ext <;> ring
  refine ⟨?_, ?_, ?_, rfl, rfl⟩
  · unfold L1Path.rotate
    simp only [funext hg]
  · rw [← hg]
    rfl
  · intro hn
    have hv := dictAngle_vec ht p.direction
    have ha := ht.trig.add (p.direction.dictAngle t) angle
    have hu : unitOf p.direction = p.direction.vec t := by
      cases hd : p.direction <;> simp [hd, Dir.isNamed] at hn <;> rfl
    rw [hu, hv]
    have hd : (p.rotate t angle c).direction.dictAngle t = p.direction.dictAngle t + angle := rfl
    rw [hd, ha.1, ha.2]
    simp only [Aff.app, Aff.rotate]
    refine Prod.ext ?_ ?_ <;> simp only <;> ring

/-- **C71**, violated: `translate`, inherited from `PolygonSet`, moves the polygons but not the final position. -/
theorem C71_translate_keeps_end (dx dy : K) (p : L1Path K) :
    (p.translate dx dy).polygons = p.polygons.map (List.map fun q => (q.1 + dx, q.2 + dy)) ∧
      ((p.translate dx dy).x, (p.translate dx dy).y) = (p.x, p.y) := ⟨rfl, rfl⟩

/-- **C71**: where both sides of a section end beyond the beginnings of both, the cut lies on both sides. -/
theorem C71_cut_inside {a b c a' b' c' h s e : Pt K} {x y z z' : K} (unit : h.1 ^ 2 + h.2 ^ 2 = 1)
    (right : b = off a x h 0 h) (left : b' = off a' y h 0 h) (rightCut : c = off a z h 0 h) (leftCut : c' = off a' z' h 0 h)
    (across : (c'.1 - c.1) * h.1 + (c'.2 - c.2) * h.2 = 0) (start : s = a ∨ s = a') (stop : e = b ∨ e = b')
    (closest : ∀ s' e', (s' = a ∨ s' = a') → (e' = b ∨ e' = b') →
      |(s.1 - e.1) * h.1 + (s.2 - e.2) * h.2| ≤ |(s'.1 - e'.1) * h.1 + (s'.2 - e'.2) * h.2|)
    (half : 2 * (c.1 * h.1 + c.2 * h.2) = (s.1 * h.1 + s.2 * h.2) + (e.1 * h.1 + e.2 * h.2))
    (before : ∀ s' e', (s' = a ∨ s' = a') → (e' = b ∨ e' = b') →
      s'.1 * h.1 + s'.2 * h.2 ≤ e'.1 * h.1 + e'.2 * h.2) :
    0 ≤ z ∧ z ≤ x ∧ 0 ≤ z' ∧ z' ≤ y := by
  have hdist (s' e' : Pt K) (hs : s' = a ∨ s' = a') (he : e' = b ∨ e' = b') :
      |(s'.1 - e'.1) * h.1 + (s'.2 - e'.2) * h.2| = (e'.1 * h.1 + e'.2 * h.2) - (s'.1 * h.1 + s'.2 * h.2) := by
    have := before s' e' hs he
    rw [abs_of_nonpos (by linarith)]
    ring
  have hle (s' e' : Pt K) (hs : s' = a ∨ s' = a') (he : e' = b ∨ e' = b') :
      (e.1 * h.1 + e.2 * h.2) - (s.1 * h.1 + s.2 * h.2) ≤ (e'.1 * h.1 + e'.2 * h.2) - (s'.1 * h.1 + s'.2 * h.2) := by
    rw [← hdist s' e' hs he, ← hdist s e start stop]
    exact closest s' e' hs he
  have hb0 := before s e start stop
  have h1 := hle a e (.inl rfl) stop
  have h2 := hle a' e (.inr rfl) stop
  have h3 := hle s b start (.inl rfl)
  have h4 := hle s b' start (.inr rfl)
  have eb : b.1 * h.1 + b.2 * h.2 = a.1 * h.1 + a.2 * h.2 + x := by
    rw [right]; simp only [off]; linear_combination x * unit
  have eb' : b'.1 * h.1 + b'.2 * h.2 = a'.1 * h.1 + a'.2 * h.2 + y := by
    rw [left]; simp only [off]; linear_combination y * unit
  have ec : c.1 * h.1 + c.2 * h.2 = a.1 * h.1 + a.2 * h.2 + z := by
    rw [rightCut]; simp only [off]; linear_combination z * unit
  have ec' : c'.1 * h.1 + c'.2 * h.2 = a'.1 * h.1 + a'.2 * h.2 + z' := by
    rw [leftCut]; simp only [off]; linear_combination z' * unit
  exact ⟨by linarith, by linarith, by linarith, by linarith⟩

/-! ### Concrete cases -/

/-- Two paths around a corner, the second section twice as wide. -/
example : (okVal (l1New ((0, 0) : Pt ℚ) .px 2 [10, 20] [2] 2 6 0 (.one 1) (.list [2, 3]))).map (·.polygons) =
    some [[(0, -4), (18, -4), (18, 20), (14, 20), (14, -2), (0, -2)], [(0, 2), (6, 2), (6, 20), (2, 20), (2, 4), (0, 4)]] := by
  decide +kernel

example : [bandAt 2 0 6 2 ((0, 0) : Pt ℚ) (1, 0) [10, 20] [2], bandAt 2 1 6 2 (0, 0) (1, 0) [10, 20] [2]].map Sides.outline =
    [[(0, -4), (18, -4), (18, 20), (14, 20), (14, -2), (0, -2)], [(0, 2), (6, 2), (6, 20), (2, 20), (2, 4), (0, 4)]] := by
  decide +kernel

/-- A path that is cut twice: its three polygons, with a total area of 2 (10 + 20 + 30) + 4 40. -/
example : (okVal (l1New ((0, 0) : Pt ℚ) .px 2 [10, 20, 30, 40] [1, -1, 2] 1 0 6 (.one 1) (.one 2))).map (·.polygons) =
    some [[(0, -1), (11, -1), (11, 10), (9, 10), (9, 1), (0, 1)],
      [(11, 10), (11, 19), (49 / 2, 19), (49 / 2, 21), (9, 21), (9, 10)],
      [(49 / 2, 19), (42, 19), (42, 60), (38, 60), (38, 21), (49 / 2, 21)]] := by
  decide +kernel

example : bandLength (0 : ℚ) 1 [10, 20, 30, 40] [1, -1, 2] = 140 := by decide +kernel

end Gdspy
