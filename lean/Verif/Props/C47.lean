import Verif.Model.Shapes
import Verif.Props.C45

/-!
# C47: L1Path
-/

set_option linter.unusedSectionVars false

deriving instance DecidableEq for Gdspy.L1Path

namespace Gdspy

open Spec

variable {K : Type} [Field K] [LinearOrder K]

/-- Walk along the axes: the position and heading after going `len`, turning left for a positive turn
and right otherwise, and so on; the last length is walked without turning. -/
def Spec.walkL1 (pos head : Pt K) : List K → List K → Pt K × Pt K
  | len :: lens, turn :: turns =>
    walkL1 (pos.1 + len * head.1, pos.2 + len * head.2)
      (if turn > 0 then (-head.2, head.1) else (head.2, -head.1)) lens turns
  | [len], [] => ((pos.1 + len * head.1, pos.2 + len * head.2), head)
  | _, _ => (pos, head)

/-- The unit vector of a named direction. -/
def Spec.unitOf : Dir K → Pt K
  | .px => (1, 0)
  | .py => (0, 1)
  | .mx => (-1, 0)
  | .my => (0, -1)
  | .num _ => (0, 0)

/-- The position before the last length and the final heading. -/
def Spec.walkTurns (pos head : Pt K) : List K → List K → Pt K × Pt K
  | len :: lens, turn :: turns =>
    walkTurns (pos.1 + len * head.1, pos.2 + len * head.2)
      (if turn > 0 then (-head.2, head.1) else (head.2, -head.1)) lens turns
  | _, _ => (pos, head)

theorem walkL1_eq (pos head : Pt K) (lens turns : List K) (h : lens.length = turns.length + 1) :
    walkL1 pos head lens turns =
      (((walkTurns pos head lens turns).1.1 + lens.getLastD 0 * (walkTurns pos head lens turns).2.1,
        (walkTurns pos head lens turns).1.2 + lens.getLastD 0 * (walkTurns pos head lens turns).2.2),
       (walkTurns pos head lens turns).2) := by
  induction turns generalizing pos head lens with
  | nil =>
    match lens, h with
    | [len], _ => rfl
  | cons t ts ih =>
    match lens, h with
    | len :: l2 :: rest, h =>
      have := ih (pos.1 + len * head.1, pos.2 + len * head.2)
        (if t > 0 then (-head.2, head.1) else (head.2, -head.1)) (l2 :: rest) (by simpa using h)
      simp only [walkL1, walkTurns, List.getLastD_cons] at this ⊢
      exact this

theorem l1Step_end (w distance : K) (n mp : Nat) (layer datatype : List Int) (s : L1State K)
    (len turn : K) (hd : s.dir < 4) :
    let s' := l1Step w distance n mp layer datatype s len turn
    s'.x = s.x + len * (unitOf (dirOfIndex s.dir : Dir K)).1 ∧
    s'.y = s.y + len * (unitOf (dirOfIndex s.dir : Dir K)).2 ∧
    s'.dir < 4 ∧
    unitOf (dirOfIndex s'.dir : Dir K) =
      if turn > 0 then (-(unitOf (dirOfIndex s.dir : Dir K)).2, (unitOf (dirOfIndex s.dir : Dir K)).1)
      else ((unitOf (dirOfIndex s.dir : Dir K)).2, -(unitOf (dirOfIndex s.dir : Dir K)).1) := by
  have hx : ∀ s' : L1State K, s' = l1Step w distance n mp layer datatype s len turn →
      s'.x = (l1Advance s.dir len s.x s.y).1 ∧ s'.y = (l1Advance s.dir len s.x s.y).2 ∧
      s'.dir = if turn > 0 then (s.dir + 1) % 4 else (s.dir + 3) % 4 := by
    intro s' hs'
    subst hs'
    unfold l1Step
    simp only
    by_cases hp : s.points - 1 = 0
    · simp [if_pos hp]
    · simp [if_neg hp]
  obtain ⟨h1, h2, h3⟩ := hx _ rfl
  simp only
  rw [h1, h2, h3]
  generalize hdir : s.dir = d at hd
  rcases (by omega : d = 0 ∨ d = 1 ∨ d = 2 ∨ d = 3) with rfl | rfl | rfl | rfl <;>
    by_cases ht : turn > 0 <;>
    simp [l1Advance, dirOfIndex, unitOf, ht, sub_eq_add_neg]

theorem l1Loop_end (w distance : K) (n mp : Nat) (layer datatype : List Int) (s s' : L1State K)
    (lens turns : List K) (hd : s.dir < 4)
    (h : l1Loop w distance n mp layer datatype s lens turns = .ok s') :
    s'.dir < 4 ∧
    walkTurns (s.x, s.y) (unitOf (dirOfIndex s.dir : Dir K)) lens turns =
      ((s'.x, s'.y), unitOf (dirOfIndex s'.dir : Dir K)) := by
  induction turns generalizing s lens with
  | nil =>
    cases lens <;> simp only [l1Loop, Except.ok.injEq] at h <;> subst h <;> exact ⟨hd, rfl⟩
  | cons t ts ih =>
    cases lens with
    | nil => simp [l1Loop] at h
    | cons len rest =>
      rw [l1Loop] at h
      obtain ⟨h1, h2, h3, h4⟩ := l1Step_end w distance n mp layer datatype s len t hd
      have := ih _ _ h3 h
      rw [h1, h2, h4] at this
      exact this

theorem idx_reverse_zero {α : Type} (l : List α) (a d : α) (h : idx l.reverse 0 = .ok a) :
    a = l.getLastD d := by
  unfold idx at h
  split at h
  · rename_i b hb
    simp only [Except.ok.injEq] at h
    subst h
    rw [List.getElem?_reverse' (j := l.length - 1)] at hb
    · rw [List.getLastD_eq_getLast?, List.getLast?_eq_getElem?, hb]; rfl
    · have : l ≠ [] := by rintro rfl; simp at hb
      have := List.length_pos_of_ne_nil this
      omega
  · simp at h

theorem bind_ok_inv {α β : Type} {m : Py α} {f : α → Py β} {b : β} (h : (m >>= f) = .ok b) :
    ∃ a, m = .ok a ∧ f a = .ok b := by
  cases m with
  | error e => cases h
  | ok a => exact ⟨a, rfl, h⟩

/-- What the constructor computes when it returns. -/
theorem l1New_inv {initial : Pt K} {direction : Dir K} {width : K} {length turn : List K} {n : Nat}
    {distance : K} {mp : Nat} {layer datatype : LayerArg} {p : L1Path K}
    (h : l1New initial direction width length turn n distance mp layer datatype = .ok p) :
    ∃ (ls ds : List Int) (d : Nat) (s : L1State K) (last : K) (e : K × K),
      layer.toList.expand n = .ok ls ∧ datatype.toList.expand n = .ok ds ∧ direction.index = .ok d ∧
      l1Loop (width / 2) distance n mp ls ds
        { x := initial.1, y := initial.2, dir := d
          points := if mp = 0 then (turn.length : Int) + 1 else ((mp / 2 : Nat) : Int) - 1
          paths := (List.range n).map fun ii => l1Start initial (width / 2) distance n ii d
          polygons := [], layers := [], datatypes := [] } length turn = .ok s ∧
      idx length.reverse 0 = .ok last ∧ l1End s length turn = .ok e ∧
      p = { x := e.1, y := e.2, direction := dirOfIndex s.dir
            polygons := s.polygons ++ (s.paths.map (l1Finish s last)).map fun p => p.1 ++ p.2.reverse
            layers := s.layers ++ ls
            datatypes := s.datatypes ++ ds } := by
  unfold l1New at h
  obtain ⟨ls, h1, h⟩ := bind_ok_inv h
  obtain ⟨ds, h2, h⟩ := bind_ok_inv h
  obtain ⟨d, h3, h⟩ := bind_ok_inv h
  obtain ⟨s, h4, h⟩ := bind_ok_inv h
  obtain ⟨last, h5, h⟩ := bind_ok_inv h
  obtain ⟨e, h6, h⟩ := bind_ok_inv h
  simp only [Except.ok.injEq] at h
  exact ⟨ls, ds, d, s, last, e, h1, h2, h3, h4, h5, h6, h.symm⟩

theorem Dir.index_inv {direction : Dir K} {d : Nat} (h : direction.index = .ok d) :
    d < 4 ∧ (dirOfIndex d : Dir K) = direction := by
  cases direction <;> simp [Dir.index] at h <;> subst h <;> simp [dirOfIndex]

/-- **C47** (part): with one length more than turns, the direction of a finished `L1Path` is the
heading after the documented walk, and the end point is its end unless the last segment goes in
direction −y. In direction −y the code subtracts the length before the last one: the x coordinate is
right, and y is off by the difference of the last two lengths. -/
theorem C47_end_point_partial {initial : Pt K} {direction : Dir K} {width : K} {length turn : List K}
    {n : Nat} {distance : K} {mp : Nat} {layer datatype : LayerArg} {p : L1Path K}
    (h : l1New initial direction width length turn n distance mp layer datatype = .ok p)
    (hlen : length.length = turn.length + 1) :
    let e := walkL1 initial (unitOf direction) length turn
    unitOf p.direction = e.2 ∧ p.direction.isNamed = true ∧
    (p.direction ≠ .my → (p.x, p.y) = e.1) ∧
    (p.direction = .my → p.x = e.1.1 ∧
      p.y = e.1.2 + length.getLastD 0 - length.getD (turn.length - 1) 0) := by
  obtain ⟨ls, ds, d, s, last, e, h1, h2, h3, h4, h5, h6, rfl⟩ := l1New_inv h
  obtain ⟨hd4, hdir⟩ := Dir.index_inv h3
  obtain ⟨hs4, hw⟩ := l1Loop_end _ _ _ _ _ _ _ _ _ _ hd4 h4
  simp only at hw
  rw [hdir] at hw
  have hlast := idx_reverse_zero length last 0 h5
  have hWL := walkL1_eq (initial.1, initial.2) (unitOf direction) length turn hlen
  rw [hw] at hWL
  rw [show walkL1 initial (unitOf direction) length turn = _ from hWL, ← hlast]
  unfold l1End at h6
  obtain ⟨last', h5', h6⟩ := bind_ok_inv h6
  rw [h5] at h5'
  cases h5'
  generalize hdd : s.dir = k at *
  simp only
  rcases (by omega : k = 0 ∨ k = 1 ∨ k = 2 ∨ k = 3) with rfl | rfl | rfl | rfl
  · simp [l1Advance] at h6
    subst h6
    simp [dirOfIndex, unitOf, Dir.isNamed]
  · simp [l1Advance] at h6
    subst h6
    simp [dirOfIndex, unitOf, Dir.isNamed]
  · simp [l1Advance] at h6
    subst h6
    simp [dirOfIndex, unitOf, Dir.isNamed, sub_eq_add_neg]
  · rw [if_pos rfl] at h6
    split at h6
    · cases h6
    · obtain ⟨l, hl, h6⟩ := bind_ok_inv h6
      simp only [Except.ok.injEq] at h6
      subst h6
      have : length.getD (turn.length - 1) 0 = l := by
        unfold idx at hl
        split at hl
        · rename_i b hb
          simp only [Except.ok.injEq] at hl
          rw [List.getD_eq_getElem?_getD, hb, ← hl]; rfl
        · simp at hl
      rw [this]
      simp [dirOfIndex, unitOf, Dir.isNamed, sub_eq_add_neg]

/-! ### Bookkeeping and the vertex limit -/

theorem l1Step_tags (w distance : K) (n mp : Nat) (ls ds : List Int) (hls : ls.length = n)
    (hds : ds.length = n) (s : L1State K) (len turn : K)
    (hp : s.paths.length = n) (h1 : s.layers.length = s.polygons.length)
    (h2 : s.datatypes.length = s.polygons.length) :
    let s' := l1Step w distance n mp ls ds s len turn
    s'.paths.length = n ∧ s'.layers.length = s'.polygons.length ∧
      s'.datatypes.length = s'.polygons.length := by
  unfold l1Step
  simp only
  by_cases hz : s.points - 1 = 0
  · simp only [if_pos hz]
    simp [hp, h1, h2, hls, hds]
  · simp only [if_neg hz]
    simp [hp, h1, h2]

theorem l1Loop_tags (w distance : K) (n mp : Nat) (ls ds : List Int) (hls : ls.length = n)
    (hds : ds.length = n) (s s' : L1State K) (lens turns : List K)
    (hp : s.paths.length = n) (h1 : s.layers.length = s.polygons.length)
    (h2 : s.datatypes.length = s.polygons.length)
    (h : l1Loop w distance n mp ls ds s lens turns = .ok s') :
    s'.paths.length = n ∧ s'.layers.length = s'.polygons.length ∧
      s'.datatypes.length = s'.polygons.length := by
  induction turns generalizing s lens with
  | nil => cases lens <;> simp only [l1Loop, Except.ok.injEq] at h <;> subst h <;> exact ⟨hp, h1, h2⟩
  | cons t ts ih =>
    cases lens with
    | nil => simp [l1Loop] at h
    | cons len rest =>
      rw [l1Loop] at h
      obtain ⟨a, b, c⟩ := l1Step_tags w distance n mp ls ds hls hds s len t hp h1 h2
      exact ih _ _ a b c h

/-- **C47**, bookkeeping: an `L1Path` has as many layers and datatypes as polygons. -/
theorem C47_aligned {initial : Pt K} {direction : Dir K} {width : K} {length turn : List K}
    {n : Nat} {distance : K} {mp : Nat} {layer datatype : LayerArg} {p : L1Path K}
    (h : l1New initial direction width length turn n distance mp layer datatype = .ok p) :
    p.layers.length = p.polygons.length ∧ p.datatypes.length = p.polygons.length := by
  obtain ⟨ls, ds, d, s, last, e, h1, h2, h3, h4, h5, h6, rfl⟩ := l1New_inv h
  have hls : ls.length = n := by rw [expand_eq _ _ _ h1]; simp
  have hds : ds.length = n := by rw [expand_eq _ _ _ h2]; simp
  obtain ⟨a, b, c⟩ := l1Loop_tags _ _ _ _ _ _ hls hds _ _ _ _ (by simp) rfl rfl h4
  simp [a, b, c, hls, hds]

/-- The invariant of the loop: the two sides of every path have the same length, which with the counter
adds up to half the limit. -/
def L1Inv (half : Nat) (s : L1State K) : Prop :=
  0 < s.points ∧ ∃ k : Nat, (k : Int) + s.points = half ∧
    (∀ p ∈ s.paths, p.1.length = k ∧ p.2.length = k) ∧ ∀ q ∈ s.polygons, q.length ≤ 2 * half

theorem l1Move_length (s : L1State K) (w distance len turn : K) (n ii : Nat)
    (p : List (Pt K) × List (Pt K)) :
    (l1Move s w distance len turn n ii p).1.length = p.1.length + 1 ∧
    (l1Move s w distance len turn n ii p).2.length = p.2.length + 1 := by
  unfold l1Move
  simp only
  split <;> simp

theorem l1Step_inv (w distance : K) (n mp : Nat) (ls ds : List Int) (hmp : 3 ≤ mp / 2) (s : L1State K)
    (len turn : K) (h : L1Inv (mp / 2) s) :
    L1Inv (mp / 2) (l1Step w distance n mp ls ds s len turn) := by
  obtain ⟨hpos, k, hk, hpaths, hpol⟩ := h
  have hp' : ∀ q ∈ (s.paths.mapIdx fun ii p => l1Move s w distance len turn n ii p),
      q.1.length = k + 1 ∧ q.2.length = k + 1 := by
    intro q hq
    obtain ⟨i, hi, rfl⟩ := List.mem_mapIdx.1 hq
    have h1 := l1Move_length s w distance len turn n i s.paths[i]
    have h2 := hpaths _ (List.getElem_mem hi)
    rw [h1.1, h1.2, h2.1, h2.2]
    exact ⟨rfl, rfl⟩
  unfold l1Step
  simp only
  by_cases hz : s.points - 1 = 0
  · simp only [if_pos hz]
    refine ⟨by simp only; omega, 2, by simp only; omega, ?_, ?_⟩
    · intro p hp
      simp only at hp
      obtain ⟨q, _, rfl⟩ := List.mem_map.1 hp
      exact ⟨rfl, rfl⟩
    · intro q hq
      simp only at hq
      rcases List.mem_append.1 hq with hq | hq
      · exact hpol q hq
      · obtain ⟨p, hp, rfl⟩ := List.mem_map.1 hq
        obtain ⟨ha, hb⟩ := hp' p hp
        simp only [l1SplitPoly, List.length_append, List.length_dropLast, List.length_cons,
          List.length_nil, List.length_reverse, ha, hb]
        omega
  · simp only [if_neg hz]
    exact ⟨by simp only; omega, k + 1, by push_cast; omega, hp', hpol⟩

theorem l1Loop_inv (w distance : K) (n mp : Nat) (ls ds : List Int) (hmp : 3 ≤ mp / 2)
    (s s' : L1State K) (lens turns : List K) (hi : L1Inv (mp / 2) s)
    (h : l1Loop w distance n mp ls ds s lens turns = .ok s') : L1Inv (mp / 2) s' := by
  induction turns generalizing s lens with
  | nil => cases lens <;> simp only [l1Loop, Except.ok.injEq] at h <;> subst h <;> exact hi
  | cons t ts ih =>
    cases lens with
    | nil => simp [l1Loop] at h
    | cons len rest =>
      rw [l1Loop] at h
      exact ih _ _ (l1Step_inv w distance n mp ls ds hmp s len t hi) h

theorem l1Finish_length (s : L1State K) (len : K) (p : List (Pt K) × List (Pt K)) :
    (l1Finish s len p).1.length = p.1.length + 1 ∧ (l1Finish s len p).2.length = p.2.length + 1 := by
  unfold l1Finish
  split <;> simp

/-- **C47**, vertex limit: with `max_points` at least 6 no polygon of an `L1Path` has more vertices. -/
theorem C47_vertex_limit {initial : Pt K} {direction : Dir K} {width : K} {length turn : List K}
    {n : Nat} {distance : K} {mp : Nat} {layer datatype : LayerArg} {p : L1Path K}
    (h : l1New initial direction width length turn n distance mp layer datatype = .ok p)
    (hmp : 6 ≤ mp) : ∀ q ∈ p.polygons, q.length ≤ mp := by
  obtain ⟨ls, ds, d, s, last, e, h1, h2, h3, h4, h5, h6, rfl⟩ := l1New_inv h
  have h3' : 3 ≤ mp / 2 := by omega
  have hi : L1Inv (mp / 2) s := by
    refine l1Loop_inv _ _ _ _ _ _ h3' _ _ _ _ ⟨?_, 1, ?_, ?_, by simp⟩ h4
    · simp only [if_neg (by omega : ¬ mp = 0)]; omega
    · simp only [if_neg (by omega : ¬ mp = 0)]; push_cast; omega
    · intro p hp
      obtain ⟨ii, _, rfl⟩ := List.mem_map.1 hp
      unfold l1Start
      simp only
      split <;> exact ⟨rfl, rfl⟩
  obtain ⟨hpos, k, hk, hpaths, hpol⟩ := hi
  intro q hq
  simp only at hq
  rcases List.mem_append.1 hq with hq | hq
  · have := hpol q hq; omega
  · obtain ⟨p', hp', rfl⟩ := List.mem_map.1 hq
    obtain ⟨p, hp, rfl⟩ := List.mem_map.1 hp'
    have ha := l1Finish_length s last p
    have hb := hpaths p hp
    simp only [List.length_append, List.length_reverse, ha.1, ha.2, hb.1, hb.2]
    omega

/-! ### Concrete cases -/

def okVal {α : Type} : Py α → Option α
  | .ok a => some a
  | .error _ => none

/-- Two paths of five segments with a limit of six vertices. -/
example : (okVal (l1New ((0, 0) : Pt ℚ) .px 2 [10, 20, 30, 40, 50] [1, -1, -1, 1] 2 5 6
    (.list [1, 2]) (.one 0))).map
      (fun p => ((p.x, p.y), p.direction, p.layers, p.polygons.map List.length)) =
    some ((90, -20), .px, [1, 2, 1, 2, 1, 2, 1, 2], [6, 6, 6, 6, 6, 6, 6, 6]) := by
  decide +kernel

example : walkL1 ((0, 0) : Pt ℚ) (unitOf .px) [10, 20, 30, 40, 50] [1, -1, -1, 1] = ((90, -20), (1, 0)) := by
  decide +kernel

/-- **C47**, violated: right 10, then down 20. The polygon reaches y = -20 but the recorded end point
is (10, -10). -/
theorem C47_wrong_end :
    ∃ p : L1Path ℚ,
      l1New ((0, 0) : Pt ℚ) .px 2 [10, 20] [-1] 1 0 199 (.one 1) (.one 0) = .ok p ∧
      (walkL1 ((0, 0) : Pt ℚ) (unitOf .px) [10, 20] [-1]).1 = (10, -20) ∧
      (p.x, p.y) = (10, -10) ∧ p.direction = .my ∧
      p.polygons = [[(0, -1), (9, -1), (9, -20), (11, -20), (11, 1), (0, 1)]] := by
  refine ⟨⟨10, -10, .my, [[(0, -1), (9, -1), (9, -20), (11, -20), (11, 1), (0, 1)]], [1], [0]⟩, ?_,
    by decide +kernel, rfl, rfl, rfl⟩
  have h : okVal (l1New ((0, 0) : Pt ℚ) .px 2 [10, 20] [-1] 1 0 199 (.one 1) (.one 0)) =
      some ⟨10, -10, .my, [[(0, -1), (9, -1), (9, -20), (11, -20), (11, 1), (0, 1)]], [1], [0]⟩ := by
    decide +kernel
  generalize l1New ((0, 0) : Pt ℚ) .px 2 [10, 20] [-1] 1 0 199 (.one 1) (.one 0) = r at h
  cases r with
  | error e => simp [okVal] at h
  | ok a => simp only [okVal, Option.some.injEq] at h; rw [h]

/-- **C47**, no turn and direction −y: the constructor raises (`jj` is unbound). -/
theorem C47_no_turn_down (initial : Pt K) (width : K) (len : K) (distance : K) (mp : Nat) (a b : Int) :
    l1New initial .my width [len] [] 1 distance mp (.one a) (.one b) = .error .unboundLocal := by
  rfl

/-- **C47**, limits below 6 are not kept: with `max_points = 4` the path is cut once only. -/
theorem C47_small_limit :
    (okVal (l1New ((0, 0) : Pt ℚ) .px 2 [10, 20, 30, 40, 50] [1, -1, -1, 1] 1 0 4 (.one 1) (.one 0))).map
      (fun p => p.polygons.map List.length) = some [4, 12] := by
  decide +kernel

end Gdspy
