import Verif.Props.C59
import Mathlib.Data.List.Destutter

/-!
# C60: queries do not change what a FlexPath draws

`get_polygons` keeps its result in `_polygon_dict` until the next call that changes the path, and removes repeated
points from the path itself. The history with queries is compared with the same history without them.
-/

set_option linter.unusedSectionVars false

namespace Gdspy

open Spec

variable {K : Type}

/-! ## What can be relied upon -/

/-- Is the call a query? -/
def FlexOp.isQuery : FlexOp K → Bool
  | .polygons => true
  | .polygonset => true
  | .area => true
  | _ => false

/-- Points at which a query does no harm: no two consecutive ones are equal, or there are two, or the last two are
different and three or more are left if repetitions are removed. -/
def Spec.QuerySafe [DecidableEq K] (pts : List (Pt K)) : Prop :=
  pts.IsChain (· ≠ ·) ∨ pts.length = 2 ∨
    (3 ≤ (pts.destutter (· ≠ ·)).length ∧ ∃ pre q p, pts = pre ++ [q, p] ∧ q ≠ p)

section Lists

variable [Field K] [LinearOrder K]

theorem dedupFrom_append {α : Type} (p : Pt K) (a b : List (Pt K × α)) :
    dedupFrom p (a ++ b) = dedupFrom p a ++ dedupFrom (((a.map Prod.fst).getLast?).getD p) b := by
  induction a generalizing p with
  | nil => rfl
  | cons x a ih =>
    have hl : (((x :: a).map Prod.fst).getLast?).getD p = ((a.map Prod.fst).getLast?).getD x.1 := by
      rw [List.map_cons, List.getLast?_cons]; rfl
    rw [hl]
    rw [List.cons_append, dedupFrom, dedupFrom]
    split
    · exact ih x.1
    · rw [ih x.1]; rfl

theorem dedupRows_append {α : Type} {a : List (Pt K × α)} (ha : a ≠ []) (b : List (Pt K × α)) :
    dedupRows (a ++ b) = dedupRows a ++ dedupFrom (((a.map Prod.fst).getLast?).getD (0, 0)) b := by
  cases a with
  | nil => exact absurd rfl ha
  | cons x a =>
    rw [List.cons_append, dedupRows, dedupRows, dedupFrom_append, List.map_cons, List.getLast?_cons]
    rfl

theorem dedupFrom_last {α : Type} (p : Pt K) (a : List (Pt K × α)) :
    (((dedupFrom p a).map Prod.fst).getLast?).getD p = ((a.map Prod.fst).getLast?).getD p := by
  induction a generalizing p with
  | nil => rfl
  | cons x a ih =>
    rw [dedupFrom]
    split
    · rename_i h
      rw [List.map_cons, List.getLast?_cons, ← h, ih]
      rfl
    · rw [List.map_cons, List.getLast?_cons, List.map_cons, List.getLast?_cons, ih]

theorem dedupRows_last {α : Type} (a : List (Pt K × α)) :
    ((dedupRows a).map Prod.fst).getLast? = (a.map Prod.fst).getLast? := by
  cases a with
  | nil => rfl
  | cons x a =>
    rw [dedupRows, List.map_cons, List.getLast?_cons, List.map_cons, List.getLast?_cons, dedupFrom_last]

theorem dedupFrom_map {α β : Type} (T : Pt K → Pt K) (U : α → β) (p : Pt K) (a : List (Pt K × α)) :
    dedupFrom (T p) ((dedupFrom p a).map fun x => (T x.1, U x.2)) = dedupFrom (T p) (a.map fun x => (T x.1, U x.2)) := by
  induction a generalizing p with
  | nil => rfl
  | cons x a ih =>
    rw [dedupFrom]
    split
    · rename_i h
      rw [List.map_cons, dedupFrom, ← h, if_pos rfl]
      exact ih x.1
    · rw [List.map_cons, List.map_cons, dedupFrom, dedupFrom]
      simp only
      rw [ih x.1]

theorem dedupRows_map {α β : Type} (T : Pt K → Pt K) (U : α → β) (a : List (Pt K × α)) :
    dedupRows ((dedupRows a).map fun x => (T x.1, U x.2)) = dedupRows (a.map fun x => (T x.1, U x.2)) := by
  cases a with
  | nil => rfl
  | cons x a => rw [dedupRows, List.map_cons, List.map_cons, dedupRows, dedupRows, dedupFrom_map]

theorem dedupRows_idem {α : Type} (a : List (Pt K × α)) : dedupRows (dedupRows a) = dedupRows a := by
  have := dedupRows_map (α := α) (β := α) id id a
  simpa using this

theorem dedupFrom_destutter {α : Type} (p : Pt K) (a : List (Pt K × α)) :
    p :: (dedupFrom p a).map Prod.fst = List.destutter' (· ≠ ·) p (a.map Prod.fst) := by
  induction a generalizing p with
  | nil => rfl
  | cons x a ih =>
    rw [dedupFrom, List.map_cons, List.destutter'_cons]
    by_cases h : x.1 = p
    · rw [if_pos h, if_neg (by simp [h]), h]
      exact ih p
    · rw [if_neg h, if_pos (Ne.symm h), List.map_cons, ih]

theorem dedupRows_destutter {α : Type} (a : List (Pt K × α)) :
    (dedupRows a).map Prod.fst = List.destutter (· ≠ ·) (a.map Prod.fst) := by
  cases a with
  | nil => rfl
  | cons x a => exact dedupFrom_destutter x.1 a

theorem dedupFrom_sublist {α : Type} (p : Pt K) (a : List (Pt K × α)) : (dedupFrom p a).Sublist a := by
  induction a generalizing p with
  | nil => exact List.Sublist.refl _
  | cons x a ih =>
    rw [dedupFrom]
    split
    · exact (ih x.1).cons x
    · exact (ih x.1).cons_cons x

theorem dedupRows_sublist {α : Type} (a : List (Pt K × α)) : (dedupRows a).Sublist a := by
  cases a with
  | nil => exact List.Sublist.refl _
  | cons x a => exact (dedupFrom_sublist x.1 a).cons_cons x

end Lists

/-! ## The twin of a path: the same path with other rows -/

section Twin

variable [Field K]

def Flex.withRows (f : Flex K) (P : List (Pt K)) (W O : List (List K)) (c : Option (PolyDict K)) : Flex K :=
  { f with
    points := P
    widths := W
    offsets := O
    cache := c }

/-- What the construction methods look at. -/
structure LastEq (f : Flex K) (P : List (Pt K)) (W O : List (List K)) : Prop where
  last2 : P.reverse.take 2 = f.points.reverse.take 2
  lastW : lastRow W = lastRow f.widths
  lastO : lastRow O = lastRow f.offsets

theorem LastEq.tip {f : Flex K} {P : List (Pt K)} {W O : List (List K)} (h : LastEq f P W O)
    (c : Option (PolyDict K)) : (f.withRows P W O c).tip = f.tip := by
  have e : ∀ l : List (Pt K), l.getLastD (0, 0) = ((l.reverse.take 2).head?).getD (0, 0) := by
    intro l
    rw [List.getLastD_eq_getLast?, List.head?_take, if_neg (by decide), List.head?_reverse]
  show P.getLastD (0, 0) = f.points.getLastD (0, 0)
  rw [e, e, h.last2]

theorem lastRow_append (a b b' : List (List K)) (h : lastRow a = lastRow b) : lastRow (a ++ b') = lastRow (b ++ b') := by
  unfold lastRow at *
  rw [List.getLastD_eq_getLast?, List.getLastD_eq_getLast?] at *
  rw [List.getLast?_append, List.getLast?_append]
  cases b'.getLast? with
  | none => simpa using h
  | some x => rfl

theorem LastEq.append {f : Flex K} {P : List (Pt K)} {W O : List (List K)} (h : LastEq f P W O)
    (c : Option (PolyDict K)) (new : List (Pt K)) (ws os : List (List K)) :
    LastEq (f.appended c new ws os) (P ++ new) (W ++ ws) (O ++ os) := by
  refine ⟨?_, lastRow_append _ _ _ h.lastW, lastRow_append _ _ _ h.lastO⟩
  show ((P ++ new).reverse).take 2 = ((f.points ++ new).reverse).take 2
  rw [List.reverse_append, List.reverse_append, List.take_append, List.take_append]
  have : ∀ n ≤ 2, P.reverse.take n = f.points.reverse.take n := by
    intro n hn
    have := congrArg (List.take n) h.last2
    rwa [List.take_take, List.take_take, min_eq_left hn] at this
  rw [this _ (by omega)]

/-- A construction call that does the same to a path and its twin. -/
def Local (F : Flex K → Out (Flex K)) : Prop :=
  ∀ f g : Flex K, F f = (g, none) → ∃ c new ws os, g = f.appended c new ws os ∧
    (c = none ∨ (c = f.cache ∧ new = [] ∧ ws = [] ∧ os = [])) ∧
    ∀ P W O c0, LastEq f P W O → ∃ c', F (f.withRows P W O c0) = ((f.withRows P W O c0).appended c' new ws os, none) ∧
      (c' = none ∨ (c' = c0 ∧ new = [] ∧ ws = [] ∧ os = []))

theorem vstackRows_twin {a b new : List (List K)} (h : lastRow b = lastRow a)
    (hn : ∀ r ∈ new, r.length = (lastRow a).length) : vstackRows b new = .ok (b ++ new) := by
  unfold vstackRows
  rw [if_pos]
  rw [List.all_eq_true]
  intro r hr
  rw [h]
  exact decide_eq_true (hn r hr)

theorem segment_local (p : Pt K) (w o : FArg K) (rel : Bool) : Local (fun f : Flex K => f.segment p w o rel) := by
  intro f g h
  obtain ⟨q, ws, os, rfl, hq, hw, ho, l1, l2⟩ := segment_returns h
  refine ⟨none, [q], [ws], [os], rfl, Or.inl rfl, ?_⟩
  intro P W O c0 hl
  refine ⟨none, ?_, Or.inl rfl⟩
  have e1 : ∀ P' c', segWidth (f.withRows P' W O c') w = ws := by
    intro P' c'; rw [hw]; unfold segWidth Flex.withRows; simp only [hl.lastW]
  have e2 : ∀ P' W' c', segOffset (f.withRows P' W' O c') o = os := by
    intro P' W' c'; rw [ho]; unfold segOffset Flex.withRows; simp only [hl.lastO]
  have e3 : (if rel then ((f.withRows P W O c0).tip.1 + p.1, (f.withRows P W O c0).tip.2 + p.2) else p) = q := by
    rw [hl.tip, hq]
  have v1 := vstackRows_twin hl.lastW (new := [ws]) (fun r hr => by rw [List.mem_singleton.1 hr]; exact l1)
  have v2 := vstackRows_twin hl.lastO (new := [os]) (fun r hr => by rw [List.mem_singleton.1 hr]; exact l2)
  show Flex.segment p w o rel (f.withRows P W O c0) = _
  unfold Flex.segment
  simp only [e3]
  have d1 : segWidth { f.withRows P W O c0 with cache := none, points := (f.withRows P W O c0).points ++ [q] } w = ws :=
    e1 (P ++ [q]) none
  rw [d1]
  have d2 : (f.withRows P W O c0).widths = W := rfl
  rw [d2, v1]
  simp only
  have d3 : segOffset (f.withRows (P ++ [q]) (W ++ [ws]) O none) o = os := e2 _ _ _
  have d4 : (f.withRows P W O c0).offsets = O := rfl
  rw [d4]
  have d5 : ∀ z, z = segOffset (f.withRows (P ++ [q]) (W ++ [ws]) O none) o → vstackRows O [z] = .ok (O ++ [os]) := by
    intro z hz
    rw [hz, d3, v2]
  split
  · rename_i e he
    cases (d5 _ rfl).symm.trans he
  · rename_i os' he
    have := (d5 _ rfl).symm.trans he
    simp only [Except.ok.injEq] at this
    subst this
    rfl

theorem extend_local (new : List (Pt K)) (w o : FArg K) (f g : Flex K) (h : f.extend new w o = (g, none)) :
    ∃ ws os, g = f.appended f.cache new ws os ∧ ∀ P W O c0, LastEq f P W O →
      (f.withRows P W O c0).extend new w o = ((f.withRows P W O c0).appended c0 new ws os, none) := by
  obtain ⟨ws, os, rfl, t1, t2, l1, l2⟩ := extend_returns h
  refine ⟨ws, os, rfl, ?_⟩
  intro P W O c0 hl
  have e1 : (f.withRows P W O c0).finalWidth w = f.finalWidth w := by
    unfold Flex.finalWidth Flex.withRows; simp only [hl.lastW]
  have e2 : (f.withRows P W O c0).finalOffset o = f.finalOffset o := by
    unfold Flex.finalOffset Flex.withRows; simp only [hl.lastO]
  have v1 := vstackRows_twin hl.lastW l1
  have v2 := vstackRows_twin hl.lastO l2
  unfold Flex.extend
  simp only [e1, e2]
  have d2 : (f.withRows P W O c0).widths = W := rfl
  have d4 : (f.withRows P W O c0).offsets = O := rfl
  rw [d2, d4, hl.lastW, hl.lastO, t1, t2]
  simp only [bind, Except.bind, v1, v2]
  rfl

end Twin

section Calls

variable [Field K] [LinearOrder K] [FloorRing K]

theorem arc_local (t : Num K) (r ia fa : K) (w o : FArg K) : Local (fun f : Flex K => f.arc t r ia fa w o) := by
  intro f g h
  have h' : f.arc t r ia fa w o = (g, none) := h
  unfold Flex.arc at h'
  simp only at h'
  split at h'
  · cases h'
  · rename_i np hnp
    obtain ⟨ws, os, rfl, hx⟩ := extend_local _ _ _ _ _ h'
    refine ⟨none, _, ws, os, rfl, Or.inl rfl, ?_⟩
    intro P W O c0 hl
    refine ⟨none, ?_, Or.inl rfl⟩
    show Flex.arc t r ia fa w o (f.withRows P W O c0) = _
    unfold Flex.arc
    simp only
    have ea : Flex.arcPoints t r ia fa (Flex.widthArg { f.withRows P W O c0 with cache := none } w) o
        { f.withRows P W O c0 with cache := none } =
        Flex.arcPoints t r ia fa (Flex.widthArg { f with cache := none } w) o { f with cache := none } := by
      unfold Flex.arcPoints Flex.finalOffset Flex.finalWidth Flex.widthArg Flex.withRows
      simp only [hl.lastW, hl.lastO]
    rw [ea, hnp]
    simp only
    have et : ({ f.withRows P W O c0 with cache := none } : Flex K).tip = ({ f with cache := none } : Flex K).tip :=
      hl.tip none
    rw [et]
    exact hx P W O none ⟨hl.last2, hl.lastW, hl.lastO⟩

theorem turn_local (t : Num K) (r : K) (a : TurnArg K) (w o : FArg K) :
    Local (fun f : Flex K => f.turn t r a w o) := by
  intro f g h
  have h' : f.turn t r a w o = (g, none) := h
  unfold Flex.turn at h'
  simp only at h'
  split at h'
  · rename_i p q rest hrev
    obtain ⟨c, new, ws, os, rfl, hc, hx⟩ := arc_local _ _ _ _ _ _ _ _ h'
    refine ⟨c, new, ws, os, rfl, ?_, ?_⟩
    · rcases hc with rfl | ⟨rfl, _⟩ <;> exact Or.inl rfl
    · intro P W O c0 hl
      obtain ⟨c', hx, hc'⟩ := hx P W O none ⟨hl.last2, hl.lastW, hl.lastO⟩
      refine ⟨c', ?_, ?_⟩
      · show Flex.turn t r a w o (f.withRows P W O c0) = _
        unfold Flex.turn
        simp only
        have hl2 := hl.last2
        rw [hrev] at hl2
        obtain ⟨rest', hrev'⟩ : ∃ rest', P.reverse = p :: q :: rest' := by
          cases hP : P.reverse with
          | nil => rw [hP] at hl2; cases hl2
          | cons x l => cases l with
            | nil => rw [hP] at hl2; cases hl2
            | cons y l =>
              rw [hP] at hl2
              simp only [List.take_succ_cons, List.take_zero, List.cons.injEq, and_true] at hl2
              exact ⟨l, by rw [hl2.1, hl2.2]⟩
        have : (f.withRows P W O c0).points.reverse = p :: q :: rest' := hrev'
        rw [this]
        exact hx
      · rcases hc' with rfl | ⟨rfl, _⟩ <;> exact Or.inl rfl
  · cases h'

theorem parametric_local (fuel : Nat) (c : K → Pt K) (w o : FArg K) (rel : Bool) :
    Local (fun f : Flex K => f.parametric fuel c w o rel) := by
  intro f g h
  have h' : f.parametric fuel c w o rel = (g, none) := h
  unfold Flex.parametric at h'
  simp only at h'
  split at h'
  · cases h'
  · rename_i samples hs
    obtain ⟨ws, os, rfl, hx⟩ := extend_local _ _ _ _ _ h'
    refine ⟨none, _, ws, os, rfl, Or.inl rfl, ?_⟩
    intro P W O c0 hl
    refine ⟨none, ?_, Or.inl rfl⟩
    show Flex.parametric fuel c w o rel (f.withRows P W O c0) = _
    unfold Flex.parametric
    simp only
    have hs' : subLoop c ((f.withRows P W O c0).tolerance ^ 2) none fuel [] (0, c 0) [(1, c 1)] = some samples := hs
    rw [hs']
    simp only
    have et : ({ f.withRows P W O c0 with cache := none } : Flex K).tip = ({ f with cache := none } : Flex K).tip :=
      hl.tip none
    rw [et]
    exact hx P W O none ⟨hl.last2, hl.lastW, hl.lastO⟩

theorem ctrl_twin {f : Flex K} {P : List (Pt K)} {W O : List (List K)} (hl : LastEq f P W O)
    (c0 : Option (PolyDict K)) (pts : List (Pt K)) (rel : Bool) :
    (f.withRows P W O c0).ctrl pts rel = f.ctrl pts rel := by
  unfold Flex.ctrl
  rw [hl.tip]

theorem bezier_local (fuel : Nat) (pts : List (Pt K)) (w o : FArg K) (rel : Bool) :
    Local (fun f : Flex K => f.bezier fuel pts w o rel) := by
  intro f g h
  have h' : f.bezier fuel pts w o rel = (g, none) := h
  unfold Flex.bezier at h'
  simp only at h'
  split at h'
  · cases h'
  · rename_i hne
    obtain ⟨c, new, ws, os, rfl, hc, hx⟩ := parametric_local _ _ _ _ _ _ _ h'
    refine ⟨c, new, ws, os, rfl, ?_, ?_⟩
    · rcases hc with rfl | ⟨rfl, _⟩ <;> exact Or.inl rfl
    · intro P W O c0 hl
      obtain ⟨c', hx, hc'⟩ := hx P W O none ⟨hl.last2, hl.lastW, hl.lastO⟩
      refine ⟨c', ?_, ?_⟩
      · show Flex.bezier fuel pts w o rel (f.withRows P W O c0) = _
        unfold Flex.bezier
        simp only
        rw [if_neg hne]
        have ec : Flex.ctrl pts rel { f.withRows P W O c0 with cache := none } = Flex.ctrl pts rel { f with cache := none } :=
          ctrl_twin hl none pts rel
        rw [ec]
        exact hx
      · rcases hc' with rfl | ⟨rfl, _⟩ <;> exact Or.inl rfl

theorem appended_appended (f : Flex K) (c c' : Option (PolyDict K)) (p p' : List (Pt K)) (w w' o o' : List (List K)) :
    (f.appended c p w o).appended c' p' w' o' = f.appended c' (p ++ p') (w ++ w') (o ++ o') := by
  unfold Flex.appended
  simp

theorem forOut_local {α : Type} (F : α → Flex K → Out (Flex K)) (hF : ∀ a, Local (F a)) (l : List α) :
    Local (fun f : Flex K => forOut (fun g a => F a g) f l) := by
  induction l with
  | nil =>
    intro f g h
    simp only [forOut, Prod.mk.injEq, and_true] at h
    subst h
    refine ⟨f.cache, [], [], [], by simp [Flex.appended], Or.inr ⟨rfl, rfl, rfl, rfl⟩, ?_⟩
    intro P W O c0 hl
    exact ⟨c0, by simp [forOut, Flex.appended, Flex.withRows], Or.inr ⟨rfl, rfl, rfl, rfl⟩⟩
  | cons a l ih =>
    intro f g h
    simp only [forOut] at h
    cases hb : F a f with
    | mk f' e' =>
      rw [hb] at h
      cases e' with
      | some e' => cases h
      | none =>
        simp only at h
        obtain ⟨c1, n1, w1, o1, rfl, hc1, hx1⟩ := hF a f f' hb
        obtain ⟨c2, n2, w2, o2, rfl, hc2, hx2⟩ := ih _ g h
        refine ⟨c2, n1 ++ n2, w1 ++ w2, o1 ++ o2, appended_appended _ _ _ _ _ _ _ _ _, ?_, ?_⟩
        · rcases hc2 with rfl | ⟨rfl, rfl, rfl, rfl⟩
          · exact Or.inl rfl
          · rcases hc1 with rfl | ⟨rfl, rfl, rfl, rfl⟩
            · exact Or.inl rfl
            · exact Or.inr ⟨rfl, rfl, rfl, rfl⟩
        · intro P W O c0 hl
          obtain ⟨c1', hx1, hc1'⟩ := hx1 P W O c0 hl
          have hl2 := hl.append c1 n1 w1 o1
          have e : (f.appended c1 n1 w1 o1).withRows (P ++ n1) (W ++ w1) (O ++ o1) c1' =
              (f.withRows P W O c0).appended c1' n1 w1 o1 := rfl
          obtain ⟨c2', hx2, hc2'⟩ := hx2 _ _ _ c1' hl2
          rw [e] at hx2
          refine ⟨c2', ?_, ?_⟩
          · simp only [forOut]
            rw [hx1]
            simp only
            rw [← appended_appended]
            exact hx2
          · rcases hc2' with rfl | ⟨rfl, rfl, rfl, rfl⟩
            · exact Or.inl rfl
            · rcases hc1' with rfl | ⟨rfl, rfl, rfl, rfl⟩
              · exact Or.inl rfl
              · exact Or.inr ⟨rfl, rfl, rfl, rfl⟩

theorem smooth_local (fuel : Nat) (hobby : Hobby K) (pts : List (Pt K)) (cyc : Bool) (w o : FArg K) (rel : Bool) :
    Local (fun f : Flex K => f.smooth fuel hobby pts cyc w o rel) := by
  intro f g h
  have h' : f.smooth fuel hobby pts cyc w o rel = (g, none) := h
  unfold Flex.smooth at h'
  split at h'
  · cases h'
  · rename_i hne
    split at h'
    · cases h'
    · rename_i cta ctb hh
      split at h'
      · cases h'
      · rename_i l hl'
        obtain ⟨c, new, ws, os, rfl, hc, hx⟩ :=
          forOut_local (fun p g => Flex.bezier fuel p w o false g) (fun p => bezier_local fuel p w o false) l f g h'
        refine ⟨c, new, ws, os, rfl, hc, ?_⟩
        intro P W O c0 hl
        obtain ⟨c', hx, hc'⟩ := hx P W O c0 hl
        refine ⟨c', ?_, hc'⟩
        show Flex.smooth fuel hobby pts cyc w o rel (f.withRows P W O c0) = _
        unfold Flex.smooth
        rw [if_neg hne, ctrl_twin hl, hh]
        simp only
        rw [hl']
        exact hx

/-! ## The rows after the repetitions are removed -/

/-- The points with their rows. -/
def Flex.rows (f : Flex K) : List (Pt K × List K × List K) := List.zip f.points (List.zip f.widths f.offsets)

theorem Spec.FlexAligned.rows_fst {f : Flex K} (h : FlexAligned f) : f.rows.map Prod.fst = f.points := by
  unfold Flex.rows
  exact List.map_fst_zip (by simp [h.widths, h.offsets])

theorem Spec.FlexAligned.rows_w {f : Flex K} (h : FlexAligned f) : f.rows.map (fun x => x.2.1) = f.widths := by
  unfold Flex.rows
  have : (fun x : Pt K × List K × List K => x.2.1) = Prod.fst ∘ Prod.snd := rfl
  rw [this, ← List.map_map, List.map_snd_zip (by simp [h.widths, h.offsets]), List.map_fst_zip (by simp [h.widths, h.offsets])]

theorem Spec.FlexAligned.rows_o {f : Flex K} (h : FlexAligned f) : f.rows.map (fun x => x.2.2) = f.offsets := by
  unfold Flex.rows
  have : (fun x : Pt K × List K × List K => x.2.2) = Prod.snd ∘ Prod.snd := rfl
  rw [this, ← List.map_map, List.map_snd_zip (by simp [h.widths, h.offsets]), List.map_snd_zip (by simp [h.widths, h.offsets])]

theorem dedupFrom_unit {α : Type} (p : Pt K) (l : List (Pt K × α)) :
    (dedupFrom p (l.map fun x => (x.1, ()))).length = (dedupFrom p l).length := by
  induction l generalizing p with
  | nil => rfl
  | cons x l ih =>
    rw [List.map_cons, dedupFrom, dedupFrom]
    split <;> simp [ih]

theorem dedupRows_unit {α : Type} (l : List (Pt K × α)) :
    (dedupRows (l.map fun x => (x.1, ()))).length = (dedupRows l).length := by
  cases l with
  | nil => rfl
  | cons x l => simp [dedupRows, dedupFrom_unit]

theorem dedup_eq {f : Flex K} (h : FlexAligned f) :
    f.dedup = f.withRows ((dedupRows f.rows).map Prod.fst) ((dedupRows f.rows).map fun x => x.2.1)
      ((dedupRows f.rows).map fun x => x.2.2) f.cache := by
  unfold Flex.dedup
  split
  · rename_i hlen
    have e : (f.points.map fun p => (p, ())) = f.rows.map fun x => (x.1, ()) := by
      rw [← h.rows_fst, List.map_map]; rfl
    rw [e, dedupRows_unit, ← h.rows_fst, List.length_map] at hlen
    have : dedupRows f.rows = f.rows := (dedupRows_sublist f.rows).eq_of_length hlen
    rw [this, h.rows_fst, h.rows_w, h.rows_o]
    rfl
  · rfl

theorem dedup_of_chain {f : Flex K} (h : FlexAligned f) (hc : f.points.IsChain (· ≠ ·)) : dedupRows f.rows = f.rows := by
  have e := dedupRows_destutter f.rows
  rw [h.rows_fst, (List.destutter_eq_self_iff (R := (· ≠ ·)) f.points).2 hc] at e
  refine (dedupRows_sublist f.rows).eq_of_length ?_
  have := congrArg List.length e
  rw [List.length_map] at this
  rw [this, ← h.rows_fst, List.length_map]

theorem zip_map_rows {f : Flex K} (k : List (Pt K × List K × List K)) (c : Option (PolyDict K)) :
    (f.withRows (k.map Prod.fst) (k.map fun x => x.2.1) (k.map fun x => x.2.2) c).rows = k := by
  unfold Flex.rows Flex.withRows
  simp only
  induction k with
  | nil => rfl
  | cons x k ih => simp only [List.map_cons, List.zip_cons_cons, ih]

/-! ## Twins -/

/-- `g` is `f` except for repetitions of points that do not matter, and the cache. -/
structure Twins (f g : Flex K) : Prop where
  eq : g = f.withRows g.points g.widths g.offsets g.cache
  last : LastEq f g.points g.widths g.offsets
  same : (g.points = f.points ∧ g.widths = f.widths ∧ g.offsets = f.offsets) ∨
    (3 ≤ g.points.length ∧ 3 ≤ f.points.length ∧ dedupRows g.rows = dedupRows f.rows)

theorem Twins.refl (f : Flex K) (c : Option (PolyDict K)) : Twins f { f with cache := c } :=
  ⟨rfl, ⟨rfl, rfl, rfl⟩, Or.inl ⟨rfl, rfl, rfl⟩⟩

theorem Twins.cache_left {f g : Flex K} (h : Twins f g) (c : Option (PolyDict K)) : Twins { f with cache := c } g :=
  ⟨h.eq, ⟨h.last.last2, h.last.lastW, h.last.lastO⟩, h.same⟩

theorem rows_appended {f : Flex K} (h : FlexAligned f) (c : Option (PolyDict K)) (new : List (Pt K))
    (ws os : List (List K)) : (f.appended c new ws os).rows = f.rows ++ List.zip new (List.zip ws os) := by
  unfold Flex.rows Flex.appended
  simp only
  rw [List.zip_append (by rw [h.widths, h.offsets]), List.zip_append (by simp [h.widths, h.offsets])]

theorem Twins.tip_pt {f g : Flex K} (h : Twins f g) : g.points.getLast? = f.points.getLast? := by
  have e : ∀ l : List (Pt K), l.getLast? = (l.reverse.take 2).head? := by
    intro l
    rw [List.head?_take, if_neg (by decide), List.head?_reverse]
  rw [e, e, h.last.last2]

theorem Twins.append {f g : Flex K} (hf : FlexAligned f) (hg : FlexAligned g) (h : Twins f g)
    (c c' : Option (PolyDict K)) (new : List (Pt K)) (ws os : List (List K)) :
    Twins (f.appended c new ws os) (g.appended c' new ws os) := by
  refine ⟨?_, h.last.append c new ws os, ?_⟩
  · rw [h.eq]; rfl
  · rcases h.same with ⟨h1, h2, h3⟩ | ⟨h1, h2, h3⟩
    · left
      simp [Flex.appended, h1, h2, h3]
    · right
      refine ⟨by simp only [Flex.appended, List.length_append]; omega,
        by simp only [Flex.appended, List.length_append]; omega, ?_⟩
      have nf : f.rows ≠ [] := by
        intro h0; have := hf.rows_fst; rw [h0] at this; exact hf.nonempty this.symm
      have ng : g.rows ≠ [] := by
        intro h0; have := hg.rows_fst; rw [h0] at this; exact hg.nonempty this.symm
      rw [rows_appended hf, rows_appended hg, dedupRows_append nf, dedupRows_append ng, h3, hf.rows_fst, hg.rows_fst,
        h.tip_pt]

/-- What the transformations do to the rows. -/
theorem Twins.map {f g : Flex K} (hf : FlexAligned f) (hg : FlexAligned g) (h : Twins f g) (T : Pt K → Pt K)
    (U V : List K → List K) (E : List (FlexEnd K)) (c c' : Option (PolyDict K)) :
    Twins
      { f with
        cache := c
        points := f.points.map T
        widths := f.widths.map U
        offsets := f.offsets.map V
        ends := E }
      { g with
        cache := c'
        points := g.points.map T
        widths := g.widths.map U
        offsets := g.offsets.map V
        ends := E } := by
  have hrows : ∀ (f : Flex K) (E : List (FlexEnd K)) (c : Option (PolyDict K)), Flex.rows
      { f with
        cache := c
        points := f.points.map T
        widths := f.widths.map U
        offsets := f.offsets.map V
        ends := E } = f.rows.map fun x => (T x.1, Prod.map U V x.2) := by
    intro f E c
    unfold Flex.rows
    simp only
    rw [List.zip_map, List.zip_map]
    rfl
  have hlast : ∀ (a b : List (List K)) (F : List K → List K), a ≠ [] → b ≠ [] → lastRow a = lastRow b →
      lastRow (a.map F) = lastRow (b.map F) := by
    intro a b F ha hb hab
    unfold lastRow at *
    rw [List.getLastD_eq_getLast?, List.getLastD_eq_getLast?] at *
    rw [List.getLast?_map, List.getLast?_map]
    rw [List.getLast?_eq_some_getLast ha, List.getLast?_eq_some_getLast hb] at *
    simp only [Option.getD_some] at hab
    rw [hab]
  refine ⟨?_, ⟨?_, ?_, ?_⟩, ?_⟩
  · rw [h.eq]; rfl
  · show (g.points.map T).reverse.take 2 = (f.points.map T).reverse.take 2
    rw [← List.map_reverse, ← List.map_reverse, ← List.map_take, ← List.map_take, h.last.last2]
  · exact hlast _ _ U hg.widths_ne hf.widths_ne h.last.lastW
  · exact hlast _ _ V hg.offsets_ne hf.offsets_ne h.last.lastO
  · rcases h.same with ⟨h1, h2, h3⟩ | ⟨h1, h2, h3⟩
    · left
      simp only [h1, h2, h3, and_self]
    · right
      refine ⟨by simpa using h1, by simpa using h2, ?_⟩
      rw [hrows, hrows, ← dedupRows_map T (Prod.map U V) g.rows, h3, dedupRows_map]

/-! ## The polygons of twins -/

theorem pathPolys_cache (ctx : FlexCtx K) (f : Flex K) (F : Nat → Py (Pgon K)) (P : List (Pt K)) (W O : List (List K))
    (c : Option (PolyDict K)) : Flex.pathPolys ctx (f.withRows P W O c) F = Flex.pathPolys ctx f F := by
  funext d k
  rfl

theorem twoOf_cache (ctx : FlexCtx K) (f : Flex K) (c : Option (PolyDict K)) :
    Flex.twoOf ctx { f with cache := c } = Flex.twoOf ctx f := rfl

theorem manyOf_cache (ctx : FlexCtx K) (f : Flex K) (c : Option (PolyDict K)) :
    Flex.manyOf ctx { f with cache := c } = Flex.manyOf ctx f := rfl

theorem compute_cache (ctx : FlexCtx K) (f : Flex K) (c : Option (PolyDict K)) :
    (Flex.compute ctx { f with cache := c }).2 = (f.compute ctx).2 := by
  unfold Flex.compute
  simp only
  by_cases h2 : f.points.length = 2
  · rw [if_pos h2, if_pos h2]
    split
    · split <;> rfl
    · rfl
  · rw [if_neg h2, if_neg h2]
    have e : Flex.dedup { f with cache := c } = { f.dedup with cache := c } := by
      unfold Flex.dedup
      simp only
      split <;> rfl
    rw [e]
    rfl

theorem compute_twins (ctx : FlexCtx K) {f g : Flex K} (hf : FlexAligned f) (hg : FlexAligned g) (h : Twins f g) :
    (g.compute ctx).2 = (f.compute ctx).2 := by
  rcases h.same with ⟨h1, h2, h3⟩ | ⟨h1, h2, h3⟩
  · have : g = { f with cache := g.cache } := by
      conv_lhs => rw [h.eq, h1, h2, h3]
      rfl
    rw [this, compute_cache]
  · unfold Flex.compute
    rw [if_neg (by omega), if_neg (by omega), dedup_eq hf, dedup_eq hg, h3]
    have : g.withRows ((dedupRows f.rows).map Prod.fst) ((dedupRows f.rows).map fun x => x.2.1)
        ((dedupRows f.rows).map fun x => x.2.2) g.cache =
        { f.withRows ((dedupRows f.rows).map Prod.fst) ((dedupRows f.rows).map fun x => x.2.1)
        ((dedupRows f.rows).map fun x => x.2.2) f.cache with cache := g.cache } := by
      conv_lhs => rw [h.eq]
      rfl
    rw [this]
    rfl

/-- The cache is right. -/
def CacheOk (ctx : FlexCtx K) (f : Flex K) : Prop := ∀ d, f.cache = some d → (f.compute ctx).2 = (d, none)

theorem getPolygons_of (ctx : FlexCtx K) {f : Flex K} (h : CacheOk ctx f) :
    (f.getPolygons ctx).2 = match (f.compute ctx).2 with
      | (d, none) => .ok d
      | (_, some e) => .error e := by
  unfold Flex.getPolygons
  split
  · rename_i d hd
    rw [h d hd]
  · cases f.compute ctx with
    | mk x y => cases y with
      | mk d e => cases e <;> rfl

theorem getPolygons_twins (ctx : FlexCtx K) {f g : Flex K} (hf : FlexAligned f) (hg : FlexAligned g) (h : Twins f g)
    (cf : CacheOk ctx f) (cg : CacheOk ctx g) : (f.getPolygons ctx).2 = (g.getPolygons ctx).2 := by
  rw [getPolygons_of ctx cf, getPolygons_of ctx cg, compute_twins ctx hf hg h]

theorem toPolygonset_twins (ctx : FlexCtx K) {f g : Flex K} (hf : FlexAligned f) (hg : FlexAligned g) (h : Twins f g)
    (cf : CacheOk ctx f) (cg : CacheOk ctx g) : (f.toPolygonset ctx).2 = (g.toPolygonset ctx).2 := by
  have e := getPolygons_twins ctx hf hg h cf cg
  have hl : f.points.length < 2 ↔ g.points.length < 2 := by
    rcases h.same with ⟨h1, _⟩ | ⟨h1, h2, _⟩
    · rw [h1]
    · constructor <;> intro h <;> omega
  have e1 : g.precision = f.precision := by rw [h.eq]; rfl
  have e2 : g.maxPoints = f.maxPoints := by rw [h.eq]; rfl
  unfold Flex.toPolygonset
  by_cases h0 : f.points.length < 2
  · rw [if_pos h0, if_pos (hl.1 h0)]
  · rw [if_neg h0, if_neg (fun h' => h0 (hl.2 h')), e1, e2]
    generalize f.getPolygons ctx = x at e
    generalize g.getPolygons ctx = y at e
    obtain ⟨x1, x2⟩ := x
    obtain ⟨y1, y2⟩ := y
    simp only at e
    subst e
    cases x2 <;> rfl

theorem area_twins (ctx : FlexCtx K) {f g : Flex K} (hf : FlexAligned f) (hg : FlexAligned g) (h : Twins f g)
    (cf : CacheOk ctx f) (cg : CacheOk ctx g) : (f.area ctx).2 = (g.area ctx).2 := by
  have e := toPolygonset_twins ctx hf hg h cf cg
  unfold Flex.area
  generalize f.toPolygonset ctx = x at e
  generalize g.toPolygonset ctx = y at e
  obtain ⟨x1, x2⟩ := x
  obtain ⟨y1, y2⟩ := y
  simp only at e
  subst e
  cases x2 with
  | error e => rfl
  | ok o => cases o <;> rfl

/-! ## One call -/

theorem local_step {ctx : FlexCtx K} {F : Flex K → Out (Flex K)} (hF : Local F) {f g f' : Flex K}
    (hf : FlexAligned f) (hg : FlexAligned g) (h : Twins f g) (cf : CacheOk ctx f) (cg : CacheOk ctx g)
    (hr : F f = (f', none)) : ∃ g', F g = (g', none) ∧ Twins f' g' ∧ CacheOk ctx f' ∧ CacheOk ctx g' := by
  obtain ⟨c, new, ws, os, rfl, hc, hx⟩ := hF f f' hr
  obtain ⟨c', hx, hc'⟩ := hx _ _ _ g.cache h.last
  rw [← h.eq] at hx
  refine ⟨_, hx, h.append hf hg c c' new ws os, ?_, ?_⟩
  · rcases hc with rfl | ⟨rfl, rfl, rfl, rfl⟩
    · intro d hd; cases hd
    · have : f.appended f.cache [] [] [] = f := by simp [Flex.appended]
      rw [this]; exact cf
  · rcases hc' with rfl | ⟨rfl, rfl, rfl, rfl⟩
    · intro d hd; cases hd
    · have : g.appended g.cache [] [] [] = g := by simp [Flex.appended]
      rw [this]; exact cg

theorem build_step {ctx : FlexCtx K} {op : FlexOp K} (hop : op.isQuery = false) {f g f' : Flex K}
    (hf : FlexAligned f) (hg : FlexAligned g) (h : Twins f g) (cf : CacheOk ctx f) (cg : CacheOk ctx g)
    (hr : f.run ctx op = (f', none)) :
    ∃ g', g.run ctx op = (g', none) ∧ Twins f' g' ∧ CacheOk ctx f' ∧ CacheOk ctx g' := by
  have nocache : ∀ (x : Flex K), x.cache = none → CacheOk ctx x := by
    intro x hx d hd; rw [hx] at hd; cases hd
  cases op with
  | segment p w o r => exact local_step (segment_local p w o r) hf hg h cf cg hr
  | arc r ia fa w o => exact local_step (arc_local ctx.num r ia fa w o) hf hg h cf cg hr
  | turn r a w o => exact local_step (turn_local ctx.num r a w o) hf hg h cf cg hr
  | parametric c w o r => exact local_step (parametric_local ctx.fuel c w o r) hf hg h cf cg hr
  | bezier p w o r => exact local_step (bezier_local ctx.fuel p w o r) hf hg h cf cg hr
  | smooth hb p c w o r => exact local_step (smooth_local ctx.fuel hb p c w o r) hf hg h cf cg hr
  | translate dx dy =>
    simp only [Flex.run, Prod.mk.injEq, and_true] at hr
    subst hr
    refine ⟨_, rfl, ?_, nocache _ rfl, nocache _ rfl⟩
    have := h.map hf hg (fun p => (p.1 + dx, p.2 + dy)) id id f.ends none none
    simp only [List.map_id] at this
    have he : f.ends = g.ends := by rw [h.eq]; rfl
    conv at this => rhs; rw [he]
    exact this
  | rotate a c =>
    simp only [Flex.run, Prod.mk.injEq, and_true] at hr
    subst hr
    refine ⟨_, rfl, ?_, nocache _ rfl, nocache _ rfl⟩
    have := h.map hf hg (spinPt (ctx.num.cos a) (ctx.num.sin a) c) id id f.ends none none
    simp only [List.map_id] at this
    have he : f.ends = g.ends := by rw [h.eq]; rfl
    conv at this => rhs; rw [he]
    exact this
  | scale s c =>
    simp only [Flex.run, Prod.mk.injEq, and_true] at hr
    subst hr
    refine ⟨_, rfl, ?_, nocache _ rfl, nocache _ rfl⟩
    have h1 : g.widthTransform = f.widthTransform := by rw [h.eq]; rfl
    have h2 : g.gdsiiPath = f.gdsiiPath := by rw [h.eq]; rfl
    have he : g.ends = f.ends := by rw [h.eq]; rfl
    by_cases hw : (f.widthTransform || !f.gdsiiPath) = true
    · have := h.map hf hg (fun p => (p.1 * s + c.1 * (1 - s), p.2 * s + c.2 * (1 - s))) (List.map (· * s))
        (List.map (· * s)) (f.ends.map (FlexEnd.scale s)) none none
      unfold Flex.scale
      rw [he, if_pos hw, if_pos (h1 ▸ h2 ▸ hw)]
      exact this
    · have := h.map hf hg (fun p => (p.1 * s + c.1 * (1 - s), p.2 * s + c.2 * (1 - s))) id
        (List.map (· * s)) (f.ends.map (FlexEnd.scale s)) none none
      simp only [List.map_id] at this
      unfold Flex.scale
      rw [he, if_neg hw, if_neg (h1 ▸ h2 ▸ hw)]
      exact this
  | transform tr r s x a =>
    simp only [Flex.run, Prod.mk.injEq, and_true] at hr
    subst hr
    refine ⟨_, rfl, ?_, nocache _ rfl, nocache _ rfl⟩
    have h1 : g.widthTransform = f.widthTransform := by rw [h.eq]; rfl
    have h2 : g.gdsiiPath = f.gdsiiPath := by rw [h.eq]; rfl
    have he : g.ends = f.ends := by rw [h.eq]; rfl
    cases s with
    | none =>
      have := h.map hf hg (transformPt ctx.num tr r none x a) id id f.ends none none
      simp only [List.map_id] at this
      conv at this => rhs; rw [← he]
      exact this
    | some s =>
      by_cases hw : (f.widthTransform || !f.gdsiiPath) = true
      · have := h.map hf hg (transformPt ctx.num tr r (some s) x a) (List.map (· * s)) (List.map (· * s)) f.ends none none
        conv at this => rhs; rw [← he]
        unfold Flex.transform
        simp only
        rw [if_pos hw, if_pos (h1 ▸ h2 ▸ hw)]
        exact this
      · have := h.map hf hg (transformPt ctx.num tr r (some s) x a) id (List.map (· * s)) f.ends none none
        simp only [List.map_id] at this
        conv at this => rhs; rw [← he]
        unfold Flex.transform
        simp only
        rw [if_neg hw, if_neg (h1 ▸ h2 ▸ hw)]
        exact this
  | polygons => cases hop
  | polygonset => cases hop
  | area => cases hop

/-- A query at a safe moment: the path is a twin of itself before, and the cache is right. -/
theorem getPolygons_step {ctx : FlexCtx K} {f : Flex K} (hf : FlexAligned f) (hs : QuerySafe f.points)
    (cf : CacheOk ctx f) (hr : errOf (f.getPolygons ctx).2 = none) :
    Twins (f.getPolygons ctx).1 f ∧ CacheOk ctx (f.getPolygons ctx).1 := by
  have hself : Twins f f := ⟨rfl, ⟨rfl, rfl, rfl⟩, Or.inl ⟨rfl, rfl, rfl⟩⟩
  cases hc : f.cache with
  | some d =>
    have e : (f.getPolygons ctx).1 = f := by unfold Flex.getPolygons; rw [hc]
    rw [e]
    exact ⟨hself, cf⟩
  | none =>
    have e : ∃ d, (f.compute ctx).2 = (d, none) ∧ (f.getPolygons ctx).1 = { (f.compute ctx).1 with cache := some d } := by
      unfold Flex.getPolygons at hr ⊢
      rw [hc] at hr ⊢
      simp only at hr ⊢
      cases hcm : f.compute ctx with
      | mk x y => cases y with
        | mk d e =>
          rw [hcm] at hr
          cases e with
          | none => exact ⟨d, rfl, rfl⟩
          | some e => cases hr
    obtain ⟨d, hd, e⟩ := e
    rw [e]
    by_cases h2 : f.points.length = 2
    · have e1 : (f.compute ctx).1 = f := by
        unfold Flex.compute
        rw [if_pos h2]
        split
        · split <;> rfl
        · rfl
      rw [e1]
      refine ⟨hself.cache_left _, ?_⟩
      intro d' hd'
      obtain rfl : d = d' := Option.some.inj hd'
      rw [compute_cache]
      exact hd
    · have e1 : (f.compute ctx).1 = f.dedup := by
        unfold Flex.compute
        rw [if_neg h2]
      have hda := dedup_aligned hf
      -- the path without repetitions is a twin
      have htw : Twins f.dedup f := by
        rcases hs with hs | hs | ⟨h3, pre, q, p, hp, hqp⟩
        · have := dedup_of_chain hf hs
          rw [dedup_eq hf, this, hf.rows_fst, hf.rows_w, hf.rows_o]
          exact hself
        · exact absurd hs h2
        · have hfst := hf.rows_fst
          rw [hp] at hfst
          obtain ⟨A, B, hAB, hA, hB⟩ := List.map_eq_append_iff.1 hfst
          obtain ⟨y, B', rfl, hy, hB'⟩ := List.map_eq_cons_iff.1 hB
          obtain ⟨x, B'', rfl, hx, hB''⟩ := List.map_eq_cons_iff.1 hB'
          obtain rfl : B'' = [] := List.map_eq_nil_iff.1 hB''
          have hrow : f.rows = (A ++ [y]) ++ [x] := by rw [hAB]; simp
          have hlast : (((A ++ [y]).map Prod.fst).getLast?).getD (0, 0) = q := by simp [hy]
          have hd1 : dedupRows f.rows = dedupRows (A ++ [y]) ++ [x] := by
            rw [hrow, dedupRows_append (by simp), hlast, dedupFrom, if_neg (by rw [hx]; exact Ne.symm hqp), dedupFrom]
          have hlp : ((dedupRows (A ++ [y])).map Prod.fst).getLast? = some q := by
            rw [dedupRows_last]; simp [hy]
          obtain ⟨Z, hZ⟩ : ∃ Z, (dedupRows (A ++ [y])).map Prod.fst = Z ++ [q] := by
            rcases List.eq_nil_or_concat ((dedupRows (A ++ [y])).map Prod.fst) with h0 | ⟨Z, z, h0⟩
            · rw [h0] at hlp; cases hlp
            · rw [List.concat_eq_append] at h0
              rw [h0, List.getLast?_concat] at hlp
              exact ⟨Z, by rw [h0, Option.some.inj hlp]⟩
          have hdp : f.dedup.points = Z ++ [q, p] := by
            rw [dedup_eq hf, hd1]
            show (dedupRows (A ++ [y]) ++ [x]).map Prod.fst = _
            rw [List.map_append, hZ, List.map_singleton, hx]
            simp
          have hlen : 3 ≤ f.dedup.points.length := by
            rw [dedup_eq hf]
            show 3 ≤ ((dedupRows f.rows).map Prod.fst).length
            rw [dedupRows_destutter, hf.rows_fst]
            exact h3
          have hlen' : 3 ≤ f.points.length := by
            have h4 : (dedupRows f.rows).length ≤ f.rows.length := (dedupRows_sublist _).length_le
            have h5 : f.rows.length = f.points.length := by rw [← hf.rows_fst, List.length_map]
            have h6 : f.dedup.points.length = (dedupRows f.rows).length := by
              rw [dedup_eq hf]; exact List.length_map _
            omega
          refine ⟨?_, ⟨?_, ?_, ?_⟩, Or.inr ⟨hlen', hlen, ?_⟩⟩
          · rw [dedup_eq hf]; rfl
          · rw [hp, hdp]; simp
          · rw [dedup_eq hf]
            show lastRow f.widths = lastRow ((dedupRows f.rows).map fun x => x.2.1)
            rw [hd1, ← hf.rows_w, hrow]
            simp [lastRow]
          · rw [dedup_eq hf]
            show lastRow f.offsets = lastRow ((dedupRows f.rows).map fun x => x.2.2)
            rw [hd1, ← hf.rows_o, hrow]
            simp [lastRow]
          · rw [dedup_eq hf, zip_map_rows, dedupRows_idem]
      rw [e1]
      refine ⟨htw.cache_left _, ?_⟩
      intro d' hd'
      obtain rfl : d = d' := Option.some.inj hd'
      rw [compute_cache, ← compute_twins ctx hda hf htw]
      exact hd

theorem Twins.trans {f g h : Flex K} (h1 : Twins f g) (h2 : Twins g h) : Twins f h := by
  refine ⟨?_, ⟨h2.last.last2.trans h1.last.last2, h2.last.lastW.trans h1.last.lastW, h2.last.lastO.trans h1.last.lastO⟩, ?_⟩
  · rw [h2.eq]
    conv_lhs => rw [h1.eq]
    rfl
  · rcases h1.same with ⟨a1, a2, a3⟩ | ⟨a1, a2, a3⟩ <;> rcases h2.same with ⟨b1, b2, b3⟩ | ⟨b1, b2, b3⟩
    · exact Or.inl ⟨b1.trans a1, b2.trans a2, b3.trans a3⟩
    · refine Or.inr ⟨b1, by rw [← a1]; exact b2, ?_⟩
      rw [b3]; unfold Flex.rows; rw [a1, a2, a3]
    · refine Or.inr ⟨by rw [b1]; exact a1, a2, ?_⟩
      rw [← a3]; unfold Flex.rows; rw [b1, b2, b3]
    · exact Or.inr ⟨b1, a2, b3.trans a3⟩

/-- All queries of the history come at safe moments. -/
def SafeHistory (ctx : FlexCtx K) : Flex K → List (FlexOp K) → Prop
  | _, [] => True
  | f, op :: ops => (op.isQuery = true → QuerySafe f.points) ∧ SafeHistory ctx (f.run ctx op).1 ops

theorem query_step {ctx : FlexCtx K} {op : FlexOp K} (hop : op.isQuery = true) {f f' : Flex K} (hf : FlexAligned f)
    (hs : QuerySafe f.points) (cf : CacheOk ctx f) (hr : f.run ctx op = (f', none)) : Twins f' f ∧ CacheOk ctx f' := by
  have hself : Twins f f := ⟨rfl, ⟨rfl, rfl, rfl⟩, Or.inl ⟨rfl, rfl, rfl⟩⟩
  have hset : errOf (f.toPolygonset ctx).2 = none →
      Twins (f.toPolygonset ctx).1 f ∧ CacheOk ctx (f.toPolygonset ctx).1 := by
    intro he
    unfold Flex.toPolygonset at he ⊢
    split
    · exact ⟨hself, cf⟩
    · rename_i h2
      rw [if_neg h2] at he
      have := getPolygons_step hf hs cf
      cases hg : f.getPolygons ctx with
      | mk g r =>
        rw [hg] at he this
        cases r with
        | error e => cases he
        | ok d => exact this rfl
  cases op with
  | polygons =>
    simp only [Flex.run, Prod.mk.injEq] at hr
    rw [← hr.1]
    exact getPolygons_step hf hs cf hr.2
  | polygonset =>
    simp only [Flex.run, Prod.mk.injEq] at hr
    rw [← hr.1]
    exact hset hr.2
  | area =>
    simp only [Flex.run, Prod.mk.injEq] at hr
    rw [← hr.1, area_fst]
    refine hset ?_
    have := hr.2
    unfold Flex.area at this
    cases hg : f.toPolygonset ctx with
    | mk g r =>
      rw [hg] at this
      cases r with
      | error e => cases this
      | ok o => rfl
  | _ => cases hop

theorem history_step {ctx : FlexCtx K} (ops : List (FlexOp K)) {f g f' : Flex K} (hf : FlexAligned f)
    (hg : FlexAligned g) (h : Twins f g) (cf : CacheOk ctx f) (cg : CacheOk ctx g) (hs : SafeHistory ctx f ops)
    (hr : forOut (Flex.run ctx) f ops = (f', none)) :
    ∃ g', forOut (Flex.run ctx) g (ops.filter fun op => !op.isQuery) = (g', none) ∧ FlexAligned f' ∧ FlexAligned g' ∧
      Twins f' g' ∧ CacheOk ctx f' ∧ CacheOk ctx g' := by
  induction ops generalizing f g with
  | nil =>
    simp only [forOut, Prod.mk.injEq, and_true] at hr
    subst hr
    exact ⟨g, rfl, hf, hg, h, cf, cg⟩
  | cons op ops ih =>
    rw [forOut] at hr
    cases hop : f.run ctx op with
    | mk f1 e =>
      rw [hop] at hr
      obtain ⟨hs1, hs2⟩ := hs
      rw [hop] at hs2
      cases e with
      | some e => cases hr
      | none =>
        have hf1 := run_aligned hf hop (Or.inl rfl)
        cases hq : op.isQuery with
        | true =>
          obtain ⟨t1, c1⟩ := query_step hq hf (hs1 hq) cf hop
          rw [List.filter_cons_of_neg (by simp [hq])]
          exact ih hf1 hg (t1.trans h) c1 cg hs2 hr
        | false =>
          rw [List.filter_cons_of_pos (by simp [hq]), forOut]
          obtain ⟨g1, r1, t1, c1, c2⟩ := build_step hq hf hg h cf cg hop
          rw [r1]
          exact ih hf1 (run_aligned hg r1 (Or.inl rfl)) t1 c1 c2 hs2 hr

/-- **C60**, for queries at safe moments that return. A history of calls and the same history without its queries end
with paths that have the same polygons, the same polygon set and the same area (or raise the same exception).

Missing for the full claim: queries of a path whose last segment has length zero, queries that leave two points, and
queries that raise; the claim is false for each (`C60_query_drops_width`, `C60_query_changes_outline`,
`C60_query_hides_error`). -/
theorem C60_queries_partial {ctx : FlexCtx K} (ops : List (FlexOp K)) {f f' : Flex K} (hf : FlexAligned f)
    (hc : f.cache = none) (hs : SafeHistory ctx f ops) (hr : forOut (Flex.run ctx) f ops = (f', none)) :
    ∃ g', forOut (Flex.run ctx) f (ops.filter fun op => !op.isQuery) = (g', none) ∧
      (f'.getPolygons ctx).2 = (g'.getPolygons ctx).2 ∧ (f'.toPolygonset ctx).2 = (g'.toPolygonset ctx).2 ∧
      (f'.area ctx).2 = (g'.area ctx).2 := by
  have c0 : CacheOk ctx f := by intro d hd; rw [hc] at hd; cases hd
  obtain ⟨g', h1, h2, h3, h4, h5, h6⟩ := history_step ops hf hf ⟨rfl, ⟨rfl, rfl, rfl⟩, Or.inl ⟨rfl, rfl, rfl⟩⟩ c0 c0 hs hr
  exact ⟨g', h1, getPolygons_twins ctx h2 h3 h4 h5 h6, toPolygonset_twins ctx h2 h3 h4 h5 h6,
    area_twins ctx h2 h3 h4 h5 h6⟩

/-- **C60.** A query that returns gives the same answer when it is repeated. -/
theorem C60_repeat (ctx : FlexCtx K) (f : Flex K) {d : PolyDict K} (h : (f.getPolygons ctx).2 = .ok d) :
    ((f.getPolygons ctx).1.getPolygons ctx) = ((f.getPolygons ctx).1, .ok d) := by
  have key : (f.getPolygons ctx).1.cache = some d := by
    unfold Flex.getPolygons at h ⊢
    split
    · rename_i d' hd
      rw [hd] at h
      simp only [Except.ok.injEq] at h
      rw [hd, h]
    · rename_i hd
      rw [hd] at h
      simp only at h
      cases hcm : f.compute ctx with
      | mk x y => cases y with
        | mk d' e =>
          rw [hcm] at h
          cases e with
          | none =>
            simp only [Except.ok.injEq] at h
            rw [h]
          | some e => cases h
  generalize (f.getPolygons ctx).1 = g at key
  unfold Flex.getPolygons
  rw [key]

/-- **C60.** Every construction and transformation call that returns forgets the old polygons (a `smooth` without pieces
apart, which changes nothing). -/
theorem C60_forgets (ctx : FlexCtx K) {f g : Flex K} {op : FlexOp K} (hop : op.isQuery = false)
    (hr : f.run ctx op = (g, none)) : g.cache = none ∨ g = f := by
  have hl : ∀ F : Flex K → Out (Flex K), Local F → F f = (g, none) → g.cache = none ∨ g = f := by
    intro F hF h
    obtain ⟨c, new, ws, os, rfl, hc, _⟩ := hF f g h
    rcases hc with rfl | ⟨rfl, rfl, rfl, rfl⟩
    · exact Or.inl rfl
    · exact Or.inr (by simp [Flex.appended])
  cases op with
  | segment p w o r => exact hl _ (segment_local p w o r) hr
  | arc r ia fa w o => exact hl _ (arc_local ctx.num r ia fa w o) hr
  | turn r a w o => exact hl _ (turn_local ctx.num r a w o) hr
  | parametric c w o r => exact hl _ (parametric_local ctx.fuel c w o r) hr
  | bezier p w o r => exact hl _ (bezier_local ctx.fuel p w o r) hr
  | smooth hb p c w o r => exact hl _ (smooth_local ctx.fuel hb p c w o r) hr
  | translate dx dy => simp only [Flex.run, Prod.mk.injEq, and_true] at hr; subst hr; exact Or.inl rfl
  | rotate a c => simp only [Flex.run, Prod.mk.injEq, and_true] at hr; subst hr; exact Or.inl rfl
  | scale s c => simp only [Flex.run, Prod.mk.injEq, and_true] at hr; subst hr; exact Or.inl rfl
  | transform tr r s x a => simp only [Flex.run, Prod.mk.injEq, and_true] at hr; subst hr; exact Or.inl rfl
  | polygons => cases hop
  | polygonset => cases hop
  | area => cases hop

end Calls

/-! ## Where queries do harm -/

/-- Rational arithmetic for segments of length 10. -/
def tenCtx : FlexCtx ℚ :=
  ⟨{ ratNum with sqrt := fun _ => 10 }, fun _ _ _ _ => .error .unmodelled, fun _ _ _ _ => .ok [], 100⟩

/-- One path of width 2. -/
def tenFlex (pts : List (Pt ℚ)) (fin : FlexEnd ℚ) : Flex ℚ :=
  { points := pts
    widths := pts.map fun _ => [2]
    offsets := pts.map fun _ => [0]
    n := 1
    ends := [fin]
    corners := [.natural]
    bendRadius := [none]
    layers := [0]
    datatypes := [0]
    tolerance := 1 / 100
    precision := 1 / 1000
    maxPoints := 199
    gdsiiPath := false
    widthTransform := true
    cache := none }

/-- The polygons at the end of a history (calls that raise are skipped), and the exception. -/
def polysAfter (f : Flex ℚ) (ops : List (FlexOp ℚ)) : Option (List (Pgon ℚ)) × Option PyErr :=
  let d := ((ops.foldl (fun f op => (f.run tenCtx op).1) f).getPolygons tenCtx).2
  (d.toOption.map PolyDict.all, errOf d)

/-- **C60**, violated: the width of a segment of length zero holds for what follows, unless the path is queried in
between. -/
theorem C60_query_drops_width :
    polysAfter (tenFlex [(0, 0), (10, 0), (10, 10)] .flush)
        [.segment (10, 10) (.num 4) .none false, .segment (0, 10) .none .none false] ≠
      polysAfter (tenFlex [(0, 0), (10, 0), (10, 10)] .flush)
        [.segment (10, 10) (.num 4) .none false, .polygons, .segment (0, 10) .none .none false] ∧
    (forOut (Flex.run tenCtx) (tenFlex [(0, 0), (10, 0), (10, 10)] .flush)
        [.segment (10, 10) (.num 4) .none false, .polygons, .segment (0, 10) .none .none false]).2 = none := by
  decide +kernel

/-- **C60**, violated: if removing repetitions leaves two points, the outline after the next transformation is another
list of points (here 4 instead of 8). -/
theorem C60_query_changes_outline :
    (polysAfter (tenFlex [(0, 0), (10, 0), (10, 0)] .extended) [.translate 0 0]).1.map (List.map List.length) =
      some [8] ∧
    (polysAfter (tenFlex [(0, 0), (10, 0), (10, 0)] .extended) [.polygons, .translate 0 0]).1.map (List.map List.length) =
      some [4] := by
  decide +kernel

/-- **C60**, violated: a query that raises leaves an empty dictionary behind, so that the second query returns no
polygons instead of raising again. -/
theorem C60_query_hides_error :
    polysAfter (tenFlex [(0, 0)] .flush) [] = (none, some .indexError) ∧
    polysAfter (tenFlex [(0, 0)] .flush) [.polygons] = (some [], none) := by
  decide +kernel

/-- The hypotheses of `C60_queries_partial` hold for a path with a repeated point that is queried three times. -/
example :
    let ops : List (FlexOp ℚ) := [.polygons, .segment (10, 10) (.num 4) .none false, .segment (10, 10) (.num 2) .none false,
      .segment (0, 10) .none .none false, .polygons, .area, .rotate 90 (0, 0), .segment (0, 10) (.num 3) .none true]
    FlexAligned (tenFlex [(0, 0), (10, 0)] .flush) ∧ SafeHistory tenCtx (tenFlex [(0, 0), (10, 0)] .flush) ops ∧
      (forOut (Flex.run tenCtx) (tenFlex [(0, 0), (10, 0)] .flush) ops).2 = none := by
  refine ⟨⟨rfl, rfl, ?_, ?_, rfl, rfl, rfl, rfl, rfl, by decide⟩, ?_, by decide +kernel⟩
  · decide
  · decide
  · refine ⟨fun _ => Or.inr (Or.inl rfl), ⟨fun h => (by cases h), ⟨fun h => (by cases h), ⟨fun h => (by cases h),
      ⟨fun _ => Or.inr (Or.inr ⟨?_, [(0, 0), (10, 0), (10, 10)], (10, 10), (0, 10), ?_, by decide⟩),
      ⟨fun _ => Or.inl ?_, ⟨fun h => (by cases h), ⟨fun h => (by cases h), trivial⟩⟩⟩⟩⟩⟩⟩⟩
    · decide +kernel
    · decide +kernel
    · have : ((((((tenFlex [(0, 0), (10, 0)] .flush).run tenCtx .polygons).1.run tenCtx
          (.segment (10, 10) (.num 4) .none false)).1.run tenCtx (.segment (10, 10) (.num 2) .none false)).1.run tenCtx
          (.segment (0, 10) .none .none false)).1.run tenCtx .polygons).1.points =
          [(0, 0), (10, 0), (10, 10), (0, 10)] := by decide +kernel
      rw [this]
      simp

end Gdspy
