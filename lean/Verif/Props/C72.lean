import Verif.Spec.Robust
import Verif.Props.C61Robust
import Verif.Props.C58
import Verif.Props.C59

/-!
# C72: how a RobustPath grows

Each construction method adds one section to every path, with the width and the offset that the documentation
promises, and the sections follow each other without a gap.
-/

set_option linter.unusedSectionVars false

namespace Gdspy

open Spec

variable {K : Type}

section Push

variable [Field K]

theorem parseOffset_ok {r : Robust K} {a : RArg K} {i : Nat} {f : K → K} (h : r.parseOffset a i = .ok f) {c : K}
    (hc : r.offsets[i]? = some c) : offsetLaw c i a = some f := by
  unfold Robust.parseOffset at h
  have hi : idx r.offsets i = .ok c := by unfold idx; rw [hc]
  cases a with
  | none =>
    simp only [hi] at h
    injection h with h
    subst h
    rfl
  | num x =>
    simp only [hi] at h
    injection h with h
    subst h
    show some _ = some _
    congr 1
    funext u
    unfold ramp funcLinear
    ring
  | fn g =>
    simp only [hi] at h
    injection h with h
    subst h
    show some _ = some _
    congr 1
    funext u
    ring
  | list l =>
    simp only at h
    obtain ⟨v, hv, h⟩ := bind_ok h
    have hv := idx_eq hv
    unfold offsetLaw
    simp only [hv, Option.map_some, Option.some.injEq]
    cases v with
    | num x =>
      simp only [hi] at h
      injection h with h
      subst h
      funext u
      unfold ramp funcLinear
      ring
    | fn g =>
      injection h with h

theorem parseWidth_ok {r : Robust K} {a : RArg K} {i : Nat} {f : K → K} (h : r.parseWidth a i = .ok f) {c : K}
    (hc : r.widths[i]? = some c) : (if r.gdsiiPath then some fun _ => c else widthLaw c i a) = some f := by
  unfold Robust.parseWidth at h
  have hi : idx r.widths i = .ok c := by unfold idx; rw [hc]
  cases hg : r.gdsiiPath with
  | true =>
    simp only [if_true]
    cases a <;> (simp only [hg, hi] at h; injection h with h; rw [h])
  | false =>
    simp only [Bool.false_eq_true, if_false]
    cases a with
    | none =>
      simp only [hi] at h
      injection h with h
      subst h
      rfl
    | num x =>
      simp only [hg, hi] at h
      injection h with h
      subst h
      show some _ = some _
      congr 1
      funext u
      unfold ramp funcLinear
      ring
    | fn g =>
      simp only [hg] at h
      injection h with h
      subst h
      rfl
    | list l =>
      simp only [hg] at h
      obtain ⟨v, hv, h⟩ := bind_ok h
      have hv := idx_eq hv
      unfold widthLaw
      simp only [hv, Option.map_some, Option.some.injEq]
      cases v with
      | num x =>
        simp only [hi] at h
        injection h with h
        subst h
        funext u
        unfold ramp funcLinear
        ring
      | fn g =>
        injection h with h

/-- What `r.push` does when it returns. -/
theorem push_ok {x : K → Pt K} {dx : K → K → Pt K} {w o : RArg K} {r g : Robust K} {i : Nat}
    (h : r.push x dx w o i = (g, none)) :
    ∃ off wid, r.parseOffset o i = .ok off ∧ r.parseWidth w i = .ok wid ∧ i < r.paths.length ∧ i < r.widths.length ∧
      i < r.offsets.length ∧ g = { r with
        paths := r.paths.modify i (· ++ [r.sub x dx off wid])
        widths := r.widths.set i (wid 1)
        offsets := r.offsets.set i (off 1) } := by
  unfold Robust.push at h
  cases ho : r.parseOffset o i with
  | error e => rw [ho] at h; cases h
  | ok off =>
    cases hw : r.parseWidth w i with
    | error e => rw [ho, hw] at h; cases h
    | ok wid =>
      rw [ho, hw] at h
      simp only at h
      split at h
      · cases h
      · split at h
        · rename_i hi
          unfold setItem at h
          by_cases h1 : i < r.widths.length
          · rw [if_pos h1] at h
            simp only at h
            by_cases h2 : i < r.offsets.length
            · rw [if_pos h2] at h
              simp only [Prod.mk.injEq, and_true] at h
              exact ⟨off, wid, rfl, rfl, hi, h1, h2, h.symm⟩
            · rw [if_neg h2] at h
              cases h
          · rw [if_neg h1] at h
            cases h
        · cases h

/-- Row `i` of `g` compared with that of `r`. -/
def RowDone (r g : Robust K) (curve : K → Pt K) (dir : K → K → Pt K) (width offset : RArg K) (i : Nat) : Prop :=
  ∃ p w o wl ol s, r.paths[i]? = some p ∧ r.widths[i]? = some w ∧ r.offsets[i]? = some o ∧
    (if r.gdsiiPath then some fun _ => w else widthLaw w i width) = some wl ∧ offsetLaw o i offset = some ol ∧
    g.paths[i]? = some (p ++ [s]) ∧ g.widths[i]? = some (wl 1) ∧ g.offsets[i]? = some (ol 1) ∧
    s = r.sub curve dir ol wl

/-- The rows before `k` are done and the others as before. -/
structure Until (r g : Robust K) (curve : K → Pt K) (dir : K → K → Pt K) (width offset : RArg K) (k : Nat) : Prop where
  done : ∀ i, i < k → RowDone r g curve dir width offset i
  paths : ∀ i, k ≤ i → g.paths[i]? = r.paths[i]?
  widths : ∀ i, k ≤ i → g.widths[i]? = r.widths[i]?
  offsets : ∀ i, k ≤ i → g.offsets[i]? = r.offsets[i]?
  rest : g = { r with paths := g.paths, widths := g.widths, offsets := g.offsets }
  lengths : g.paths.length = r.paths.length ∧ g.widths.length = r.widths.length ∧ g.offsets.length = r.offsets.length

theorem forOut_split {S α : Type} (f : S → α → Out S) (l l' : List α) (s : S) {s' : S} (h : forOut f s (l ++ l') = (s', none)) :
    ∃ m, forOut f s l = (m, none) ∧ forOut f m l' = (s', none) := by
  induction l generalizing s with
  | nil => exact ⟨s, rfl, h⟩
  | cons a l ih =>
    rw [List.cons_append, forOut] at h
    cases ha : f s a with
    | mk s1 e =>
      rw [ha] at h
      cases e with
      | some e => cases h
      | none =>
        obtain ⟨m, h1, h2⟩ := ih s1 h
        exact ⟨m, by rw [forOut, ha]; exact h1, h2⟩

theorem getElem?_modify_other {α : Type} (f : α → α) (l : List α) {i k : Nat} (h : i ≠ k) : (l.modify k f)[i]? = l[i]? := by
  rw [List.getElem?_modify]
  cases l[i]? with
  | none => rfl
  | some a => simp [Ne.symm h]

theorem getElem?_modify_same {α : Type} (f : α → α) {l : List α} {k : Nat} {a : α} (h : l[k]? = some a) :
    (l.modify k f)[k]? = some (f a) := by
  rw [List.getElem?_modify, h]
  simp

theorem until_push {x : K → Pt K} {dx : K → K → Pt K} {w o : RArg K} (r : Robust K) (k : Nat) {g : Robust K}
    (h : forOut (Robust.push x dx w o) r (List.range k) = (g, none)) : Until r g x dx w o k := by
  induction k generalizing g with
  | zero =>
    simp only [List.range_zero, forOut, Prod.mk.injEq, and_true] at h
    subst h
    exact ⟨fun i hi => absurd hi (Nat.not_lt_zero i), fun _ _ => rfl, fun _ _ => rfl, fun _ _ => rfl, rfl, rfl, rfl, rfl⟩
  | succ k ih =>
    rw [List.range_succ] at h
    obtain ⟨m, h1, h2⟩ := forOut_split _ _ _ _ h
    have hm := ih h1
    rw [forOut] at h2
    cases hp : m.push x dx w o k with
    | mk m' e =>
      rw [hp] at h2
      cases e with
      | some e => cases h2
      | none =>
        simp only [forOut, Prod.mk.injEq, and_true] at h2
        subst h2
        obtain ⟨off, wid, ho, hw, l1, l2, l3, rfl⟩ := push_ok hp
        obtain ⟨c, hc⟩ : ∃ c, m.widths[k]? = some c := ⟨_, List.getElem?_eq_getElem l2⟩
        obtain ⟨d, hd⟩ : ∃ d, m.offsets[k]? = some d := ⟨_, List.getElem?_eq_getElem l3⟩
        obtain ⟨p, hpp⟩ : ∃ p, m.paths[k]? = some p := ⟨_, List.getElem?_eq_getElem l1⟩
        have hol := parseOffset_ok ho hd
        have hwl := parseWidth_ok hw hc
        have hgd : m.gdsiiPath = r.gdsiiPath := by rw [hm.rest]
        have hsub : m.sub = r.sub := by
          rw [hm.rest]
          rfl
        rw [hgd] at hwl
        refine ⟨?_, ?_, ?_, ?_, ?_, ?_⟩
        · intro i hi
          rcases Nat.lt_or_ge i k with hik | hik
          · obtain ⟨p', w', o', wl, ol, s, e1, e2, e3, e4, e5, e6, e7, e8, e9⟩ := hm.done i hik
            refine ⟨p', w', o', wl, ol, s, e1, e2, e3, e4, e5, ?_, ?_, ?_, e9⟩
            · simp only
              rw [getElem?_modify_other _ _ (by omega)]
              exact e6
            · simp only
              rw [List.getElem?_set_ne (by omega)]
              exact e7
            · simp only
              rw [List.getElem?_set_ne (by omega)]
              exact e8
          · obtain rfl : i = k := by omega
            refine ⟨p, c, d, wid, off, _, ?_, ?_, ?_, hwl, hol, ?_, ?_, ?_, rfl⟩
            · rw [← hm.paths i (le_refl i)]; exact hpp
            · rw [← hm.widths i (le_refl i)]; exact hc
            · rw [← hm.offsets i (le_refl i)]; exact hd
            · simp only
              rw [getElem?_modify_same _ hpp, hsub]
            · simp only
              rw [List.getElem?_set_self l2]
            · simp only
              rw [List.getElem?_set_self l3]
        · intro i hi
          simp only
          rw [getElem?_modify_other _ _ (by omega), ← hm.paths i (by omega)]
        · intro i hi
          simp only
          rw [List.getElem?_set_ne (by omega), hm.widths i (by omega)]
        · intro i hi
          simp only
          rw [List.getElem?_set_ne (by omega), hm.offsets i (by omega)]
        · simp only
          rw [hm.rest]
        · simp only [List.length_modify, List.length_set]
          exact hm.lengths

theorem eye_app (p : Pt K) : (Mat.eye : Mat K).app p = p := by
  unfold Mat.eye Mat.app
  simp

/-- The sections are added to all paths. -/
theorem pushAll_extended {x : K → Pt K} {dx : K → K → Pt K} {w o : RArg K} {r g : Robust K} (tip : Pt K) (c : Option (PolyDict K))
    (ht : tip = x 1) (h : Robust.pushAll x dx w o { r with cache := c, x := tip } = (g, none)) :
    Extended r g x dx w o ∧ (RobustAligned r → RobustAligned g) := by
  have hu := until_push _ _ h
  constructor
  · constructor
    · rw [hu.rest]; exact ht
    · intro i hi
      obtain ⟨p, w', o', wl, ol, s, e1, e2, e3, e4, e5, e6, e7, e8, rfl⟩ := hu.done i hi
      refine ⟨p, w', o', wl, ol, _, e1, e2, e3, e4, e5, e6, e7, e8, fun _ => rfl, fun _ _ => rfl, fun _ => rfl, fun _ => rfl,
        rfl, ?_, rfl, eye_app⟩
      show 1 / 2 / (r.maxEvals : K) = _
      rw [div_div]
    · rw [hu.rest]
    · rw [hu.rest]
    · rw [hu.rest]
    · rw [hu.rest]
    · rw [hu.rest]
    · rw [hu.rest]
  · intro hr
    have hn : g.n = r.n := by rw [hu.rest]
    obtain ⟨m, hm⟩ := hr.sections
    have l1 : g.paths.length = r.n := hu.lengths.1.trans hr.paths
    refine ⟨?_, ?_, ?_, ?_, ?_, ?_, m + 1, ?_⟩
    · rw [hn]; exact hu.lengths.2.1.trans hr.widths
    · rw [hn]; exact hu.lengths.2.2.trans hr.offsets
    · rw [hn]; exact l1
    · rw [hn, hu.rest]; exact hr.ends
    · rw [hn, hu.rest]; exact hr.layers
    · rw [hn, hu.rest]; exact hr.datatypes
    · intro p hp
      obtain ⟨i, hi, rfl⟩ := List.getElem_of_mem hp
      obtain ⟨q, _, _, _, _, s, e1, _, _, _, _, e6, _⟩ := hu.done i (by rw [← l1]; exact hi)
      rw [List.getElem?_eq_getElem hi, Option.some.injEq] at e6
      rw [e6, List.length_append, hm q (List.mem_of_getElem? e1)]
      rfl

end Push

section Calls

variable [Field K]

/-- **C72.** `segment` adds to every path a straight section from where the path is to the given point. -/
theorem C72_segment {r g : Robust K} {p : Pt K} {w o : RArg K} {rel : Bool} (h : r.segment p w o rel = (g, none)) :
    Extended r g (fun u => (ramp r.x.1 (placedAt r.x rel p).1 u, ramp r.x.2 (placedAt r.x rel p).2 u))
      (fun _ _ => ((placedAt r.x rel p).1 - r.x.1, (placedAt r.x rel p).2 - r.x.2)) w o := by
  have e : (if rel then (p.1 + r.x.1, p.2 + r.x.2) else p) = placedAt r.x rel p := by
    unfold placedAt
    cases rel
    · rfl
    · simp only [if_true]
      rw [add_comm p.1, add_comm p.2]
  unfold Robust.segment at h
  simp only at h
  rw [e] at h
  have hx : funcLinearPt r.x (placedAt r.x rel p) =
      fun u => (ramp r.x.1 (placedAt r.x rel p).1 u, ramp r.x.2 (placedAt r.x rel p).2 u) := by
    funext u
    unfold funcLinearPt ramp
    refine Prod.ext ?_ ?_ <;> simp only <;> ring
  rw [hx] at h
  refine (pushAll_extended _ _ ?_ h).1
  unfold ramp
  refine Prod.ext ?_ ?_ <;> simp only <;> ring

/-- **C72.** `arc` adds to every path an arc of a circle, from the initial angle at the point where the path is to the
final angle. -/
theorem C72_arc (t : Num K) {r g : Robust K} {radius ia fa : K} {w o : RArg K}
    (h : r.arc t radius ia fa w o = (g, none)) :
    Extended r g
      (fun u => (r.x.1 + radius * (t.cos (ramp ia fa u) - t.cos ia), r.x.2 + radius * (t.sin (ramp ia fa u) - t.sin ia)))
      (fun u _ => (-(radius * (fa - ia) * t.sin (ramp ia fa u)), radius * (fa - ia) * t.cos (ramp ia fa u))) w o := by
  unfold Robust.arc at h
  have hr : funcLinear ia fa = ramp ia fa := by
    funext u
    unfold funcLinear ramp
    ring
  have hx : robustArc t r.x radius ia fa = fun u => (r.x.1 + radius * (t.cos (ramp ia fa u) - t.cos ia),
      r.x.2 + radius * (t.sin (ramp ia fa u) - t.sin ia)) := by
    funext u
    unfold robustArc
    rw [hr]
    refine Prod.ext ?_ ?_ <;> simp only <;> ring
  have hd : (fun u (_ : K) => robustArcGrad t radius ia fa u) =
      fun u _ => (-(radius * (fa - ia) * t.sin (ramp ia fa u)), radius * (fa - ia) * t.cos (ramp ia fa u)) := by
    funext u _
    unfold robustArcGrad
    rw [hr]
    refine Prod.ext ?_ rfl
    simp only
    ring
  rw [hx, hd] at h
  exact (pushAll_extended _ _ rfl h).1

variable [LinearOrder K]

/-- **C72.** `parametric` adds the given curve; its direction is the given gradient, or else the slope between two
parameters at most `e` away within [0, 1]. -/
theorem C72_parametric {r g : Robust K} {c : K → Pt K} {grad : Option (K → Pt K)} {w o : RArg K} {rel : Bool}
    (h : r.parametric c grad w o rel = (g, none)) :
    Extended r g (fun u => placedAt r.x rel (c u))
      (fun u e => match grad with
        | some d => d u
        | none => (((c (min 1 (u + e))).1 - (c (max 0 (u - e))).1) / (min 1 (u + e) - max 0 (u - e)),
            ((c (min 1 (u + e))).2 - (c (max 0 (u - e))).2) / (min 1 (u + e) - max 0 (u - e)))) w o := by
  unfold Robust.parametric at h
  simp only at h
  have hx : (if rel then fun u => ((c u).1 + r.x.1, (c u).2 + r.x.2) else c) = fun u => placedAt r.x rel (c u) := by
    funext u
    unfold placedAt
    cases rel
    · rfl
    · simp only [if_true]
      rw [add_comm (c u).1, add_comm (c u).2]
  rw [hx] at h
  cases grad with
  | none => exact (pushAll_extended _ _ rfl h).1
  | some d => exact (pushAll_extended _ _ rfl h).1

theorem bezierDiff_slopes (ctrl : List (Pt K)) (h : ctrl ≠ []) : bezierDiff ctrl = slopes ctrl := by
  unfold bezierDiff slopes
  simp only
  rw [List.drop_one]
  have : ((ctrl.length - 1 : Nat) : K) = (ctrl.length : K) - 1 := by
    rw [Nat.cast_sub (List.length_pos_iff.2 h), Nat.cast_one]
  rw [this]

theorem ctrl_placed (r : Robust K) (pts : List (Pt K)) (rel : Bool) :
    r.ctrl pts rel = r.x :: pts.map (placedAt r.x rel) := by
  unfold Robust.ctrl placedAt
  cases rel <;> simp

/-- **C72.** `bezier` adds the Bezier curve from where the path is, with the given control points. -/
theorem C72_bezier {r g : Robust K} {pts : List (Pt K)} {w o : RArg K} {rel : Bool}
    (h : r.bezier pts w o rel = (g, none)) :
    Extended r g (bezierSection (r.x :: pts.map (placedAt r.x rel))).1
      (bezierSection (r.x :: pts.map (placedAt r.x rel))).2 w o := by
  unfold Robust.bezier at h
  simp only at h
  by_cases hp : pts = []
  · rw [if_pos hp] at h; cases h
  rw [if_neg hp, show Robust.ctrl pts rel { r with cache := none } = r.ctrl pts rel from rfl, ctrl_placed] at h
  have hne : r.x :: pts.map (placedAt r.x rel) ≠ [] := by simp
  have hx : funcBezier (r.x :: pts.map (placedAt r.x rel)) = bezier (r.x :: pts.map (placedAt r.x rel)) :=
    funext (C58_formula _ hne)
  have hs : slopes (r.x :: pts.map (placedAt r.x rel)) ≠ [] := by
    cases pts with
    | nil => exact absurd rfl hp
    | cons p l => simp [slopes]
  have hd : (fun u (_ : K) => funcBezier (bezierDiff (r.x :: pts.map (placedAt r.x rel))) u) =
      fun u _ => bezier (slopes (r.x :: pts.map (placedAt r.x rel))) u := by
    funext u _
    rw [bezierDiff_slopes _ hne, C58_formula _ hs]
  have hl : (r.x :: pts.map (placedAt r.x rel)).getLastD (0, 0) = bezier (r.x :: pts.map (placedAt r.x rel)) 1 := by
    rw [← C58_formula _ hne, C58_end _ hne, List.getLastD_eq_getLast?, List.getLast?_eq_getLast_of_ne_nil hne]
    rfl
  rw [hx, hd] at h
  exact (pushAll_extended _ _ hl h).1

/-- The sections of a sequence of pieces with two control points each. -/
def pieceSections : Pt K → List (Pt K × Pt K × Pt K) → List ((K → Pt K) × (K → K → Pt K))
  | _, [] => []
  | x, p :: l => bezierSection [x, p.1, p.2.1, p.2.2] :: pieceSections p.2.2 l

theorem pieces_extend {w o : RArg K} (l : List (Pt K × Pt K × Pt K)) {r g : Robust K}
    (h : forOut (fun g p => Robust.bezier p w o false g) r (l.map fun p => [p.1, p.2.1, p.2.2]) = (g, none)) :
    ExtendedBy w o r g (pieceSections r.x l) := by
  induction l generalizing r with
  | nil =>
    simp only [List.map_nil, forOut, Prod.mk.injEq, and_true] at h
    subst h
    exact .done r
  | cons p l ih =>
    rw [List.map_cons, forOut] at h
    cases hb : Robust.bezier [p.1, p.2.1, p.2.2] w o false r with
    | mk m e =>
      rw [hb] at h
      cases e with
      | some e => cases h
      | none =>
        have h1 := C72_bezier hb
        have e1 : [p.1, p.2.1, p.2.2].map (placedAt r.x false) = [p.1, p.2.1, p.2.2] := by simp [placedAt]
        rw [e1] at h1
        have hx : m.x = p.2.2 := by
          rw [h1.x]
          show bezier _ 1 = _
          rw [← C58_formula _ (by simp), C58_end _ (by simp)]
          rfl
        refine .more (c := bezierSection [r.x, p.1, p.2.1, p.2.2]) h1 ?_
        have := ih h
        rw [hx] at this
        exact this

theorem mapM_ok_map {α β : Type} (f : α → Py β) (g : α → β) (hg : ∀ a b, f a = .ok b → b = g a) (l : List α) {m : List β}
    (h : l.mapM f = .ok m) : m = l.map g := by
  induction l generalizing m with
  | nil =>
    have h : Except.ok [] = (Except.ok m : Py (List β)) := h
    injection h with h
    rw [← h]
    rfl
  | cons a l ih =>
    rw [List.mapM_cons] at h
    obtain ⟨b, hb, h⟩ := bind_ok h
    obtain ⟨m', hm, h⟩ := bind_ok h
    injection h with h
    rw [← h, List.map_cons, hg a b hb, ih hm]

/-- The pieces of `smooth` between points, with their control points. -/
theorem smoothPieces_ok {pts cta ctb : List (Pt K)} {cycle : Bool} {l : List (List (Pt K))}
    (h : smoothPieces pts cta ctb cycle = .ok l) :
    l = ((List.range (pts.length - 1)).map fun i => (cta.getD i (0, 0), ctb.getD i (0, 0), pts.getD (i + 1) (0, 0))).map
        (fun p => [p.1, p.2.1, p.2.2]) ++
      (if cycle then [[cta.getLastD (0, 0), ctb.getLastD (0, 0), pts.headD (0, 0)]] else []) := by
  unfold smoothPieces at h
  obtain ⟨l', hl', h⟩ := bind_ok h
  have e := mapM_ok_map _ (fun i => [cta.getD i (0, 0), ctb.getD i (0, 0), pts.getD (i + 1) (0, 0)]) (by
    intro i b hb
    obtain ⟨x, hx, hb⟩ := bind_ok hb
    obtain ⟨y, hy, hb⟩ := bind_ok hb
    obtain ⟨z, hz, hb⟩ := bind_ok hb
    injection hb with hb
    rw [← hb, List.getD_eq_getElem?_getD, List.getD_eq_getElem?_getD, List.getD_eq_getElem?_getD, idx_eq hx, idx_eq hy,
      idx_eq hz]
    rfl) _ hl'
  rw [List.map_map]
  have e' : l' = List.map ((fun p : Pt K × Pt K × Pt K => [p.1, p.2.1, p.2.2]) ∘ fun i =>
      (cta.getD i (0, 0), ctb.getD i (0, 0), pts.getD (i + 1) (0, 0))) (List.range (pts.length - 1)) := e
  rw [← e']
  cases cycle with
  | false =>
    simp only [Bool.false_eq_true, if_false] at h ⊢
    injection h with h
    rw [h, List.append_nil]
  | true =>
    simp only [if_true] at h ⊢
    obtain ⟨x, hx, h⟩ := bind_ok h
    obtain ⟨y, hy, h⟩ := bind_ok h
    obtain ⟨z, hz, h⟩ := bind_ok h
    injection h with h
    rw [← h, List.getLastD_eq_getLast?, List.getLastD_eq_getLast?, List.getLast?_eq_getElem?, List.getLast?_eq_getElem?,
      idx_eq hx, idx_eq hy]
    have : pts.headD (0, 0) = z := by
      have := idx_eq hz
      cases pts with
      | nil => cases this
      | cons a m => injection this
    rw [this]
    rfl

/-- **C72.** `smooth` adds one cubic Bezier section from each of the points to the next, beginning where the path is,
with the control points that Hobby's algorithm returns; a cycle has one more, back to the beginning. -/
theorem C72_smooth {r g : Robust K} {hobby : Hobby K} {pts : List (Pt K)} {cycle : Bool} {w o : RArg K} {rel : Bool}
    (h : r.smooth hobby pts cycle w o rel = (g, none)) :
    ∃ cta ctb, hobby (r.x :: pts.map (placedAt r.x rel)) = .ok (cta, ctb) ∧
      ExtendedBy w o r g ((List.range pts.length).map (fun i => bezierSection
          [(r.x :: pts.map (placedAt r.x rel)).getD i (0, 0), cta.getD i (0, 0), ctb.getD i (0, 0),
            (r.x :: pts.map (placedAt r.x rel)).getD (i + 1) (0, 0)]) ++
        if cycle then [bezierSection [(r.x :: pts.map (placedAt r.x rel)).getLastD (0, 0), cta.getLastD (0, 0),
          ctb.getLastD (0, 0), r.x]] else []) := by
  unfold Robust.smooth at h
  by_cases hp : pts = []
  · rw [if_pos hp] at h; cases h
  rw [if_neg hp, ctrl_placed] at h
  cases hh : hobby (r.x :: pts.map (placedAt r.x rel)) with
  | error e => rw [hh] at h; cases h
  | ok c =>
    obtain ⟨cta, ctb⟩ := c
    rw [hh] at h
    simp only at h
    refine ⟨cta, ctb, rfl, ?_⟩
    generalize hk : r.x :: pts.map (placedAt r.x rel) = k at *
    have hlen : k.length = pts.length + 1 := by rw [← hk]; simp
    have hhd : k.headD (0, 0) = r.x := by rw [← hk]; rfl
    cases hs : smoothPieces k cta ctb cycle with
    | error e => rw [hs] at h; cases h
    | ok l =>
      rw [hs] at h
      simp only at h
      have hl := smoothPieces_ok hs
      rw [hlen, Nat.add_sub_cancel, hhd] at hl
      have key : ∀ (n i : Nat) (tail : List (Pt K × Pt K × Pt K)), pieceSections (k.getD i (0, 0))
          ((List.range' i n).map (fun i => (cta.getD i (0, 0), ctb.getD i (0, 0), k.getD (i + 1) (0, 0))) ++ tail) =
          (List.range' i n).map (fun i => bezierSection [k.getD i (0, 0), cta.getD i (0, 0), ctb.getD i (0, 0),
            k.getD (i + 1) (0, 0)]) ++ pieceSections (k.getD (i + n) (0, 0)) tail := by
        intro n
        induction n with
        | zero => intro i tail; rfl
        | succ n ih =>
          intro i tail
          rw [List.range'_succ, List.map_cons, List.map_cons, List.cons_append, List.cons_append, pieceSections]
          rw [ih (i + 1) tail, show i + 1 + n = i + (n + 1) by omega]
      have h0 : k.getD 0 (0, 0) = r.x := by rw [← hk]; rfl
      have hlast : k.getLastD (0, 0) = k.getD (0 + pts.length) (0, 0) := by
        rw [List.getLastD_eq_getLast?, List.getLast?_eq_getElem?, hlen, List.getD_eq_getElem?_getD]
        simp
      rw [List.range_eq_range'] at hl ⊢
      cases cycle with
      | false =>
        simp only [Bool.false_eq_true, if_false, List.append_nil] at hl ⊢
        rw [hl] at h
        have := pieces_extend _ h
        have k2 := key pts.length 0 []
        rw [List.append_nil, h0] at k2
        rw [k2] at this
        simpa [pieceSections] using this
      | true =>
        simp only [if_true] at hl ⊢
        rw [hl, show [[cta.getLastD (0, 0), ctb.getLastD (0, 0), r.x]] =
          [(cta.getLastD (0, 0), ctb.getLastD (0, 0), r.x)].map (fun p : Pt K × Pt K × Pt K => [p.1, p.2.1, p.2.2])
          from rfl, ← List.map_append] at h
        have := pieces_extend _ h
        have k2 := key pts.length 0 [(cta.getLastD (0, 0), ctb.getLastD (0, 0), r.x)]
        rw [h0] at k2
        rw [k2] at this
        rw [hlast]
        exact this

theorem foldl_add_const (b : K) (l : List K) (h : ∀ x ∈ l, x = b) (s : K) : l.foldl (· + ·) s = s + (l.length : K) * b := by
  induction l generalizing s with
  | nil => simp
  | cons a l ih =>
    rw [List.foldl_cons, ih (fun x hx => h x (List.mem_cons_of_mem _ hx)), h a List.mem_cons_self, List.length_cons]
    push_cast
    ring

/-- `turn` when the sections of all paths end in the same direction. -/
theorem turn_is_arc [CharZero K] (t : Num K) {r g : Robust K} (ha : RobustAligned r) {radius : K} {angle : TurnArg K}
    {w o : RArg K} {b : K}
    (hb : ∀ p ∈ r.paths, ∀ s ∈ p.getLast?, t.atan2 (s.gradRaw t 1 0).2 (s.gradRaw t 1 0).1 = b)
    (h : r.turn t radius angle w o = (g, none)) :
    r.n ≠ 0 ∧ Robust.arc t radius (b + (if angle.value t < 0 then t.halfpi else -t.halfpi))
      (b + (if angle.value t < 0 then t.halfpi else -t.halfpi) + angle.value t) w o { r with cache := none } = (g, none) := by
  obtain ⟨m, hm⟩ := ha.sections
  have hlen := ha.paths
  unfold Robust.turn at h
  simp only at h
  cases hp : r.paths with
  | nil => rw [hp] at h; cases h
  | cons p l =>
    rw [hp] at h
    simp only at h
    split at h
    · cases h
    rename_i hp0
    split at h
    · cases h
    · rename_i subs hs
      have hpl : p.length = m := hm p (by rw [hp]; exact List.mem_cons_self)
      rw [← hp] at hs h ⊢
      have hsub : subs.length = r.paths.length ∧ ∀ s ∈ subs, ∃ q ∈ r.paths, q.getLast? = some s := by
        have : ∀ (ps : List (List (Sub K))), (∀ q ∈ ps, q.length = m) → ∀ subs, ps.mapM (fun q => idx q (p.length - 1)) =
            (.ok subs : Py (List (Sub K))) → subs.length = ps.length ∧ ∀ s ∈ subs, ∃ q ∈ ps, q.getLast? = some s := by
          intro ps
          induction ps with
          | nil =>
            intro _ subs hh
            have hh : Except.ok [] = (Except.ok subs : Py (List (Sub K))) := hh
            injection hh with hh
            subst hh
            exact ⟨rfl, fun s hs => by cases hs⟩
          | cons q ps ih =>
            intro hq subs hh
            rw [List.mapM_cons] at hh
            obtain ⟨s, hs1, hh⟩ := bind_ok hh
            obtain ⟨rest, hs2, hh⟩ := bind_ok hh
            injection hh with hh
            subst hh
            obtain ⟨i1, i2⟩ := ih (fun q' hq' => hq q' (List.mem_cons_of_mem _ hq')) rest hs2
            refine ⟨by rw [List.length_cons, List.length_cons, i1], ?_⟩
            intro s' hs'
            rcases List.mem_cons.1 hs' with rfl | hs'
            · refine ⟨q, List.mem_cons_self, ?_⟩
              rw [List.getLast?_eq_getElem?, hq q List.mem_cons_self, ← hpl]
              exact idx_eq hs1
            · obtain ⟨q', h1, h2⟩ := i2 s' hs'
              exact ⟨q', List.mem_cons_of_mem _ h1, h2⟩
        exact this r.paths hm subs hs
      have hn : r.n ≠ 0 := by
        rw [← hlen, hp]
        simp
      refine ⟨hn, ?_⟩
      have hsum : (subs.map fun s => t.atan2 (s.gradRaw t 1 0).2 (s.gradRaw t 1 0).1).foldl (· + ·) 0 = (r.n : K) * b := by
        rw [foldl_add_const b]
        · rw [List.length_map, hsub.1, hlen, zero_add]
        · intro x hx
          obtain ⟨s, hs', rfl⟩ := List.mem_map.1 hx
          obtain ⟨q, h1, h2⟩ := hsub.2 s hs'
          exact hb q h1 s h2
      rw [hsum, hlen, mul_div_cancel_left₀ b (by exact_mod_cast hn)] at h
      rw [← h]

end Calls

section History

variable [Field K]

/-- **C72.** A new path (made from lists of the same length, if widths and offsets are both lists) has one entry of
everything per path and no sections. -/
theorem C72_new {x : Pt K} {width offset : CycArg K} {ends : CycArg (FlexEnd K)} {tolerance precision : K}
    {maxPoints maxEvals : Nat} {gdsiiPath widthTransform : Bool} {layer datatype : CycArg Int} {r : Robust K}
    (hlists : ∀ a b, width = .list a → offset = .list b → b.length = a.length)
    (h : Robust.new x width offset ends tolerance precision maxPoints maxEvals gdsiiPath widthTransform layer datatype = .ok r) :
    RobustAligned r ∧ r.x = x ∧ ∀ p ∈ r.paths, p = [] := by
  unfold Robust.new at h
  simp only at h
  obtain ⟨e, he, h⟩ := bind_ok h
  obtain ⟨l, hl, h⟩ := bind_ok h
  obtain ⟨d, hd, h⟩ := bind_ok h
  simp only [Except.ok.injEq] at h
  subst h
  have key : (flexRows width offset).2.1.length = (flexRows width offset).1 ∧
      (flexRows width offset).2.2.length = (flexRows width offset).1 := by
    cases width with
    | one w => cases offset with
      | one o => exact ⟨rfl, rfl⟩
      | list o => simp [flexRows]
    | list w => cases offset with
      | one o => simp [flexRows]
      | list o => exact ⟨rfl, hlists w o rfl rfl⟩
  refine ⟨⟨key.1, key.2, List.length_replicate, spread_length he, spread_length hl, spread_length hd, 0, ?_⟩, rfl, ?_⟩
  · intro p hp
    rw [List.eq_of_mem_replicate hp]
    rfl
  · intro p hp
    exact List.eq_of_mem_replicate hp

variable [LinearOrder K]

theorem MovedBy.aligned {A : Aff K} {r r' : Robust K} (h : MovedBy A r r') (hw : r'.widths.length = r.widths.length)
    (ho : r'.offsets.length = r.offsets.length) (hr : RobustAligned r) : RobustAligned r' := by
  obtain ⟨m, hm⟩ := hr.sections
  refine ⟨?_, ?_, ?_, ?_, ?_, ?_, m, ?_⟩
  · rw [hw, h.n]; exact hr.widths
  · rw [ho, h.n]; exact hr.offsets
  · rw [h.paths, h.n, List.length_map]; exact hr.paths
  · rw [h.ends, h.n]; exact hr.ends
  · rw [h.layers, h.n]; exact hr.layers
  · rw [h.datatypes, h.n]; exact hr.datatypes
  · intro p hp
    rw [h.paths] at hp
    obtain ⟨q, hq, rfl⟩ := List.mem_map.1 hp
    rw [List.length_map]
    exact hm q hq

theorem transform_lengths (t : Num K) (tr : Option (Pt K)) (ro sc : Option K) (x : Bool) (a : Option (Pt K)) (r : Robust K) :
    (r.transform t tr ro sc x a).widths.length = r.widths.length ∧
      (r.transform t tr ro sc x a).offsets.length = r.offsets.length := by
  unfold Robust.transform
  cases tr <;> cases ro <;> cases sc <;> cases x <;> cases a <;>
    simp only [Robust.shift, Robust.spin, Robust.magnify, Robust.mirror, Robust.mapSubs, Robust.scaleLists, Bool.false_eq_true,
      if_true, if_false, List.length_map, and_true] <;>
    first
      | trivial
      | (split <;> simp only [List.length_map])

theorem extended_unbroken {r g : Robust K} {c : K → Pt K} {d : K → K → Pt K} {w o : RArg K} (h : Extended r g c d w o)
    (hg : RobustAligned g) (hc : c 0 = r.x) (hr : Unbroken r) : Unbroken g := by
  have key : ∀ p ∈ g.paths, ∃ q s, q ∈ r.paths ∧ p = q ++ [s] ∧ lineOf s 0 = r.x ∧ lineOf s 1 = g.x := by
    intro p hp
    obtain ⟨i, hi, rfl⟩ := List.getElem_of_mem hp
    have hin : i < r.n := by
      rw [← h.n, ← hg.paths]
      exact hi
    obtain ⟨q, _, _, _, _, s, e1, _, _, _, _, e6, _, _, e9, _, _, _, _, _, _, e16⟩ := h.rows i hin
    rw [List.getElem?_eq_getElem hi, Option.some.injEq] at e6
    refine ⟨q, s, List.mem_of_getElem? e1, e6, ?_, ?_⟩
    · unfold lineOf; rw [e9, e16, hc]
    · unfold lineOf; rw [e9, e16, h.x]
  constructor
  · intro p hp
    obtain ⟨q, s, hq, rfl, h0, h1⟩ := key p hp
    rw [List.isChain_append]
    refine ⟨hr.chain q hq, List.isChain_singleton _, ?_⟩
    intro a ha b hb
    simp only [List.head?_cons, Option.mem_def, Option.some.injEq] at hb
    subst hb
    rw [hr.tip q hq a ha, h0]
  · intro p hp s' hs'
    obtain ⟨q, s, hq, rfl, h0, h1⟩ := key p hp
    rw [List.getLast?_concat] at hs'
    simp only [Option.mem_def, Option.some.injEq] at hs'
    subst hs'
    exact h1

theorem moved_unbroken {A : Aff K} {r g : Robust K} (h : MovedBy A r g) (hr : Unbroken r) : Unbroken g := by
  have hl : ∀ (s : Sub K) u, lineOf (s.moved A) u = A.app (lineOf s u) := by
    intro s u
    unfold lineOf Sub.moved
    simp only
    rw [Mat.mul_app, mat_app]
  constructor
  · intro p hp
    rw [h.paths] at hp
    obtain ⟨q, hq, rfl⟩ := List.mem_map.1 hp
    rw [List.isChain_map]
    refine (hr.chain q hq).imp ?_
    intro a b hab
    rw [hl, hl, hab]
  · intro p hp s hs
    rw [h.paths] at hp
    obtain ⟨q, hq, rfl⟩ := List.mem_map.1 hp
    rw [List.getLast?_map] at hs
    obtain ⟨s', hs', rfl⟩ := Option.map_eq_some_iff.1 hs
    rw [hl, hr.tip q hq s' hs', h.x]

/-- Every `turn` is an arc. -/
theorem turn_some_arc {t : Num K} {r g : Robust K} {radius : K} {angle : TurnArg K} {w o : RArg K}
    (h : r.turn t radius angle w o = (g, none)) :
    ∃ ia fa, Robust.arc t radius ia fa w o { r with cache := none } = (g, none) := by
  unfold Robust.turn at h
  simp only at h
  split at h
  · cases h
  · split at h
    · cases h
    · split at h
      · cases h
      · exact ⟨_, _, h⟩

theorem robust_segment_aligned {r g : Robust K} {p : Pt K} {w o : RArg K} {rel : Bool} (h : r.segment p w o rel = (g, none))
    (hr : RobustAligned r) : RobustAligned g := by
  unfold Robust.segment at h
  simp only at h
  refine (pushAll_extended _ _ ?_ h).2 hr
  unfold funcLinearPt
  simp

theorem robust_arc_aligned {t : Num K} {r g : Robust K} {radius ia fa : K} {w o : RArg K}
    (h : r.arc t radius ia fa w o = (g, none)) (hr : RobustAligned r) : RobustAligned g := by
  unfold Robust.arc at h
  exact (pushAll_extended _ _ rfl h).2 hr

theorem robust_parametric_aligned {r g : Robust K} {c : K → Pt K} {d : Option (K → Pt K)} {w o : RArg K} {rel : Bool}
    (h : r.parametric c d w o rel = (g, none)) (hr : RobustAligned r) : RobustAligned g := by
  unfold Robust.parametric at h
  exact (pushAll_extended _ _ rfl h).2 hr

theorem robust_bezier_aligned {r g : Robust K} {pts : List (Pt K)} {w o : RArg K} {rel : Bool} (h : r.bezier pts w o rel = (g, none))
    (hr : RobustAligned r) : RobustAligned g := by
  unfold Robust.bezier at h
  simp only at h
  by_cases hp : pts = []
  · rw [if_pos hp] at h; cases h
  rw [if_neg hp] at h
  refine (pushAll_extended _ _ ?_ h).2 hr
  have hne : Robust.ctrl pts rel { r with cache := none } ≠ [] := by
    rw [ctrl_placed]
    simp
  rw [C58_end _ hne, List.getLastD_eq_getLast?, List.getLast?_eq_getLast_of_ne_nil hne]
  rfl

theorem pieces_keep {P : Robust K → Prop} {w o : RArg K} (hP : ∀ r g p, P r → r.bezier p w o false = (g, none) → P g)
    (l : List (List (Pt K))) {r g : Robust K} (h : forOut (fun g p => Robust.bezier p w o false g) r l = (g, none))
    (hr : P r) : P g := by
  induction l generalizing r with
  | nil =>
    simp only [forOut, Prod.mk.injEq, and_true] at h
    subst h
    exact hr
  | cons p l ih =>
    rw [forOut] at h
    cases hb : Robust.bezier p w o false r with
    | mk m e =>
      rw [hb] at h
      cases e with
      | some e => cases h
      | none => exact ih h (hP r m p hr hb)

theorem smooth_keep {P : Robust K → Prop} {w o : RArg K} (hP : ∀ r g p, P r → r.bezier p w o false = (g, none) → P g)
    {hobby : Hobby K} {pts : List (Pt K)} {cycle rel : Bool} {r g : Robust K}
    (h : r.smooth hobby pts cycle w o rel = (g, none)) (hr : P r) : P g := by
  unfold Robust.smooth at h
  split at h
  · cases h
  · split at h
    · cases h
    · split at h
      · cases h
      · exact pieces_keep hP _ h hr

variable [FloorRing K]

/-- The parametric curves begin where the path is. -/
def Begins (r : Robust K) : RobustOp K → Prop
  | .parametric c _ _ _ rel => placedAt r.x rel (c 0) = r.x
  | _ => True

theorem scale_lengths (s : K) (c : Pt K) (r : Robust K) : (r.scale s c).widths.length = r.widths.length ∧
    (r.scale s c).offsets.length = r.offsets.length := by
  unfold Robust.scale Robust.mapSubs Robust.scaleLists
  simp only [List.length_map, and_true]
  split <;> simp only [List.length_map]

theorem bare_aligned {r g : Robust K} (h : g.bare = r.bare) (hr : RobustAligned r) : RobustAligned g := by
  have e : g = { r with cache := g.cache } := by
    cases g; cases r
    simp only [Robust.bare, Robust.mk.injEq, and_true] at h ⊢
    exact h
  rw [e]
  exact ⟨hr.widths, hr.offsets, hr.paths, hr.ends, hr.layers, hr.datatypes, hr.sections⟩

theorem bare_unbroken {r g : Robust K} (h : g.bare = r.bare) (hr : Unbroken r) : Unbroken g := by
  have e : g = { r with cache := g.cache } := by
    cases g; cases r
    simp only [Robust.bare, Robust.mk.injEq, and_true] at h ⊢
    exact h
  rw [e]
  exact ⟨hr.chain, hr.tip⟩

theorem robust_run_aligned {ctx : FlexCtx K} {r g : Robust K} {op : RobustOp K} (h : r.run ctx op = (g, none))
    (hr : RobustAligned r) : RobustAligned g := by
  cases op with
  | segment p w o rel => exact robust_segment_aligned h hr
  | arc rad ia fa w o => exact robust_arc_aligned h hr
  | turn rad a w o =>
    obtain ⟨ia, fa, h⟩ := turn_some_arc (t := ctx.num) h
    exact robust_arc_aligned h ⟨hr.widths, hr.offsets, hr.paths, hr.ends, hr.layers, hr.datatypes, hr.sections⟩
  | parametric c d w o rel => exact robust_parametric_aligned h hr
  | bezier p w o rel => exact robust_bezier_aligned h hr
  | smooth hb p c w o rel => exact smooth_keep (fun r g p hr h => robust_bezier_aligned h hr) h hr
  | translate dx dy =>
    simp only [Robust.run, Prod.mk.injEq, and_true] at h
    subst h
    exact MovedBy.aligned (movedBy_translate dx dy r) rfl rfl hr
  | rotate a c =>
    simp only [Robust.run, Prod.mk.injEq, and_true] at h
    subst h
    exact MovedBy.aligned (movedBy_rotate ctx.num a c r) rfl rfl hr
  | scale s c =>
    simp only [Robust.run, Prod.mk.injEq, and_true] at h
    subst h
    exact MovedBy.aligned (movedBy_scale s c r) (scale_lengths s c r).1 (scale_lengths s c r).2 hr
  | transform tr ro sc x a =>
    simp only [Robust.run, Prod.mk.injEq, and_true] at h
    subst h
    exact MovedBy.aligned (movedBy_transform ctx.num tr ro sc x a r) (transform_lengths ctx.num tr ro sc x a r).1
      (transform_lengths ctx.num tr ro sc x a r).2 hr
  | polygons =>
    have : (r.run ctx .polygons).1.bare = r.bare := C60_robust_query ctx (op := .polygons) rfl r
    rw [h] at this
    exact bare_aligned this hr
  | polygonset =>
    have : (r.run ctx .polygonset).1.bare = r.bare := C60_robust_query ctx (op := .polygonset) rfl r
    rw [h] at this
    exact bare_aligned this hr
  | area =>
    have : (r.run ctx .area).1.bare = r.bare := C60_robust_query ctx (op := .area) rfl r
    rw [h] at this
    exact bare_aligned this hr

theorem robust_run_n {ctx : FlexCtx K} {r g : Robust K} {op : RobustOp K} (h : r.run ctx op = (g, none)) : g.n = r.n := by
  cases op with
  | segment p w o rel => exact (C72_segment h).n
  | arc rad ia fa w o => exact (C72_arc ctx.num h).n
  | turn rad a w o =>
    obtain ⟨ia, fa, h⟩ := turn_some_arc (t := ctx.num) h
    exact (C72_arc ctx.num h).n
  | parametric c d w o rel => exact (C72_parametric h).n
  | bezier p w o rel => exact (C72_bezier h).n
  | smooth hb p c w o rel =>
    exact smooth_keep (P := fun g => g.n = r.n) (fun r' g p hr h => (C72_bezier h).n.trans hr) h rfl
  | translate dx dy =>
    simp only [Robust.run, Prod.mk.injEq, and_true] at h
    subst h
    rfl
  | rotate a c =>
    simp only [Robust.run, Prod.mk.injEq, and_true] at h
    subst h
    rfl
  | scale s c =>
    simp only [Robust.run, Prod.mk.injEq, and_true] at h
    subst h
    rfl
  | transform tr ro sc x a =>
    simp only [Robust.run, Prod.mk.injEq, and_true] at h
    subst h
    exact (movedBy_transform ctx.num tr ro sc x a r).n
  | polygons =>
    have : (r.run ctx .polygons).1.bare = r.bare := C60_robust_query ctx (op := .polygons) rfl r
    rw [h] at this
    exact (congrArg Robust.n this : g.bare.n = r.bare.n)
  | polygonset =>
    have : (r.run ctx .polygonset).1.bare = r.bare := C60_robust_query ctx (op := .polygonset) rfl r
    rw [h] at this
    exact (congrArg Robust.n this : g.bare.n = r.bare.n)
  | area =>
    have : (r.run ctx .area).1.bare = r.bare := C60_robust_query ctx (op := .area) rfl r
    rw [h] at this
    exact (congrArg Robust.n this : g.bare.n = r.bare.n)

/-- **C72.** After any sequence of calls of construction, transformation and query methods that all return, there is one
width, offset, end, layer and datatype for each path, and all paths have the same number of sections. -/
theorem C72_history (ctx : FlexCtx K) (ops : List (RobustOp K)) {r g : Robust K} (hr : RobustAligned r)
    (h : forOut (Robust.run ctx) r ops = (g, none)) : RobustAligned g ∧ g.n = r.n := by
  induction ops generalizing r with
  | nil =>
    simp only [forOut, Prod.mk.injEq, and_true] at h
    subst h
    exact ⟨hr, rfl⟩
  | cons op ops ih =>
    rw [forOut] at h
    cases hop : r.run ctx op with
    | mk m e =>
      rw [hop] at h
      cases e with
      | some e => cases h
      | none =>
        obtain ⟨h1, h2⟩ := ih (robust_run_aligned hop hr) h
        exact ⟨h1, h2.trans (robust_run_n hop)⟩

theorem bezier_zero (p : Pt K) (l : List (Pt K)) : bezier (p :: l) 0 = p := by
  rw [← C58_formula _ (by simp), C58_start]

theorem robust_run_unbroken {ctx : FlexCtx K} {r g : Robust K} {op : RobustOp K} (h : r.run ctx op = (g, none))
    (ha : RobustAligned r) (hb : Begins r op) (hr : Unbroken r) : Unbroken g := by
  have hg := robust_run_aligned h ha
  have arc : ∀ {r' : Robust K} {rad ia fa w o}, r'.arc ctx.num rad ia fa w o = (g, none) → Unbroken r' → Unbroken g := by
    intro r' rad ia fa w o h hr
    refine extended_unbroken (C72_arc ctx.num h) hg ?_ hr
    simp [ramp]
  cases op with
  | segment p w o rel =>
    refine extended_unbroken (C72_segment h) hg ?_ hr
    simp [ramp]
  | arc rad ia fa w o => exact arc h hr
  | turn rad a w o =>
    obtain ⟨ia, fa, h⟩ := turn_some_arc (t := ctx.num) h
    exact arc h ⟨hr.chain, hr.tip⟩
  | parametric c d w o rel => exact extended_unbroken (C72_parametric h) hg hb hr
  | bezier p w o rel => exact extended_unbroken (C72_bezier h) hg (bezier_zero _ _) hr
  | smooth hb p c w o rel =>
    exact (smooth_keep (P := fun r => RobustAligned r ∧ Unbroken r) (fun r g p hr h =>
      ⟨robust_bezier_aligned h hr.1,
        extended_unbroken (C72_bezier h) (robust_bezier_aligned h hr.1) (bezier_zero _ _) hr.2⟩) h ⟨ha, hr⟩).2
  | translate dx dy =>
    simp only [Robust.run, Prod.mk.injEq, and_true] at h
    subst h
    exact moved_unbroken (movedBy_translate dx dy r) hr
  | rotate a c =>
    simp only [Robust.run, Prod.mk.injEq, and_true] at h
    subst h
    exact moved_unbroken (movedBy_rotate ctx.num a c r) hr
  | scale s c =>
    simp only [Robust.run, Prod.mk.injEq, and_true] at h
    subst h
    exact moved_unbroken (movedBy_scale s c r) hr
  | transform tr ro sc x a =>
    simp only [Robust.run, Prod.mk.injEq, and_true] at h
    subst h
    exact moved_unbroken (movedBy_transform ctx.num tr ro sc x a r) hr
  | polygons =>
    have : (r.run ctx .polygons).1.bare = r.bare := C60_robust_query ctx (op := .polygons) rfl r
    rw [h] at this
    exact bare_unbroken this hr
  | polygonset =>
    have : (r.run ctx .polygonset).1.bare = r.bare := C60_robust_query ctx (op := .polygonset) rfl r
    rw [h] at this
    exact bare_unbroken this hr
  | area =>
    have : (r.run ctx .area).1.bare = r.bare := C60_robust_query ctx (op := .area) rfl r
    rw [h] at this
    exact bare_unbroken this hr

/-- Every parametric curve of the history begins where the path is then. -/
def AllBegin (ctx : FlexCtx K) : Robust K → List (RobustOp K) → Prop
  | _, [] => True
  | r, op :: ops => Begins r op ∧ AllBegin ctx (r.run ctx op).1 ops

/-- **C72.** After any sequence of calls that return, the sections of every path follow each other without a gap, also when
the path has been moved, rotated, scaled or reflected in between, and the last one ends where the path is; the
parametric curves must begin where the path is. -/
theorem C72_unbroken (ctx : FlexCtx K) (ops : List (RobustOp K)) {r g : Robust K} (ha : RobustAligned r) (hr : Unbroken r)
    (hb : AllBegin ctx r ops) (h : forOut (Robust.run ctx) r ops = (g, none)) : Unbroken g := by
  induction ops generalizing r with
  | nil =>
    simp only [forOut, Prod.mk.injEq, and_true] at h
    subst h
    exact hr
  | cons op ops ih =>
    rw [forOut] at h
    have h2 := hb.2
    cases hop : r.run ctx op with
    | mk m e =>
      rw [hop] at h h2
      cases e with
      | some e => cases h
      | none => exact ih (robust_run_aligned hop ha) (robust_run_unbroken hop ha hb.1 hr) h2 h

end History

end Gdspy
