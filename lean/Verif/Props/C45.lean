import Verif.Spec.Path
import Verif.Lemmas.HierSamples
import Mathlib.Data.Rat.Floor

/-!
# C45: path construction keeps the lists aligned
-/

set_option linter.unusedSectionVars false

namespace Gdspy

open Spec

variable {K : Type}

section Lists

theorem getElem?_flatten_replicate {α : Type} (l : List α) (k i : Nat) (hi : i < k * l.length) :
    ((List.replicate k l).flatten)[i]? = l[i % l.length]? := by
  induction k generalizing i with
  | zero => simp at hi
  | succ k ih =>
    rw [List.replicate_succ, List.flatten_cons]
    by_cases h : i < l.length
    · rw [List.getElem?_append_left h, Nat.mod_eq_of_lt h]
    · rw [List.getElem?_append_right (by omega)]
      rw [ih (i - l.length) (by rw [Nat.succ_mul] at hi; omega)]
      congr 1
      exact (Nat.mod_eq_sub_mod (by omega)).symm

theorem expand_eq (n : Nat) (a : LayerArg) (ls : List Int) (h : a.expand n = .ok ls) :
    ls = (List.range n).map (pick a) := by
  cases a with
  | one l =>
    simp only [LayerArg.expand, Except.ok.injEq] at h
    subst h
    apply List.ext_getElem?
    intro i
    by_cases hi : i < n <;> simp [pick, hi]
  | list l =>
    cases l with
    | nil => simp [LayerArg.expand] at h
    | cons a r =>
      simp only [LayerArg.expand, Except.ok.injEq] at h
      subst h
      generalize hl : a :: r = l
      have hpos : 0 < l.length := by rw [← hl]; simp
      apply List.ext_getElem?
      intro i
      by_cases hi : i < n
      · rw [List.getElem?_take_of_lt hi, getElem?_flatten_replicate]
        · have hm : i % l.length < l.length := Nat.mod_lt _ hpos
          simp [hi, pick, hm]
        · have := Nat.div_add_mod n l.length
          have h2 := Nat.mod_lt n hpos
          have : n < (n / l.length + 1) * l.length := by
            rw [Nat.add_mul, Nat.one_mul, Nat.mul_comm]; omega
          omega
      · rw [List.getElem?_eq_none (by simp; omega), List.getElem?_eq_none (by simp; omega)]

end Lists

section Step

theorem Spec.Extends.refl' (layer datatype : LayerArg) (p q : PPath K) (hn : q.n = p.n)
    (h1 : q.polygons = p.polygons) (h2 : q.layers = p.layers) (h3 : q.datatypes = p.datatypes) :
    Extends layer datatype p q :=
  ⟨hn, [], by simp, by simp [h1], by simp [h2], by simp [h3]⟩

theorem Spec.Extends.trans {layer datatype : LayerArg} {p q r : PPath K}
    (h1 : Extends layer datatype p q) (h2 : Extends layer datatype q r) :
    Extends layer datatype p r := by
  obtain ⟨n1, r1, a1, b1, c1, d1⟩ := h1
  obtain ⟨n2, r2, a2, b2, c2, d2⟩ := h2
  refine ⟨n2.trans n1, r1 ++ r2, ?_, ?_, ?_, ?_⟩
  · intro r hr
    rcases List.mem_append.1 hr with h | h
    · exact a1 r h
    · rw [← n1]; exact a2 r h
  · rw [b2, b1]; simp
  · rw [c2, c1, n1]; simp only [List.map_append, List.flatten_append, List.append_assoc]
  · rw [d2, d1, n1]; simp only [List.map_append, List.flatten_append, List.append_assoc]

theorem Spec.Extends.of_fields {layer datatype : LayerArg} {p p' q : PPath K}
    (h : Extends layer datatype p' q) (hn : p'.n = p.n) (h1 : p'.polygons = p.polygons)
    (h2 : p'.layers = p.layers) (h3 : p'.datatypes = p.datatypes) : Extends layer datatype p q :=
  (Extends.refl' layer datatype p p' hn h1 h2 h3).trans h

/-- The end of every drawing step: one round of polygons is appended and tagged. -/
theorem tag_extends (layer datatype : LayerArg) (p q r : PPath K)
    (hn : q.n = p.n) (hnew : ∃ new : List (Pgon K), new.length = p.n ∧ q.polygons = p.polygons ++ new)
    (h2 : q.layers = p.layers) (h3 : q.datatypes = p.datatypes)
    (h : PPath.tag layer datatype q = (r, none)) : Extends layer datatype p r := by
  obtain ⟨new, hlen, h1⟩ := hnew
  unfold PPath.tag at h
  cases hl : layer.expand q.n with
  | error e => rw [hl] at h; simp at h
  | ok ls =>
    rw [hl] at h
    cases hd : datatype.expand q.n with
    | error e => rw [hd] at h; simp at h
    | ok ds =>
      rw [hd] at h
      simp only [Prod.mk.injEq, and_true] at h
      subst h
      refine ⟨hn, [new], by simpa using hlen, by simpa using h1, ?_, ?_⟩
      · simp [h2, expand_eq _ _ _ hl, hn]
      · simp [h3, expand_eq _ _ _ hd, hn]

theorem forOut_extends {α : Type} (layer datatype : LayerArg) (f : PPath K → α → Out (PPath K))
    (hf : ∀ p a q, f p a = (q, none) → Extends layer datatype p q) (l : List α) (p q : PPath K)
    (h : forOut f p l = (q, none)) : Extends layer datatype p q := by
  induction l generalizing p with
  | nil =>
    simp only [forOut, Prod.mk.injEq, and_true] at h
    subst h
    exact Extends.refl' _ _ _ _ rfl rfl rfl rfl
  | cons a l ih =>
    unfold forOut at h
    cases hfa : f p a with
    | mk s e =>
      rw [hfa] at h
      cases e with
      | some e => simp at h
      | none => exact (hf _ _ _ hfa).trans (ih _ h)

end Step

section Segment

variable [Field K] [DecidableEq K]

theorem segment_extends (t : Num K) (length : K) (direction : Option (Dir K))
    (fw fd : Option K) (off : K) (layer datatype : LayerArg) (p q : PPath K)
    (h : p.segment t length direction fw fd off layer datatype = (q, none)) :
    Extends layer datatype p q := by
  unfold PPath.segment at h
  simp only at h
  split at h
  · refine tag_extends _ _ _ _ _ ?_ ?_ ?_ ?_ h
    exacts [rfl, ⟨_, by simp, rfl⟩, rfl, rfl]
  · simp only [Prod.mk.injEq, and_true] at h
    subst h
    exact Extends.refl' _ _ _ _ rfl rfl rfl rfl

end Segment

section Arc

variable [Field K] [LinearOrder K] [FloorRing K]

/-- The loop over the parallel paths appends one polygon per path. -/
theorem forOut_append (g : Nat → Out (Pgon K)) (l : List Nat) (p q : PPath K)
    (h : forOut (fun (q : PPath K) ii =>
      match g ii with | (pol, e) => ({ q with polygons := q.polygons ++ [pol] }, e)) p l = (q, none)) :
    q = { p with polygons := p.polygons ++ l.map fun ii => (g ii).1 } := by
  induction l generalizing p with
  | nil =>
    simp only [forOut, Prod.mk.injEq, and_true] at h
    subst h; simp
  | cons a l ih =>
    unfold forOut at h
    cases hg : g a with
    | mk pol e =>
      rw [hg] at h
      cases e with
      | some e => simp at h
      | none =>
        rw [ih _ h]
        simp [hg]

theorem arcPiece_extends (t : Num K) (cx cy radius : K) (m : Nat) (ws ds as : List K)
    (layer datatype : LayerArg) (p : PPath K) (jj : Nat) (q : PPath K)
    (h : p.arcPiece t cx cy radius m ws ds as layer datatype jj = (q, none)) :
    Extends layer datatype p q := by
  unfold PPath.arcPiece at h
  simp only at h
  split at h
  · simp at h
  · rename_i r hr
    have := forOut_append _ _ _ _ hr
    subst this
    refine tag_extends _ _ _ _ _ ?_ ?_ ?_ ?_ h
    exacts [rfl, ⟨_, by simp, rfl⟩, rfl, rfl]

theorem arc_extends (t : Num K) (radius ia fa tol : K) (N : Option Nat) (maxPoints : Nat)
    (fw fd : Option K) (layer datatype : LayerArg) (p q : PPath K)
    (h : p.arc t radius ia fa tol N maxPoints fw fd layer datatype = (q, none)) :
    Extends layer datatype p q := by
  unfold PPath.arc at h
  simp only at h
  split at h
  · simp at h
  · split at h
    · simp at h
    · split at h
      · refine Extends.of_fields (forOut_extends _ _ _ ?_ _ _ _ h) rfl rfl rfl rfl
        intro p a q hq
        exact arcPiece_extends _ _ _ _ _ _ _ _ _ _ _ _ _ hq
      · simp only [Prod.mk.injEq, and_true] at h
        subst h
        exact Extends.refl' _ _ _ _ rfl rfl rfl rfl

theorem turn_extends (t : Num K) (radius : K) (angle : TurnArg K) (tol : K) (N : Option Nat)
    (maxPoints : Nat) (fw fd : Option K) (layer datatype : LayerArg) (p q : PPath K)
    (h : p.turn t radius angle tol N maxPoints fw fd layer datatype = (q, none)) :
    Extends layer datatype p q := by
  unfold PPath.turn at h
  simp only at h
  split at h
  · simp at h
  · rename_i r hr
    have h1 : Extends layer datatype p r :=
      (arc_extends _ _ _ _ _ _ _ _ _ _ _ _ _ hr).of_fields rfl rfl rfl rfl
    simp only [Prod.mk.injEq, and_true] at h
    subst h
    refine h1.trans (Extends.refl' _ _ _ _ ?_ ?_ ?_ ?_) <;> split <;> rfl

end Arc

section Parametric

variable [Field K] [LinearOrder K]

theorem sections_extends (k : Nat) (layer datatype : LayerArg) (fuel : Nat)
    (l : List (Section K)) (p q : PPath K)
    (h : p.sections k layer datatype fuel l = (q, none)) : Extends layer datatype p q := by
  induction fuel generalizing l p with
  | zero =>
    simp only [PPath.sections, Prod.mk.injEq, and_true] at h
    subst h
    exact Extends.refl' _ _ _ _ rfl rfl rfl rfl
  | succ fuel ih =>
    unfold PPath.sections at h
    simp only at h
    split at h
    · split at h
      · simp at h
      · rename_i r hr
        refine Spec.Extends.trans (tag_extends _ _ _ _ _ ?_ ?_ ?_ ?_ hr) (ih _ _ h)
        exacts [rfl, ⟨_, by simp, rfl⟩, rfl, rfl]
    · simp only [Prod.mk.injEq, and_true] at h
      subst h
      exact Extends.refl' _ _ _ _ rfl rfl rfl rfl

theorem parametric_extends (t : Num K) (fuel : Nat) (f : K → Pt K) (deriv : Option (K → Pt K))
    (tol : K) (evals maxPoints : Nat) (fw fd : FinArg K) (relative : Bool)
    (layer datatype : LayerArg) (p q : PPath K)
    (h : p.parametric t fuel f deriv tol evals maxPoints fw fd relative layer datatype = (q, none)) :
    Extends layer datatype p q := by
  unfold PPath.parametric at h
  simp only at h
  split at h
  · simp at h
  · split at h
    · simp at h
    · split at h
      · simp at h
      · exact (sections_extends _ _ _ _ _ _ _ h).of_fields rfl rfl rfl rfl

theorem bezier_extends (t : Num K) (fuel : Nat) (points : List (Pt K)) (tol : K)
    (evals maxPoints : Nat) (fw fd : FinArg K) (relative : Bool)
    (layer datatype : LayerArg) (p q : PPath K)
    (h : p.bezier t fuel points tol evals maxPoints fw fd relative layer datatype = (q, none)) :
    Extends layer datatype p q := by
  unfold PPath.bezier at h
  split at h
  · simp at h
  · exact parametric_extends _ _ _ _ _ _ _ _ _ _ _ _ _ _ h

theorem smoothStep_extends (t : Num K) (fuel : Nat) (tol : K) (evals maxPoints : Nat)
    (layer datatype : LayerArg) (args : Py (List (Pt K) × FinArg K × FinArg K)) (p q : PPath K)
    (h : p.smoothStep t fuel tol evals maxPoints layer datatype args = (q, none)) :
    Extends layer datatype p q := by
  unfold PPath.smoothStep at h
  split at h
  · simp at h
  · exact bezier_extends _ _ _ _ _ _ _ _ _ _ _ _ _ h

theorem smooth_extends (t : Num K) (fuel : Nat) (hobby : Hobby K) (points : List (Pt K))
    (cycle : Bool) (tol : K) (evals maxPoints : Nat) (fws fds : Option (List (FinArg K)))
    (relative : Bool) (layer datatype : LayerArg) (p q : PPath K)
    (h : p.smooth t fuel hobby points cycle tol evals maxPoints fws fds relative layer datatype
      = (q, none)) :
    Extends layer datatype p q := by
  unfold PPath.smooth at h
  simp only at h
  split at h
  · simp at h
  · split at h
    · simp at h
    · split at h
      · simp at h
      · rename_i r hr
        have h1 := forOut_extends layer datatype _
          (fun p a q hq => smoothStep_extends _ _ _ _ _ _ _ _ _ _ hq) _ _ _ hr
        split at h
        · exact h1.trans (smoothStep_extends _ _ _ _ _ _ _ _ _ _ h)
        · simp only [Prod.mk.injEq, and_true] at h
          subst h
          exact h1

end Parametric

section Main

variable [Field K] [LinearOrder K] [FloorRing K]

/-- A construction call with its arguments other than `layer` and `datatype`. -/
inductive PathCall (K : Type) where
  | segment (length : K) (direction : Option (Dir K)) (finalWidth finalDistance : Option K)
      (axisOffset : K)
  | arc (radius ia fa tolerance : K) (numberOfPoints : Option Nat) (maxPoints : Nat)
      (finalWidth finalDistance : Option K)
  | turn (radius : K) (angle : TurnArg K) (tolerance : K) (numberOfPoints : Option Nat)
      (maxPoints : Nat) (finalWidth finalDistance : Option K)
  | parametric (fuel : Nat) (f : K → Pt K) (deriv : Option (K → Pt K)) (tolerance : K)
      (evals maxPoints : Nat) (finalWidth finalDistance : FinArg K) (relative : Bool)
  | bezier (fuel : Nat) (points : List (Pt K)) (tolerance : K) (evals maxPoints : Nat)
      (finalWidth finalDistance : FinArg K) (relative : Bool)
  | smooth (fuel : Nat) (hobby : Hobby K) (points : List (Pt K)) (cycle : Bool) (tolerance : K)
      (evals maxPoints : Nat) (finalWidths finalDistances : Option (List (FinArg K)))
      (relative : Bool)

/-- The call, with `layer` and `datatype`. -/
def PathCall.run (t : Num K) (layer datatype : LayerArg) (p : PPath K) : PathCall K → Out (PPath K)
  | .segment l d fw fd o => p.segment t l d fw fd o layer datatype
  | .arc r ia fa tol N mp fw fd => p.arc t r ia fa tol N mp fw fd layer datatype
  | .turn r a tol N mp fw fd => p.turn t r a tol N mp fw fd layer datatype
  | .parametric fuel f d tol ev mp fw fd rel => p.parametric t fuel f d tol ev mp fw fd rel layer datatype
  | .bezier fuel pts tol ev mp fw fd rel => p.bezier t fuel pts tol ev mp fw fd rel layer datatype
  | .smooth fuel hb pts cyc tol ev mp fw fd rel =>
    p.smooth t fuel hb pts cyc tol ev mp fw fd rel layer datatype

/-- **C45**, one call: a construction call that returns adds rounds of one polygon per parallel path,
the polygons of path `i` having layer and datatype `i` of the arguments, used cyclically. Everything
that was there before is kept. -/
theorem C45_call (t : Num K) (layer datatype : LayerArg) (c : PathCall K) (p q : PPath K)
    (h : c.run t layer datatype p = (q, none)) : Extends layer datatype p q := by
  cases c with
  | segment => exact segment_extends _ _ _ _ _ _ _ _ _ _ h
  | arc => exact arc_extends _ _ _ _ _ _ _ _ _ _ _ _ _ h
  | turn => exact turn_extends _ _ _ _ _ _ _ _ _ _ _ _ h
  | parametric => exact parametric_extends _ _ _ _ _ _ _ _ _ _ _ _ _ _ h
  | bezier => exact bezier_extends _ _ _ _ _ _ _ _ _ _ _ _ _ h
  | smooth => exact smooth_extends _ _ _ _ _ _ _ _ _ _ _ _ _ _ _ h

/-- A sequence of calls, each with its own layers and datatypes; it ends at the first exception. -/
def runCalls (t : Num K) (p : PPath K) (l : List (PathCall K × LayerArg × LayerArg)) : Out (PPath K) :=
  forOut (fun p c => c.1.run t c.2.1 c.2.2 p) p l

theorem Spec.Extends.aligned {layer datatype : LayerArg} {p q : PPath K}
    (h : Extends layer datatype p q) (hp : PathAligned p) : PathAligned q := by
  obtain ⟨_, rounds, hr, h1, h2, h3⟩ := h
  have key : ∀ (g : Nat → Int) (rs : List (List (Pgon K))), (∀ r ∈ rs, r.length = p.n) →
      ((rs.map fun _ => (List.range p.n).map g).flatten).length = rs.flatten.length := by
    intro g rs hrs
    induction rs with
    | nil => rfl
    | cons a l ih =>
      simp only [List.map_cons, List.flatten_cons, List.length_append, List.length_map,
        List.length_range]
      rw [ih (fun r hr => hrs r (List.mem_cons_of_mem _ hr)), hrs a List.mem_cons_self]
  refine ⟨?_, ?_⟩
  · rw [h2, h1, List.length_append, List.length_append, key _ _ hr, hp.1]
  · rw [h3, h1, List.length_append, List.length_append, key _ _ hr, hp.2]

/-- **C45**: after any sequence of `segment`, `arc`, `turn`, `parametric`, `bezier` and `smooth` calls
that return, the path has as many layers and as many datatypes as polygons. -/
theorem C45_aligned (t : Num K) (width : K) (initial : Pt K) (n : Nat) (distance : K)
    (l : List (PathCall K × LayerArg × LayerArg)) (q : PPath K)
    (h : runCalls t (PPath.new width initial n distance) l = (q, none)) : PathAligned q := by
  have : ∀ p : PPath K, PathAligned p → runCalls t p l = (q, none) → PathAligned q := by
    clear h
    unfold runCalls
    intro p hp h
    induction l generalizing p with
    | nil =>
      simp only [forOut, Prod.mk.injEq, and_true] at h
      subst h; exact hp
    | cons c l ih =>
      unfold forOut at h
      cases hc : c.1.run t c.2.1 c.2.2 p with
      | mk r e =>
        simp only [hc] at h
        cases e with
        | some e => simp at h
        | none => exact ih _ ((C45_call _ _ _ _ _ _ hc).aligned hp) h
  exact this _ ⟨rfl, rfl⟩ h

end Main

/-! ### Concrete cases -/

/-- Angles in degrees over the rationals, with crude replacements of the other functions. -/
def ratNum : Num ℚ := { ratTrig with halfpi := 90, sqrt := id, atan2 := fun _ _ => 0, acos := fun _ => some 1 }

/-- Two parallel paths, one segment with two layers, one turn. -/
def samplePath : Out (PPath ℚ) :=
  runCalls ratNum (PPath.new 2 (0, 0) 2 5)
    [(.segment 10 none none none 0, .list [1, 2], .one 0),
     (.turn 20 .l (1 / 100) (some 8) 4 none none, .list [1, 2, 3], .one 7)]

example : samplePath.2 = none ∧ samplePath.1.layers = [1, 2, 1, 2, 1, 2] ∧
    samplePath.1.datatypes = [0, 0, 7, 7, 7, 7] ∧ samplePath.1.polygons.length = 6 := by
  decide +kernel

/-- **C45**, limit: a call that raises may leave polygons without layers: an empty layer list raises
ZeroDivisionError after the polygons have been added. -/
theorem C45_raising_call_misaligns :
    let r := (PPath.new 2 (0, 0) 1 0).segment ratNum 10 none none none 0 (.list []) (.one 0)
    r.2 = some .zeroDivision ∧ r.1.polygons.length = 1 ∧ r.1.layers = [] ∧ ¬ PathAligned r.1 := by
  unfold PathAligned
  decide +kernel

end Gdspy
