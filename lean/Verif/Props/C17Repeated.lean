import Verif.Model.Element
import Verif.Model.Flex
import Mathlib.Data.List.Destutter

/-!
# C17: repeated points of a path

`FlexPath.to_gds` and `FlexPath.get_polygons` leave out the sides of length zero (path.py:584-593 and
966-974) before anything else. The points that remain run along the same line: nothing but repetitions
is left out.
-/

namespace Gdspy

open Gdspy

namespace Spec

/-- `t` is `l` without repetitions: each point of `l` stands in `t` once for the whole run of equal
points it belongs to. -/
inductive Runs {α : Type} : List α → List α → Prop where
  | nil : Runs [] []
  | run (a : α) (k : Nat) {l t : List α} (h : Runs l t) (hn : l.head? ≠ some a) :
      Runs (List.replicate (k + 1) a ++ l) (a :: t)

end Spec

open Spec

theorem runs_cons {α : Type} [DecidableEq α] {a b : α} {l t : List α} (h : Runs (b :: l) t) :
    Runs (a :: b :: l) (if a = b then t else a :: t) := by
  split
  · rename_i e
    subst e
    generalize e : a :: l = w at h
    cases h with
    | nil => cases e
    | run c k h hn =>
      rw [List.replicate_succ, List.cons_append] at e
      injection e with e1 e2
      subst e1
      have := Runs.run a (k + 1) h hn
      rw [List.replicate_succ, List.replicate_succ] at this
      rw [List.replicate_succ]
      exact this
  · rename_i e
    exact Runs.run a 0 h (by simpa using fun hb => e hb.symm)

theorem dropRepeated_head (p : ℚ × ℚ) (l : List (ℚ × ℚ)) :
    ∃ r, dropRepeated (p :: l) = p :: r := by
  induction l with
  | nil => exact ⟨[], by rw [dropRepeated]⟩
  | cons q r ih =>
    rw [dropRepeated]
    split
    · exact ih
    · exact ⟨_, rfl⟩

theorem dropRepeated_runs (l : List (ℚ × ℚ)) : Runs l (dropRepeated l) := by
  induction l with
  | nil => rw [dropRepeated]; exact .nil
  | cons p l ih =>
    cases l with
    | nil => rw [dropRepeated]; exact Runs.run p 0 .nil (by simp)
    | cons q r =>
      have h := runs_cons (a := p) ih
      rw [dropRepeated]
      split
      · rename_i e
        rw [if_pos e] at h
        subst e
        exact h
      · rename_i e
        rwa [if_neg e] at h

theorem runs_unique {α : Type} {l t : List α} (h : Runs l t) : ∀ {t' : List α}, Runs l t' → t = t' := by
  induction h with
  | nil =>
    intro t' h'
    generalize e : ([] : List α) = w at h'
    cases h' with
    | nil => rfl
    | run a k h hn => simp [List.replicate_succ] at e
  | @run a k l t h hn ih =>
    intro t' h'
    generalize e : List.replicate (k + 1) a ++ l = w at h'
    cases h' with
    | nil => simp [List.replicate_succ] at e
    | @run b j l' t' h' hn' =>
      have e0 := e
      rw [List.replicate_succ, List.replicate_succ, List.cons_append, List.cons_append] at e0
      injection e0 with e1 e2
      subst e1
      have key : ∀ (k j : Nat) {l l' : List α}, l.head? ≠ some a → l'.head? ≠ some a →
          List.replicate k a ++ l = List.replicate j a ++ l' → l = l' := by
        intro k
        induction k with
        | zero =>
          intro j l l' hl _ e
          cases j with
          | zero => simpa using e
          | succ j => exact absurd (by simp at e; rw [e, List.replicate_succ]; rfl) hl
        | succ k ih =>
          intro j l l' hl hl' e
          cases j with
          | zero => exact absurd (by simp at e; rw [← e, List.replicate_succ]; rfl) hl'
          | succ j =>
            rw [List.replicate_succ, List.replicate_succ, List.cons_append, List.cons_append] at e
            injection e with _ e
            exact ih j hl hl' e
      have := key _ _ hn hn' e
      subst this
      rw [ih h']

theorem dedupRows_runs (l : List (ℚ × ℚ)) :
    Runs l ((dedupRows (l.map fun p => (p, ()))).map Prod.fst) := by
  cases l with
  | nil => exact .nil
  | cons p l =>
    rw [List.map_cons, dedupRows]
    induction l generalizing p with
    | nil => exact Runs.run p 0 .nil (by simp)
    | cons q r ih =>
      have h := runs_cons (a := p) (ih q)
      simp only [List.map_cons, dedupFrom] at h ⊢
      split at h
      · rename_i e
        subst e
        rw [if_pos rfl]
        exact h
      · rename_i e
        rw [if_neg (fun hb => e hb.symm)]
        simpa using h

/-- **C17.** Writing a `FlexPath` as GDSII path keeps one point of each run of equal points: whatever
list of points has one point for each run is the list that is written. -/
theorem C17_repeated_points (l t : List (ℚ × ℚ)) : Runs l t ↔ dropRepeated l = t :=
  ⟨fun h => runs_unique (dropRepeated_runs l) h, fun h => h ▸ dropRepeated_runs l⟩

/-- **C17.** Both places of the code keep the same points: the line of a path stored as GDSII path is the
line of the polygons of that path. -/
theorem C17_repeated_points_outline (l : List (ℚ × ℚ)) :
    dropRepeated l = (dedupRows (l.map fun p => (p, ()))).map Prod.fst :=
  (C17_repeated_points l _).1 (dedupRows_runs l)

theorem runs_ends {α : Type} {l t : List α} (h : Runs l t) :
    t.head? = l.head? ∧ t.getLast? = l.getLast? ∧ t.Sublist l ∧ t.IsChain (· ≠ ·)
      ∧ ∀ a, a ∈ t ↔ a ∈ l := by
  induction h with
  | nil => simp
  | @run a k l t h hn ih =>
    obtain ⟨h1, h2, h3, h4, h5⟩ := ih
    refine ⟨by simp [List.replicate_succ], ?_, ?_, ?_, fun b => ?_⟩
    · rw [List.getLast?_append, List.getLast?_cons, h2, List.getLast?_replicate]
      cases l.getLast? <;> simp
    · rw [List.replicate_succ, List.cons_append]
      exact (h3.trans (List.sublist_append_right _ _)).cons_cons a
    · cases t with
      | nil => simp
      | cons b t =>
        refine List.IsChain.cons_cons (fun e => hn ?_) h4
        rw [← h1, e]; rfl
    · simp [h5]

/-- **C17.** The path written begins and ends where the path does, passes the same points in the same
order, and has no side of length zero. -/
theorem C17_repeated_points_line (l : List (ℚ × ℚ)) :
    (dropRepeated l).head? = l.head? ∧ (dropRepeated l).getLast? = l.getLast? ∧
      (dropRepeated l).Sublist l ∧ (dropRepeated l).IsChain (· ≠ ·) ∧
      ∀ a, a ∈ dropRepeated l ↔ a ∈ l :=
  runs_ends (dropRepeated_runs l)

/-- A path that returns to its first point and rests there: only the rests are left out. -/
example : Runs [((0 : ℚ), (0 : ℚ)), (0, 0), (1, 0), (0, 0), (0, 0), (0, 0)] [(0, 0), (1, 0), (0, 0)] :=
  .run (0, 0) 1 (.run (1, 0) 0 (.run (0, 0) 2 .nil (by simp)) (by simp)) (by simp)

end Gdspy
