import Verif.Props.C43

/-!
# Sums of cross products along chains of points
-/

set_option linter.unusedSectionVars false

namespace Gdspy

open Spec

variable {K : Type} [Field K] [LinearOrder K] [IsStrictOrderedRing K]

theorem chain_join (l m : List (Pt K)) (a : Pt K) : chain (l ++ a :: m) = chain (l ++ [a]) + chain (a :: m) := by
  induction l with
  | nil => simp [chain]
  | cons x l ih =>
    cases l with
    | nil => simp [chain]
    | cons y l =>
      simp only [List.cons_append] at ih ⊢
      rw [chain, ih, chain]
      ring

theorem shoelace_chain (a : Pt K) (l : List (Pt K)) : shoelace (a :: l) = chain (a :: l ++ [a]) := by
  unfold shoelace
  rw [List.rotate_cons_succ, List.rotate_zero, zip_chain]
  rcases List.eq_nil_or_concat l with rfl | ⟨l', b, rfl⟩
  · simp [chain, cross]
  · rw [List.concat_eq_append, List.getLastD_concat]
    have h : a :: (l' ++ [b]) ++ [a] = (a :: l') ++ b :: [a] := by simp
    rw [h, chain_join]
    simp [chain]

theorem chain_reverse (l : List (Pt K)) : chain l.reverse = -chain l := by
  induction l with
  | nil => simp [chain]
  | cons a l ih =>
    cases l with
    | nil => simp [chain]
    | cons b l =>
      rw [List.reverse_cons, List.reverse_cons, List.append_assoc]
      show chain (l.reverse ++ b :: [a]) = _
      rw [chain_join, ← List.reverse_cons, ih]
      simp only [chain, cross]
      ring

/-- A strip of quadrangles. -/
theorem chain_strip (r l : Nat → Pt K) (n : Nat) :
    chain ((List.range (n + 1)).map r) - chain ((List.range (n + 1)).map l) + cross (r n) (l n) + cross (l 0) (r 0) =
      ((List.range n).map fun i => cross (r i) (r (i + 1)) + cross (r (i + 1)) (l (i + 1)) + cross (l (i + 1)) (l i) +
        cross (l i) (r i)).sum := by
  induction n with
  | zero => simp [chain, cross]
  | succ n ih =>
    have h (f : Nat → Pt K) : chain ((List.range (n + 1 + 1)).map f) =
        chain ((List.range (n + 1)).map f) + cross (f n) (f (n + 1)) := by
      rw [List.range_succ, List.map_append, List.range_succ, List.map_append, List.append_assoc]
      show chain (_ ++ f n :: [f (n + 1)]) = _
      rw [chain_join]
      simp [chain]
    have h2 (f : Nat → K) : ((List.range (n + 1)).map f).sum = ((List.range n).map f).sum + f n := by
      rw [List.range_succ, List.map_append, List.sum_append]
      simp
    rw [h r, h l, h2, ← ih]
    simp only [cross]
    ring

end Gdspy
