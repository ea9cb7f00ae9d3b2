import Mathlib.Data.Rat.Floor
import Verif.Lemmas.Region
import Verif.Model.Clip

/-!
C54: before clipping every polygon is rounded to the grid and oriented counter-clockwise.
-/

set_option linter.unusedSectionVars false

namespace Gdspy

open Gdspy.Spec

variable {K : Type} [Field K] [LinearOrder K] [IsStrictOrderedRing K] [FloorRing K]

theorem ofGrid_reverse (P : List IPt) : (ofGrid P.reverse : Pgon K) = (ofGrid P).reverse := by
  simp [ofGrid]

theorem orientSum_spec (p0 a : IPt) (l : List IPt) :
    ((orientSum p0 a l : Int) : K) =
      ((List.zip (ofGrid (a :: l) : Pgon K) (ofGrid (l ++ [p0]))).map
        fun e => e.1.1 * e.2.2 - e.2.1 * e.1.2).sum + ((p0.1 : K) * a.2 - a.1 * p0.2) := by
  induction l generalizing a with
  | nil => simp [orientSum, ofGrid]
  | cons b l ih =>
    unfold orientSum
    push_cast
    rw [ih b]
    simp only [ofGrid, List.map_cons, List.cons_append, List.zip_cons_cons, List.sum_cons]
    ring

/-- The number that the code computes is twice the signed area. -/
theorem orientation_shoelace (P : List IPt) : ((orientation P : Int) : K) = shoelace (ofGrid P) := by
  rw [shoelace_edges]
  match P with
  | [] => simp [orientation, ofGrid, edges]
  | [a] => simp [orientation, ofGrid, edges]
  | p0 :: p1 :: r =>
    have : (ofGrid (p0 :: p1 :: r) : Pgon K) = ((p0.1 : K), (p0.2 : K)) :: ofGrid (p1 :: r) := rfl
    rw [this, edges_cons]
    have h2 : (ofGrid (p1 :: r) : Pgon K) ++ [((p0.1 : K), (p0.2 : K))] =
        ((p1.1 : K), (p1.2 : K)) :: ofGrid (r ++ [p0]) := by simp [ofGrid]
    rw [h2, List.zip_cons_cons, List.map_cons, List.sum_cons]
    unfold orientation
    rw [orientSum_spec]
    ring

theorem shoelace_neg_reverse (P : Pgon K) : shoelace P.reverse = - shoelace P := by
  rw [shoelace_edges, shoelace_edges, ((edges_reverse_perm P).map _).sum_eq, List.map_map]
  induction edges P with
  | nil => simp
  | cons e l ih =>
    rw [List.map_cons, List.sum_cons, ih, List.map_cons, List.sum_cons]
    simp only [Function.comp, Prod.fst_swap, Prod.snd_swap]
    ring

theorem orientation_reverse (P : List IPt) : orientation P.reverse = - orientation P := by
  have h : ((orientation P.reverse : Int) : ℚ) = ((- orientation P : Int) : ℚ) := by
    push_cast
    rw [orientation_shoelace, orientation_shoelace, ofGrid_reverse, shoelace_neg_reverse]
  exact_mod_cast h

theorem orientPath_or (P : List IPt) : orientPath P = P ∨ orientPath P = P.reverse := by
  unfold orientPath
  split
  · exact Or.inr rfl
  · exact Or.inl rfl

theorem orientPath_wind (P : List IPt) (v : Pt K) :
    wind (ofGrid (orientPath P)) v = wind (ofGrid P) v ∨
    wind (ofGrid (orientPath P)) v = - wind (ofGrid P) v := by
  rcases orientPath_or P with h | h <;> rw [h]
  · exact Or.inl rfl
  · rw [ofGrid_reverse, wind_reverse]; exact Or.inr rfl

theorem orientPath_covers (P : List IPt) (v : Pt K) :
    wind (ofGrid (orientPath P)) v ≠ 0 ↔ wind (ofGrid P : Pgon K) v ≠ 0 := by
  rcases orientPath_wind P v with h | h <;> rw [h]
  rw [neg_ne_zero]

/-- **C54**: what the clipper works on is the polygon rounded to the grid, in the given or in the
opposite direction (same vertices, same cyclic order), with a signed area that is not negative, and
covering the same points. -/
theorem C54_oriented (scaling : K) (p : Pgon K) :
    (parsePolygon scaling true p = p.map (gridPt scaling) ∨
      parsePolygon scaling true p = (p.map (gridPt scaling)).reverse) ∧
    0 ≤ shoelace (ofGrid (parsePolygon scaling true p) : Pgon K) ∧
    ∀ v : Pt K, wind (ofGrid (parsePolygon scaling true p)) v ≠ 0 ↔
      wind (ofGrid (p.map (gridPt scaling)) : Pgon K) v ≠ 0 := by
  refine ⟨orientPath_or _, ?_, fun v => orientPath_covers _ v⟩
  show 0 ≤ shoelace (ofGrid (orientPath (p.map (gridPt scaling))) : Pgon K)
  rw [← orientation_shoelace]
  unfold orientPath
  split
  · rename_i h
    rw [orientation_reverse]
    exact_mod_cast (by omega : (0 : Int) ≤ - orientation (p.map (gridPt scaling)))
  · rename_i h
    exact_mod_cast (by omega : (0 : Int) ≤ orientation (p.map (gridPt scaling)))

/-- **C54**: a polygon drawn in the opposite direction gives the same input to the clipper, so every
operation has the same result, unless its area on the grid is zero. -/
theorem C54_direction (scaling : K) (p : Pgon K)
    (h : shoelace (ofGrid (p.map (gridPt scaling)) : Pgon K) ≠ 0) :
    parsePolygon scaling true p.reverse = parsePolygon scaling true p := by
  show orientPath (p.reverse.map (gridPt scaling)) = orientPath (p.map (gridPt scaling))
  rw [List.map_reverse]
  have h0 : orientation (p.map (gridPt scaling)) ≠ 0 := by
    intro h0
    apply h
    rw [← orientation_shoelace, h0, Int.cast_zero]
  unfold orientPath
  rw [orientation_reverse, List.reverse_reverse]
  rcases lt_or_gt_of_ne h0 with h1 | h1
  · rw [if_neg (by omega), if_pos h1]
  · rw [if_pos (by omega), if_neg (by omega)]

/-- **C54**: the starting vertex does not matter either: the clipper gets a polygon with the same winding
number around every point. -/
theorem C54_start (scaling : K) (p : Pgon K) (n : Nat) (v : Pt K) :
    wind (ofGrid (parsePolygon scaling true (p.rotate n))) v =
      wind (ofGrid (parsePolygon scaling true p)) v := by
  show wind (ofGrid (orientPath ((p.rotate n).map (gridPt scaling)))) v =
    wind (ofGrid (orientPath (p.map (gridPt scaling)))) v
  rw [List.map_rotate]
  generalize p.map (gridPt scaling) = P
  have hg : (ofGrid (P.rotate n) : Pgon K) = (ofGrid P).rotate n := by
    unfold ofGrid; rw [List.map_rotate]
  have ho : orientation (P.rotate n) = orientation P := by
    have h : ((orientation (P.rotate n) : Int) : K) = ((orientation P : Int) : K) := by
      rw [orientation_shoelace, orientation_shoelace, hg, shoelace_edges, shoelace_edges, edges_rotate]
      exact ((List.rotate_perm _ _).map _).sum_eq
    exact_mod_cast h
  unfold orientPath
  rw [ho]
  split
  · rw [ofGrid_reverse, ofGrid_reverse, wind_reverse, wind_reverse, hg, wind_rotate]
  · rw [hg, wind_rotate]

/-! ### Concrete cases, and the limit of C54 -/

/-- A clockwise triangle is turned around. -/
example : parsePolygon (1000 : ℚ) true [(0, 0), (0, 3), (2, 0)] =
    [(2000, 0), (0, 3000), (0, 0)] := by decide +kernel

/-- **C54**, limit: for a polygon of zero signed area (here a bow tie) the direction does matter when it is
clipped together with another polygon of the same operand: the winding numbers add up to 2 or to 0, so a
point covered by both polygons is kept or lost. -/
theorem C54_zero_area :
    let bow : Pgon ℚ := [(0, 0), (4, 4), (4, 0), (0, 4)]
    let square : Pgon ℚ := [(0, 0), (4, 0), (4, 4), (0, 4)]
    let v : Pt ℚ := (1, 2)
    shoelace bow = 0 ∧ wind bow v ≠ 0 ∧ wind square v ≠ 0 ∧
    total [ofGrid (parsePolygon 1 true bow), ofGrid (parsePolygon 1 true square)] v = 2 ∧
    total [ofGrid (parsePolygon 1 true bow.reverse), ofGrid (parsePolygon 1 true square)] v = 0 := by
  decide +kernel

end Gdspy
