import Verif.Lemmas.Hier
import Mathlib.Data.Rat.Defs

/-!
Concrete hierarchies for the examples.
-/

namespace Gdspy

open Spec

/-- Angles in degrees over the rationals: multiples of 90 and one angle with rational cosine. -/
def ratTrig : Trig ℚ where
  cos a := if a = 90 ∨ a = 270 ∨ a = -90 then 0 else if a = 180 then -1 else if a = 37 then 4 / 5 else 1
  sin a := if a = 90 then 1 else if a = 270 ∨ a = -90 then -1 else if a = 180 then 0
    else if a = 37 then 3 / 5 else 0
  cardinal a := a.num % 90 = 0 ∧ a.den = 1

/-- Paths given by their polygons. -/
abbrev IdealPath := List ((Int × Int) × List (Pgon ℚ))

/-- Paths whose transformation moves their polygons. -/
def idealOps (t : Trig ℚ) : PathOps ℚ IdealPath where
  elems p := p
  transform o a m x s p := p.map fun e => (e.1, e.2.map (List.map fun q =>
    match s with
    | none => refPt t ⟨o, a, m, x, none⟩ q
    | some s => arrPt t ⟨o, a, m, x, none⟩ s q))
  relabel l d p := p.map fun e => ((l.getD e.1.1, d.getD e.1.2), e.2)

def sampleArray : RefData ℚ :=
  ⟨some (10, 20), some 90, some 2, some true, some (2, 2, (5, 6))⟩

def sampleRef : RefData ℚ := ⟨some (-3, 1), some 37, none, some false, none⟩

/-- A square on (1, 0) and a path with one element on (1, 0). -/
def sampleLeaf : HCell ℚ IdealPath :=
  .mk ['L'] [⟨[[(0, 0), (1, 0), (1, 1), (0, 1)]], [1], [0]⟩] []
    [⟨['t'], (1, 2), none, none, some false, 3, some 4⟩] .nil

def sampleMid : HCell ℚ IdealPath :=
  .mk ['M'] [⟨[[(0, 0), (3, 0), (0, 3)], [(1, 1), (2, 1), (2, 2)]], [2, 1], [0, 0]⟩]
    [[((2, 1), [[(0, 0), (0, 5), (1, 5)]]), ((2, 2), [[(7, 0), (8, 0), (8, 1)]])]] []
    (.cell sampleArray sampleLeaf (.name sampleRef ['X'] .nil))

def sampleTop : HCell ℚ IdealPath :=
  .mk ['T'] [⟨[[(0, 0), (9, 0), (9, 9)], [(1, 1), (2, 1), (2, 2)]], [2, 3], [0, 0]⟩] [] []
    (.cell sampleRef sampleMid (.cell sampleRef sampleLeaf .nil))

end Gdspy
