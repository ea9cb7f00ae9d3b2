import Verif.Model.Read

/-!
Specification vocabulary for files that were cut short: what it means that a library holds an
initial part of another one.
-/

namespace Gdspy.Spec

/-- The same reference, except that the name of its cell may have been replaced by the cell. -/
def RefPart (r s : Ref) : Prop := s = r ∨ ∃ n, r.target = .name n ∧ s = { r with target := .cell n }

/-- The same cell with only the first ones of its elements. -/
def CellPart (c d : Cell) : Prop :=
  c.name = d.name ∧ c.polygons <+: d.polygons ∧ c.paths <+: d.paths ∧ c.labels <+: d.labels ∧
    ∃ l, List.Forall₂ RefPart c.references l ∧ l <+: d.references

/-- The first ones of the cells, with the first ones of their elements. -/
def CellsPart (cs ds : List Cell) : Prop := ∃ l, List.Forall₂ CellPart cs l ∧ l <+: ds

end Gdspy.Spec
