import Verif.Spec.Import
import Verif.Spec.Stream

/-!
Specification of what a write/read cycle must give back: cells and libraries.
-/

namespace Gdspy.Spec

def _root_.Gdspy.PathEl.scaled (k : ℚ) : PathEl → PathEl
  | .gds p => .gds (p.scaled k)
  | .outline s => .outline (s.scaled k)

def _root_.Gdspy.Cell.scaled (k : ℚ) (c : Cell) : Cell :=
  { c with
    polygons := c.polygons.map (PolygonSet.scaled k)
    paths := c.paths.map (PathEl.scaled k)
    labels := c.labels.map (Label.scaled k)
    references := c.references.map (Ref.scaled k) }

/-- The polygons that a path is stored as, unless it is stored as a path. -/
def _root_.Gdspy.PathEl.asPolygons (a : ReadArgs) : PathEl → List PolygonSet
  | .gds _ => []
  | .outline s => s.imported a

/-- The paths read from the records of a path. -/
def _root_.Gdspy.PathEl.asPaths (a : ReadArgs) : PathEl → List PathEl
  | .gds p => (p.imported a).map .gds
  | .outline _ => []

/-- A cell as read, before names are resolved: every element list is kept in order; paths stored as
polygons follow the polygons. -/
def _root_.Gdspy.Cell.imported (a : ReadArgs) (c : Cell) : Cell :=
  { name := a.nameMap c.name
    polygons := c.polygons.flatMap (PolygonSet.imported a) ++ c.paths.flatMap (PathEl.asPolygons a)
    paths := c.paths.flatMap (PathEl.asPaths a)
    labels := c.labels.map (Label.imported a)
    references := c.references.map (Ref.imported a) }

/-- References by name become references to cells when a cell of that name exists. -/
def _root_.Gdspy.Ref.resolvedIn (names : List Str) (r : Ref) : Ref :=
  match r.target with
  | .name s => if s ∈ names then { r with target := .cell s } else r
  | .cell _ => r

def _root_.Gdspy.Cell.resolvedIn (names : List Str) (c : Cell) : Cell :=
  { c with references := c.references.map (Ref.resolvedIn names) }

structure _root_.Gdspy.Cell.Good (trig : ℚ → ℚ × ℚ) (m d : ℚ) (c : Cell) : Prop where
  name : GoodText c.name
  polygons : ∀ s ∈ c.polygons, s.Good m d
  paths : ∀ p, PathEl.gds p ∈ c.paths → p.Good m d
  outlines : ∀ s, PathEl.outline s ∈ c.paths → s.Good m d
  labels : ∀ b ∈ c.labels, b.Good m d
  references : ∀ r ∈ c.references, r.Good trig m d

end Gdspy.Spec
