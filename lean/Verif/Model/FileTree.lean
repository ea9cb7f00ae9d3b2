import Verif.Model.Hier
import Verif.Model.Element
import Mathlib.Analysis.SpecialFunctions.Pow.Real

/-!
# From the cells of a library to hierarchies

The cells of `Model/Element.lean` (as they are written to and read from files) seen as the hierarchies of `Model/Hier.lean`
(as they are drawn), with real coordinates. Paths that are not stored as paths are given by their polygons; paths stored as
paths are not drawn here.
-/

namespace Gdspy

variable {P : Type}

noncomputable section

def ptR (p : ℚ × ℚ) : Pt ℝ := ((p.1 : ℝ), (p.2 : ℝ))

/-- polygon.py:83-87: the attributes of a `PolygonSet`. -/
def polySetR (s : PolygonSet) : PolySet ℝ :=
  ⟨s.polys.map fun p => p.points.map ptR, s.polys.map Poly.layer, s.polys.map Poly.datatype⟩

/-- path.py:918-941, 2168-2191 `to_polygonset`, for a path not stored as a path. -/
def outlineSets : PathEl → List PolygonSet
  | .gds _ => []
  | .outline s => [s]

/-- library.py:1104-1109, 1627-1636: the attributes of a reference or array. -/
def refDataR (r : Ref) : RefData ℝ :=
  ⟨some (ptR r.origin), r.rotation.map fun a => (a : ℝ), r.magnification.map fun m => (m : ℝ), some r.xReflection,
    r.array.map fun q => (q.1.toNat, q.2.1.toNat, ptR q.2.2)⟩

/-- The references of a cell. A reference that holds a string draws nothing; the cell of the others is looked up
with `f`. -/
def refsOf (f : Str → Option (HCell ℝ P)) : List Ref → HRefs ℝ P
  | [] => .nil
  | r :: rs =>
    match r.target with
    | .name s => .name (refDataR r) s (refsOf f rs)
    | .cell s =>
      match f s with
      | some c => .cell (refDataR r) c (refsOf f rs)
      | none => .name (refDataR r) s (refsOf f rs)

/-- The hierarchy below a cell, `n` levels of references. The references of the cells of the library are to cells of the
library, found by their names. -/
def drawnTree (cells : List Cell) : Nat → Cell → HCell ℝ P
  | 0, c => .mk c.name ((c.polygons ++ c.paths.flatMap outlineSets).map polySetR) [] [] .nil
  | n + 1, c => .mk c.name ((c.polygons ++ c.paths.flatMap outlineSets).map polySetR) [] []
      (refsOf (fun s => (cells.find? fun c => c.name = s).map (drawnTree cells n)) c.references)

end

end Gdspy
