import Verif.Model.Read
import Mathlib.Data.Int.Log

/-!
# Reading and writing in double precision

The other modules follow the code with exact numbers. Here the coordinates go through the
arithmetic of doubles that `read_gds` and the `to_gds` methods do: one division for the
multiplier or the factor, and one product for each coordinate.
-/

namespace Gdspy

/-- Rounding of IEEE-754 double-precision arithmetic: the nearest number with a significand of
53 bits, ties to even. Simplification: the exponent is not limited. -/
def toDouble (x : ℚ) : ℚ :=
  pyRound (x / (2 : ℚ) ^ (Int.log 2 |x| - 52)) * (2 : ℚ) ^ (Int.log 2 |x| - 52)

/-! ### A function applied to all coordinates -/

def pairMap (g : ℚ → ℚ) (p : ℚ × ℚ) : ℚ × ℚ := (g p.1, g p.2)

def PolygonSet.mapC (g : ℚ → ℚ) (s : PolygonSet) : PolygonSet :=
  { s with polys := s.polys.map fun p => { p with points := p.points.map (pairMap g) } }

def Ends.mapC (g : ℚ → ℚ) : Ends → Ends
  | .ext x y => .ext (g x) (g y)
  | e => e

def SubPath.mapC (g : ℚ → ℚ) (s : SubPath) : SubPath :=
  { s with width := g s.width, ends := s.ends.mapC g, spine := s.spine.map (pairMap g) }

def PathEl.mapC (g : ℚ → ℚ) : PathEl → PathEl
  | .gds p => .gds { p with subs := p.subs.map (SubPath.mapC g) }
  | .outline s => .outline (s.mapC g)

def Label.mapC (g : ℚ → ℚ) (b : Label) : Label := { b with position := pairMap g b.position }

/-- Only the origin: arrays, of which the spacing is computed from corners, are not covered. -/
def Ref.mapC (g : ℚ → ℚ) (r : Ref) : Ref := { r with origin := pairMap g r.origin }

def Cell.mapC (g : ℚ → ℚ) (c : Cell) : Cell :=
  { c with
    polygons := c.polygons.map (PolygonSet.mapC g)
    paths := c.paths.map (PathEl.mapC g)
    labels := c.labels.map (Label.mapC g)
    references := c.references.map (Ref.mapC g) }

section
variable (fl : ℚ → ℚ) (trig : ℚ → ℚ × ℚ)

/-- `round(x * multiplier)` in doubles (polygon.py:208 and 232, path.py:1000-1012 and 1087,
label.py:244-245, library.py:1186-1187). -/
def gridFl (m x : ℚ) : Int := pyRound (fl (x * m))

/-- `(x * multiplier).astype(">i4")` in doubles (path.py:2322, `RobustPath.to_gds`). -/
def truncFl (m x : ℚ) : Int := pyTrunc (fl (x * m))

/-- library.py:129-178 `Cell.to_gds` in doubles, for cells without arrays: every coordinate is
multiplied, with one rounding, then rounded to an integer. -/
def Cell.toGdsFl (m : ℚ) (ts : Timestamp) (c : Cell) : Py Bytes :=
  (c.mapC fun x => fl (x * m)).toGds trig 1 ts

/-- library.py:2427-2509 `write_gds` in doubles, for cells without arrays: `precision / unit`
(2493), `unit / precision` (2503) and the products in `Cell.to_gds`. -/
def writeGdsFl (lib : Lib) (cells : List Cell) (ts : Timestamp) : Py Bytes := do
  let hd ← writeHeader (fun x y => fl (x / y)) lib.name lib.unit lib.precision ts
  let body ← writeAll (Cell.toGdsFl fl trig (fl (lib.unit / lib.precision)) ts) cells
  let e ← pack [.H 4, .H 0x0400]
  pure (hd ++ body ++ e)

/-- library.py:2511-2735 `read_gds` in doubles, for files without arrays read into a library
without cells: the coordinates are the rounded products of the factor with the integers of
the file (2593-2598, 2706-2709), divisions are rounded as well (2684, 2688). -/
def readGdsFl (a : ReadArgs) (lib : Lib) (file : Bytes) : Lib × Option PyErr :=
  let r := readGds (fun x y => fl (x / y)) trig a lib file
  ({ r.1 with cells := r.1.cells.map (Cell.mapC fl) }, r.2)

/-- library.py:1694-1697 and 1758-1763, one direction of an array without rotation and reflection:
the number stored for the corner. -/
def cornerFl (m origin : ℚ) (count : Int) (spacing : ℚ) : Int :=
  gridFl fl m (fl (origin + fl (count * spacing)))

/-- library.py:2779-2781, one direction of an array without rotation and reflection: the spacing
from the integers `n0` and `n2` of the file. -/
def spacingFl (f : ℚ) (count n0 n2 : Int) : ℚ :=
  fl (fl (fl (f * n2) - fl (f * n0)) / count)

end

end Gdspy
