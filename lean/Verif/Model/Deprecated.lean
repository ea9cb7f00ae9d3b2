import Verif.Model.Shapes

/-!
# Deprecated shapes: `L1Path` after its construction, `PolyPath`
-/

namespace Gdspy

variable {K : Type} [Field K]

/-- polygon.py:2279-2305 `L1Path.rotate`. -/
def L1Path.rotate (t : Num K) (angle : K) (center : Pt K) (p : L1Path K) : L1Path K :=
  { p with
    direction := .num (p.direction.dictAngle t + angle)
    x := (spinPt (t.cos angle) (t.sin angle) center (p.x, p.y)).1
    y := (spinPt (t.cos angle) (t.sin angle) center (p.x, p.y)).2
    polygons := p.polygons.map (List.map (spinPt (t.cos angle) (t.sin angle) center)) }

/-- polygon.py:511-529 `PolygonSet.translate`, which `L1Path` inherits: the end point is left as it is. -/
def L1Path.translate (dx dy : K) (p : L1Path K) : L1Path K :=
  { p with polygons := ((⟨p.polygons, p.layers, p.datatypes⟩ : PolySet K).translate dx dy).polygons }

end Gdspy
