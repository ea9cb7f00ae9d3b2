import Verif.Model.HierFlex
import Verif.Model.Robust

/-!
# RobustPaths in cells

The operations that the hierarchy (`Verif.Model.Hier`) needs from a path, for `RobustPath` (`Verif.Model.Robust`).
-/

namespace Gdspy

variable {K : Type} [Field K] [LinearOrder K] [FloorRing K]

/-- path.py:1986-2162: layer, datatype and polygons of one path. -/
def Robust.element (ctx : FlexCtx K) (r : Robust K) (k : List (Sub K) × FlexEnd K × Int × Int) :
    Py ((Int × Int) × List (Pgon K)) := do
  let poly ← robustOutline ctx r.tolerance r.maxEvals k.2.1 k.1
  let polys ← flexPieces ctx r.precision r.maxPoints poly
  pure ((k.2.2.1, k.2.2.2), polys)

/-- path.py:1985-2162: the polygons of all paths. -/
def Robust.elements (ctx : FlexCtx K) (r : Robust K) : Py (List ((Int × Int) × List (Pgon K))) :=
  (List.zip r.paths (List.zip r.ends (List.zip r.layers r.datatypes))).mapM (r.element ctx)

/-- library.py:840-842, 846-847, 851-852: `path.layers = [single_layer] * path.n` and the same for datatypes. The
cached polygons are left as they are. -/
def Robust.relabel (l d : Option Int) (r : Robust K) : Robust K :=
  { r with
    layers := overwrite r.n l r.layers
    datatypes := overwrite r.n d r.datatypes }

/-- What the hierarchy uses of a `RobustPath`. Polygons come from the cache if there is one (path.py:1983-1984). The
rotation of a reference is in degrees (library.py:1434). Simplified: paths whose `get_polygons` raises have no polygons,
and queries leave the path as it is. -/
def robustOps (ctx : FlexCtx K) : PathOps K (Robust K) where
  elems r := match r.cache with
    | some d => d
    | none => match r.elements ctx with
      | .ok l => l
      | .error _ => []
  transform translation rotation scale xrefl arrayTrans r :=
    r.transform ctx.num translation (rotation.map fun a => a * (2 * ctx.num.halfpi) / 180) scale (xrefl.getD false) arrayTrans
  relabel := Robust.relabel

end Gdspy
