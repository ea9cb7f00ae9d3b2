import Verif.Model.Hier
import Verif.Model.Flex

/-!
# FlexPaths in cells

The operations that the hierarchy (`Verif.Model.Hier`) needs from a path, for `FlexPath` (`Verif.Model.Flex`).
-/

namespace Gdspy

variable {K : Type} [Field K] [LinearOrder K] [FloorRing K]

/-- path.py:408-414, 583-596: the paths with polygons, and their outlines. -/
def Flex.outlines (ctx : FlexCtx K) (f : Flex K) : List Nat × (Nat → Py (Pgon K)) :=
  if f.points.length = 2 then
    match f.points with
    | [p, q] => if p = q then ([], f.twoOf ctx) else (List.range f.n, f.twoOf ctx)
    | _ => ([], f.twoOf ctx)
  else (List.range f.n, f.dedup.manyOf ctx)

/-- path.py:543-581, 875-912: layer, datatype and polygons of path `k`. -/
def Flex.element (ctx : FlexCtx K) (f : Flex K) (outline : Nat → Py (Pgon K)) (k : Nat) :
    Py ((Int × Int) × List (Pgon K)) := do
  let poly ← outline k
  let polys ← flexPieces ctx f.precision f.maxPoints poly
  let l ← idx f.layers k
  let dt ← idx f.datatypes k
  pure ((l, dt), polys)

/-- path.py:408-912: the polygons of all paths. -/
def Flex.elements (ctx : FlexCtx K) (f : Flex K) : Py (List ((Int × Int) × List (Pgon K))) :=
  (f.outlines ctx).1.mapM (f.element ctx (f.outlines ctx).2)

/-- `[x] * n`, or what was there if there is no `x`. -/
def overwrite (n : Nat) (x : Option Int) (old : List Int) : List Int :=
  match x with
  | none => old
  | some x => List.replicate n x

/-- library.py:840-842, 846-847, 851-852: `path.layers = [single_layer] * path.n` and the same for datatypes. The
cached polygons are left as they are. -/
def Flex.relabel (l d : Option Int) (f : Flex K) : Flex K :=
  { f with
    layers := overwrite f.n l f.layers
    datatypes := overwrite f.n d f.datatypes }

/-- What the hierarchy uses of a `FlexPath`. Polygons come from the cache if there is one (path.py:406-407). The
rotation of a reference is in degrees (library.py:1434). Simplified:
paths whose `get_polygons` raises have no polygons, and queries leave the path as it is (what they change is the subject
of C60). -/
def flexOps (ctx : FlexCtx K) : PathOps K (Flex K) where
  elems f := match f.cache with
    | some d => d
    | none => match f.elements ctx with
      | .ok l => l
      | .error _ => []
  transform translation rotation scale xrefl arrayTrans f :=
    f.transform ctx.num translation (rotation.map fun a => a * (2 * ctx.num.halfpi) / 180) scale (xrefl.getD false) arrayTrans
  relabel := Flex.relabel

end Gdspy
