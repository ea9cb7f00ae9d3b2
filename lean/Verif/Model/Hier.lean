import Verif.Model.Py
import Mathlib.Algebra.Order.Field.Basic

/-!
# Cell hierarchies

Model of the queries of `Cell`, `CellReference` and `CellArray` that walk the hierarchy:
`area`, `get_layers`, `get_datatypes`, `get_texttypes`, `get_svg_classes`, `get_bounding_box`
(without the cache, which is in `Verif.Model.BBox`), `get_polygons`, `get_polygonsets`,
`get_paths`, `get_labels`, `flatten`, `copy`, `remove_polygons`, `remove_paths`, `remove_labels`
(library.py:180-854, 1254-1528, 1848-2161).

Cells are trees: a cell that is referenced several times appears several times. Sharing can not
be observed by these queries (the bounding box cache, where it can, is modelled with a
heap). Cyclic hierarchies, on which all of these functions recurse without end, are not represented.

Coordinates are elements of an ordered field `K`, so rounding of floating point numbers is not
modelled. Angles are in degrees; the conversion from degrees to radians and back is taken to be
exact, and `numpy.cos`, `numpy.sin` are given by a structure `Trig`, about which theorems make
explicit assumptions where they need them.

`P` is the type of paths (`FlexPath` or `RobustPath`), with the operations used here in `PathOps`.
-/

namespace Gdspy

/-- Cosine, sine and `% 90 == 0` of an angle in degrees. -/
structure Trig (K : Type) where
  cos : K → K
  sin : K → K
  cardinal : K → Bool

abbrev Pt (K : Type) := K × K
abbrev Pgon (K : Type) := List (Pt K)

/-- polygon.py:83-87: the attributes of `PolygonSet`. -/
structure PolySet (K : Type) where
  polygons : List (Pgon K)
  layers : List Int
  datatypes : List Int
  deriving DecidableEq

/-- label.py:134-159: the attributes of `Label`. -/
structure HLabel (K : Type) where
  text : Str
  position : Pt K
  rotation : Option K
  magnification : Option K
  xrefl : Option Bool
  layer : Int
  texttype : Option Int
  deriving DecidableEq

/-- library.py:1096-1115, 1623-1652: the attributes of `CellReference`, and with `array` (columns,
rows, spacing) of `CellArray`. -/
structure RefData (K : Type) where
  origin : Option (Pt K)
  rotation : Option K
  magnification : Option K
  xrefl : Option Bool
  array : Option (Nat × Nat × Pt K)
  deriving DecidableEq

/-- What the hierarchy needs from a path. `elems` lists, for each of the parallel elements, its
layer, datatype and polygons. `transform` has the arguments of `FlexPath.transform`
(path.py:1253, 2497): translation, rotation, scale, x_reflection, array_trans. `relabel` sets
all layers and/or datatypes. -/
structure PathOps (K P : Type) where
  elems : P → List ((Int × Int) × List (Pgon K))
  transform : Option (Pt K) → Option K → Option K → Option Bool → Option (Pt K) → P → P
  relabel : Option Int → Option Int → P → P

mutual
/-- library.py:104-112: the attributes of `Cell`. -/
inductive HCell (K P : Type) : Type
  | mk (name : Str) (polygons : List (PolySet K)) (paths : List P) (labels : List (HLabel K))
      (references : HRefs K P)

/-- `Cell.references`: a list of references whose `ref_cell` is a cell or a string. -/
inductive HRefs (K P : Type) : Type
  | nil
  | cell (r : RefData K) (c : HCell K P) (rest : HRefs K P)
  | name (r : RefData K) (s : Str) (rest : HRefs K P)
end

variable {K P : Type}

def HCell.name : HCell K P → Str | .mk n _ _ _ _ => n
def HCell.polygons : HCell K P → List (PolySet K) | .mk _ p _ _ _ => p
def HCell.paths : HCell K P → List P | .mk _ _ p _ _ => p
def HCell.labels : HCell K P → List (HLabel K) | .mk _ _ _ l _ => l
def HCell.references : HCell K P → HRefs K P | .mk _ _ _ _ r => r

/-! ## Dictionaries -/

/-- `if k in d: d[k].extend(v) else: d[k] = v` (library.py:642-645 and others). -/
def dictExtend {κ α : Type} [DecidableEq κ] (k : κ) (v : List α) : List (κ × List α) → List (κ × List α)
  | [] => [(k, v)]
  | (k', v') :: d => if k' = k then (k', v' ++ v) :: d else (k', v') :: dictExtend k v d

/-- Merge the second dictionary into the first. -/
def dictMerge {κ α : Type} [DecidableEq κ] (d e : List (κ × List α)) : List (κ × List α) :=
  e.foldl (fun d p => dictExtend p.1 p.2 d) d

/-- Keys of `get_polygons(by_spec=True)`: (layer, datatype), or the name of a cell whose bounding
box is returned. -/
inductive SpecKey where
  | ld (layer datatype : Int)
  | cell (name : Str)
  deriving DecidableEq

section Geometry

variable [Field K]

/-- `points * xrefl` with `xrefl = (1, -1)`. -/
def xreflPt (p : Pt K) : Pt K := (p.1 * 1, p.2 * (-1))

/-- `points * ct + points[:, ::-1] * st` with `st = sin * _mpone`, `_mpone = (-1, 1)`. -/
def rotPt (c s : K) (p : Pt K) : Pt K := (p.1 * c + p.2 * (s * (-1)), p.2 * c + p.1 * (s * 1))

def scalePt (m : K) (p : Pt K) : Pt K := (p.1 * m, p.2 * m)

def addPt (p q : Pt K) : Pt K := (p.1 + q.1, p.2 + q.2)

/-- Apply a step if the attribute is not None. -/
def onSome {α β : Type} (o : Option α) (f : α → β → β) (b : β) : β :=
  match o with
  | none => b
  | some a => f a b

/-- library.py:1319-1333: one vertex in `CellReference._transform_polygons`. -/
def refPt (t : Trig K) (r : RefData K) (p : Pt K) : Pt K :=
  let p := if r.xrefl = some true then xreflPt p else p
  let p := onSome r.magnification scalePt p
  let p := onSome r.rotation (fun a => rotPt (t.cos a) (t.sin a)) p
  onSome r.origin (fun o q => addPt q o) p

/-- library.py:1928-1943: one vertex in `CellArray._transform_polygons`, list form. -/
def arrPt (t : Trig K) (r : RefData K) (spc : Pt K) (p : Pt K) : Pt K :=
  let p := match r.magnification with
    | some m => addPt (scalePt m p) spc
    | none => addPt p spc
  let p := if r.xrefl = some true then xreflPt p else p
  let p := onSome r.rotation (fun a => rotPt (t.cos a) (t.sin a)) p
  onSome r.origin (fun o q => addPt q o) p

/-- library.py:1906-1921: the dictionary form, which tests `if self.magnification:`. -/
def arrPtDict [DecidableEq K] (t : Trig K) (r : RefData K) (spc : Pt K) (p : Pt K) : Pt K :=
  arrPt t (if r.magnification = some 0 then { r with magnification := none } else r) spc p

/-- The pairs (ii, jj) in the order of the loops `for ii in range(columns): for jj in range(rows)`
with `spc = [spacing[0] * ii, spacing[1] * jj]` (library.py:1902-1904). -/
def lattice (cols rows : Nat) (spacing : Pt K) : List (Pt K) :=
  (List.range cols).flatMap fun (ii : Nat) => (List.range rows).map fun (jj : Nat) =>
    (spacing.1 * (ii : K), spacing.2 * (jj : K))

/-- library.py:1284-1334, 1878-1944: `_transform_polygons` on a list. -/
def transformPolys (t : Trig K) (r : RefData K) (l : List (Pgon K)) : List (Pgon K) :=
  match r.array with
  | none => l.map fun p => p.map (refPt t r)
  | some (cols, rows, spacing) =>
    (lattice cols rows spacing).flatMap fun spc => l.map fun p => p.map (arrPt t r spc)

/-- The same on the values of a dictionary. -/
def transformDictVal [DecidableEq K] (t : Trig K) (r : RefData K) (l : List (Pgon K)) : List (Pgon K) :=
  match r.array with
  | none => l.map fun p => p.map (refPt t r)
  | some (cols, rows, spacing) =>
    (lattice cols rows spacing).flatMap fun spc => l.map fun p => p.map (arrPtDict t r spc)

end Geometry

/-! ## Own elements -/

/-- Layer, datatype and points of the polygons of a set, `polyset.polygons[ii]` with
`polyset.layers[ii]`, `polyset.datatypes[ii]`. Simplified: sets have as many layers and datatypes as
polygons (an IndexError is not modelled). -/
def PolySet.tagged (ps : PolySet K) : List ((Int × Int) × Pgon K) :=
  (ps.layers.zip ps.datatypes).zip ps.polygons

/-- path.py:390-916, 1967-2166 (end of `get_polygons(True)`): the elements are collected by layer
and datatype. -/
def PathOps.dict (ops : PathOps K P) (p : P) : List ((Int × Int) × List (Pgon K)) :=
  (ops.elems p).foldl (fun d e => dictExtend e.1 e.2 d) []

/-- `path.get_polygons()`: the values of the dictionary, chained. -/
def PathOps.polys (ops : PathOps K P) (p : P) : List (Pgon K) := (ops.dict p).flatMap Prod.snd

/-! ## Bounding boxes -/

section Box

variable [LinearOrder K]

/-- Smallest box of a list of points: `all_points[0].min()` and so on. -/
def boxOf : List (Pt K) → Option (Pt K × Pt K)
  | [] => none
  | p :: l => some (l.foldl (fun b q => ((min b.1.1 q.1, min b.1.2 q.2), (max b.2.1 q.1, max b.2.2 q.2)))
      (p, p))

/-- The array `[[x_min, y_min], [x_max, y_max]]` as a list of points. -/
def boxPts (b : Pt K × Pt K) : Pgon K := [b.1, b.2]

/-- library.py:622-631: the rectangle standing for a cell. -/
def boxRect (b : Pt K × Pt K) : Pgon K :=
  [(b.1.1, b.1.2), (b.1.1, b.2.2), (b.2.1, b.2.2), (b.2.1, b.1.2)]

end Box

/-! ## Polygons without a limit of depth -/

section Flat

variable [Field K]

mutual
/-- library.py:591-699 `Cell.get_polygons()`. -/
def HCell.flatPolys (ops : PathOps K P) (t : Trig K) : HCell K P → List (Pgon K)
  | .mk _ polys paths _ refs =>
    polys.flatMap PolySet.polygons ++ paths.flatMap ops.polys ++ HRefs.flatPolys ops t refs

/-- library.py:667-676 with 1336-1368, 1946-1978: the references in the list form. -/
def HRefs.flatPolys (ops : PathOps K P) (t : Trig K) : HRefs K P → List (Pgon K)
  | .nil => []
  | .cell r c rest => transformPolys t r (HCell.flatPolys ops t c) ++ HRefs.flatPolys ops t rest
  | .name _ _ rest => HRefs.flatPolys ops t rest
end

variable [LinearOrder K]

mutual
/-- library.py:551-589 `Cell.get_bounding_box` when the cached box is not used. Simplified: the
initial values of 1e300 are not modelled, nor the exceptions raised for paths without polygons
(`to_polygonset()` is None) and polygons without vertices, which count as absent. -/
def HCell.bbox (ops : PathOps K P) (t : Trig K) : HCell K P → Option (Pt K × Pt K)
  | .mk _ polys paths _ refs =>
    boxOf ((polys.flatMap PolySet.polygons ++ paths.flatMap ops.polys).flatten
      ++ HRefs.boxes ops t refs)

/-- library.py:1496-1528, 2130-2161: the corners of the boxes of the references. -/
def HRefs.boxes (ops : PathOps K P) (t : Trig K) : HRefs K P → List (Pt K)
  | .nil => []
  | .cell r c rest =>
    let pts := if r.rotation.all t.cardinal then
        match HCell.bbox ops t c with
        | none => []
        | some b => (transformPolys t r [boxPts b]).flatten
      else (transformPolys t r (HCell.flatPolys ops t c)).flatten
    ((boxOf pts).map boxPts).getD [] ++ HRefs.boxes ops t rest
  | .name _ _ rest => HRefs.boxes ops t rest
end

/-! ## Polygons with a limit of depth -/

/-- `depth is not None and depth < 0`. -/
def below (depth : Option Int) : Bool := depth.any fun d => d < 0

/-- `next_depth`. -/
def nextDepth (depth : Option Int) : Option Int := depth.map fun d => d - 1

mutual
/-- library.py:591-699 `Cell.get_polygons(False, depth)`. -/
def HCell.polys (ops : PathOps K P) (t : Trig K) (depth : Option Int) : HCell K P → List (Pgon K)
  | .mk name polys paths labels refs =>
    if below depth then
      match HCell.bbox ops t (.mk name polys paths labels refs) with
      | none => []
      | some b => [boxRect b]
    else polys.flatMap PolySet.polygons ++ paths.flatMap ops.polys
      ++ HRefs.polys ops t (nextDepth depth) refs

def HRefs.polys (ops : PathOps K P) (t : Trig K) (depth : Option Int) : HRefs K P → List (Pgon K)
  | .nil => []
  | .cell r c rest => transformPolys t r (HCell.polys ops t depth c) ++ HRefs.polys ops t depth rest
  | .name _ _ rest => HRefs.polys ops t depth rest
end

mutual
/-- library.py:591-699 `Cell.get_polygons(True, depth)`. -/
def HCell.polyDict (ops : PathOps K P) (t : Trig K) (depth : Option Int) :
    HCell K P → List (SpecKey × List (Pgon K))
  | .mk name polys paths labels refs =>
    if below depth then
      match HCell.bbox ops t (.mk name polys paths labels refs) with
      | none => []
      | some b => [(.cell name, [boxRect b])]
    else
      let d := (polys.flatMap PolySet.tagged).foldl
        (fun d p => dictExtend (SpecKey.ld p.1.1 p.1.2) [p.2] d) []
      let d := (paths.flatMap ops.dict).foldl
        (fun d p => dictExtend (SpecKey.ld p.1.1 p.1.2) p.2 d) d
      HRefs.polyDict ops t (nextDepth depth) d refs

/-- The references are merged into the dictionary one after the other. -/
def HRefs.polyDict (ops : PathOps K P) (t : Trig K) (depth : Option Int)
    (d : List (SpecKey × List (Pgon K))) : HRefs K P → List (SpecKey × List (Pgon K))
  | .nil => d
  | .cell r c rest =>
    HRefs.polyDict ops t depth
      (dictMerge d ((HCell.polyDict ops t depth c).map fun p => (p.1, transformDictVal t r p.2))) rest
  | .name _ _ rest => HRefs.polyDict ops t depth d rest
end

mutual
/-- library.py:591-699 `Cell.get_polygons((layer, datatype), depth)`. -/
def HCell.polysOf (ops : PathOps K P) (t : Trig K) (depth : Option Int) (l dt : Int) :
    HCell K P → List (Pgon K)
  | .mk _ polys paths _ refs =>
    if below depth then []
    else
      ((polys.flatMap PolySet.tagged).filter fun p => p.1.1 = l ∧ p.1.2 = dt).map Prod.snd
      ++ (paths.flatMap fun p =>
          if (ops.elems p).any (fun e => e.1 = (l, dt)) then ((ops.dict p).lookup (l, dt)).getD []
          else [])
      ++ HRefs.polysOf ops t (nextDepth depth) l dt refs

def HRefs.polysOf (ops : PathOps K P) (t : Trig K) (depth : Option Int) (l dt : Int) :
    HRefs K P → List (Pgon K)
  | .nil => []
  | .cell r c rest =>
    transformPolys t r (HCell.polysOf ops t depth l dt c) ++ HRefs.polysOf ops t depth l dt rest
  | .name _ _ rest => HRefs.polysOf ops t depth l dt rest
end

/-! ## Area -/

/-- polygon.py:304-308, 316-322: twice the signed area, as a fan from the first vertex: the terms for
`ii` from 1 to `len - 2`. -/
def fan (p0 : Pt K) : List (Pt K) → K
  | a :: b :: l => ((p0.1 - b.1) * (a.2 - p0.2) - (p0.2 - b.2) * (a.1 - p0.1)) + fan p0 (b :: l)
  | _ => 0

def polyArea (p : Pgon K) : K :=
  match p with
  | [] => 0
  | p0 :: l => (1 / 2) * |fan p0 l|

/-- polygon.py:286-324 `PolygonSet.area()`. -/
def PolySet.area (ps : PolySet K) : K := (ps.polygons.map polyArea).sum

/-- path.py:1156-1175, 2391-2410 `path.area()`: the area of `to_polygonset()`.
`to_polygonset` (path.py:918-941, 2168-2191) fractures the polygons a second time, with the same
limit; this is taken to change nothing. -/
def PathOps.area (ops : PathOps K P) (p : P) : K := ((ops.polys p).map polyArea).sum

/-- library.py:1269-1282, 1863-1876: the factor of a reference. -/
def refFactor (r : RefData K) : K :=
  let m : K := match r.magnification with
    | none => 1
    | some m => m ^ 2
  match r.array with
  | none => m
  | some (cols, rows, _) => (cols : K) * (rows : K) * m

mutual
/-- library.py:445-474 `Cell.area()`. -/
def HCell.area (ops : PathOps K P) : HCell K P → K
  | .mk _ polys paths _ refs =>
    (polys.map PolySet.area).sum + (paths.map ops.area).sum + HRefs.area ops refs

def HRefs.area (ops : PathOps K P) : HRefs K P → K
  | .nil => 0
  | .cell r c rest => HCell.area ops c * refFactor r + HRefs.area ops rest
  | .name _ _ rest => HRefs.area ops rest
end

/-- `if k in d: d[k] += v else: d[k] = v`. -/
def dictAdd {κ : Type} [DecidableEq κ] (k : κ) (v : K) : List (κ × K) → List (κ × K)
  | [] => [(k, v)]
  | (k', v') :: d => if k' = k then (k', v' + v) :: d else (k', v') :: dictAdd k v d

def dictAddAll {κ : Type} [DecidableEq κ] (d e : List (κ × K)) : List (κ × K) :=
  e.foldl (fun d p => dictAdd p.1 p.2 d) d

/-- polygon.py:300-312 `PolygonSet.area(True)`. -/
def PolySet.areaDict (ps : PolySet K) : List ((Int × Int) × K) :=
  ps.tagged.foldl (fun d p => dictAdd p.1 (polyArea p.2) d) []

/-- `path.area(True)`. -/
def PathOps.areaDict (ops : PathOps K P) (p : P) : List ((Int × Int) × K) :=
  ((ops.dict p).flatMap fun q => q.2.map fun x => (q.1, polyArea x)).foldl
    (fun d p => dictAdd p.1 p.2 d) []

mutual
/-- library.py:445-474 `Cell.area(True)`. -/
def HCell.areaDict (ops : PathOps K P) : HCell K P → List ((Int × Int) × K)
  | .mk _ polys paths _ refs =>
    let d := (polys.map PolySet.areaDict).foldl dictAddAll []
    let d := (paths.map ops.areaDict).foldl dictAddAll d
    HRefs.areaDict ops d refs

def HRefs.areaDict (ops : PathOps K P) (d : List ((Int × Int) × K)) :
    HRefs K P → List ((Int × Int) × K)
  | .nil => d
  | .cell r c rest =>
    HRefs.areaDict ops
      (dictAddAll d ((HCell.areaDict ops c).map fun p => (p.1, p.2 * refFactor r))) rest
  | .name _ _ rest => HRefs.areaDict ops d rest
end

end Flat

/-! ## Polygon sets, paths, labels -/

section Copies

variable [Field K]

/-- Apply a function to all vertices, in place. -/
def PolySet.mapPts (f : Pt K → Pt K) (ps : PolySet K) : PolySet K :=
  { ps with polygons := ps.polygons.map (List.map f) }

/-- `depth is None or depth > 0`. -/
def descends (depth : Option Int) : Bool := depth.all fun d => 0 < d

mutual
/-- library.py:701-725 `Cell.get_polygonsets`. -/
def HCell.polysets (t : Trig K) (depth : Option Int) : HCell K P → List (PolySet K)
  | .mk _ polys _ _ refs =>
    polys ++ if descends depth then HRefs.polysets t (nextDepth depth) refs else []

/-- library.py:1370-1410, 1980-2028. -/
def HRefs.polysets (t : Trig K) (depth : Option Int) : HRefs K P → List (PolySet K)
  | .nil => []
  | .cell r c rest =>
    (match r.array with
      | none => (HCell.polysets t depth c).map (PolySet.mapPts (refPt t r))
      | some (cols, rows, spacing) => (lattice cols rows spacing).flatMap fun spc =>
          (HCell.polysets t depth c).map (PolySet.mapPts (arrPt t r spc)))
    ++ HRefs.polysets t depth rest
  | .name _ _ rest => HRefs.polysets t depth rest
end

mutual
/-- library.py:727-750 `Cell.get_paths`. -/
def HCell.getPaths (ops : PathOps K P) (depth : Option Int) : HCell K P → List P
  | .mk _ _ paths _ refs =>
    paths ++ if descends depth then HRefs.getPaths ops (nextDepth depth) refs else []

/-- library.py:1412-1440, 2030-2066. -/
def HRefs.getPaths (ops : PathOps K P) (depth : Option Int) : HRefs K P → List P
  | .nil => []
  | .cell r c rest =>
    (match r.array with
      | none => (HCell.getPaths ops depth c).map
          (ops.transform r.origin r.rotation r.magnification r.xrefl none)
      | some (cols, rows, spacing) => (lattice cols rows spacing).flatMap fun spc =>
          (HCell.getPaths ops depth c).map
            (ops.transform r.origin r.rotation r.magnification r.xrefl (some spc)))
    ++ HRefs.getPaths ops depth rest
  | .name _ _ rest => HRefs.getPaths ops depth rest
end

/-- library.py:1480-1493, 2113-2126: the attributes set with `set_transform=True`. The reflection is
toggled unless the attribute of the reference is None. -/
def labelTransform (r : RefData K) (l : HLabel K) : HLabel K :=
  { l with
    magnification := match r.magnification, l.magnification with
      | none, m => m
      | some m, some m' => some (m' * m)
      | some m, none => some m
    xrefl := if r.xrefl.isSome then some (!(l.xrefl = some true)) else l.xrefl
    rotation := match r.rotation, l.rotation with
      | none, a => a
      | some a, some a' => some (a' + a)
      | some a, none => some a }

def placeLabel (r : RefData K) (st : Bool) (f : Pt K → Pt K) (l : HLabel K) : HLabel K :=
  let l := { l with position := f l.position }
  if st then labelTransform r l else l

mutual
/-- library.py:752-778 `Cell.get_labels`. -/
def HCell.getLabels (t : Trig K) (depth : Option Int) (st : Bool) : HCell K P → List (HLabel K)
  | .mk _ _ _ labels refs =>
    labels ++ if descends depth then HRefs.getLabels t (nextDepth depth) st refs else []

/-- library.py:1442-1494, 2068-2128. -/
def HRefs.getLabels (t : Trig K) (depth : Option Int) (st : Bool) : HRefs K P → List (HLabel K)
  | .nil => []
  | .cell r c rest =>
    (match r.array with
      | none => (HCell.getLabels t depth st c).map (placeLabel r st (refPt t r))
      | some (cols, rows, spacing) => (lattice cols rows spacing).flatMap fun spc =>
          (HCell.getLabels t depth st c).map (placeLabel r st (arrPt t r spc)))
    ++ HRefs.getLabels t depth st rest
  | .name _ _ rest => HRefs.getLabels t depth st rest
end

/-- library.py:837-851: `poly.layers = [single_layer] * len(poly.polygons)` and so on. -/
def PolySet.relabel (sl sd : Option Int) (ps : PolySet K) : PolySet K :=
  { ps with
    layers := match sl with
      | some l => List.replicate ps.polygons.length l
      | none => ps.layers
    datatypes := match sd with
      | some d => List.replicate ps.polygons.length d
      | none => ps.datatypes }

/-- library.py:824-833: labels get `single_texttype` when `single_datatype` is given. -/
def HLabel.relabel (sl sd st : Option Int) (l : HLabel K) : HLabel K :=
  { l with
    layer := sl.getD l.layer
    texttype := if sd.isSome then st else l.texttype }

/-- library.py:802-854 `flatten`. -/
def HCell.flatten (ops : PathOps K P) (t : Trig K) (sl sd st : Option Int) (c : HCell K P) : HCell K P :=
  .mk c.name ((c.polysets t none).map (PolySet.relabel sl sd))
    ((c.getPaths ops none).map (if sl.isSome || sd.isSome then ops.relabel sl sd else id))
    ((c.getLabels t none false).map (HLabel.relabel sl sd st)) .nil

/-! ## Copies -/

/-- The arguments of `Cell.copy`. The rotation is in degrees here. -/
structure CopyArgs (K : Type) where
  translation : Option (Pt K)
  rotation : Option K
  scale : Option K
  xrefl : Bool

/-- `r = -1 if x_reflection else 1`. -/
def CopyArgs.r (a : CopyArgs K) : K := if a.xrefl then -1 else 1

/-- library.py:240-247 with polygon.py:124-172, 511-529: the steps applied to polygons. -/
def copyPt (t : Trig K) (a : CopyArgs K) (p : Pt K) : Pt K :=
  let p := if a.xrefl then ((p.1 - 0) * 1 + 0, (p.2 - 0) * (-1) + 0) else p
  let p := onSome a.scale (fun s p => ((p.1 - 0) * s + 0, (p.2 - 0) * s + 0)) p
  let p := onSome a.rotation (fun b p => addPt (rotPt (t.cos b) (t.sin b) (p.1 - 0, p.2 - 0)) (0, 0)) p
  onSome a.translation (fun v p => addPt p v) p

/-- library.py:257-260, 281-284: the steps applied to positions of labels and origins. -/
def copyPos (t : Trig K) (a : CopyArgs K) (p : Pt K) : Pt K :=
  let s := a.scale.getD 1
  let ct := t.cos (a.rotation.getD 0)
  let st := t.sin (a.rotation.getD 0)
  let d := a.translation.getD (0, 0)
  (d.1 + s * (p.1 * ct - a.r * p.2 * st), d.2 + s * (p.1 * st + a.r * p.2 * ct))

variable [LinearOrder K]

/-- library.py:261-268, 285-291: rotation, magnification and reflection of labels and references.
`r0 = -1 if x_reflection is None else 1`. -/
def copyAttrs (a : CopyArgs K) (rotation magnification : Option K) (xrefl : Option Bool) :
    Option K × Option K × Option Bool :=
  let r0 : K := if xrefl = none then -1 else 1
  let rot := a.r * rotation.getD 0 + a.rotation.getD 0
  let mag := a.scale.getD 1 * magnification.getD 1
  (if rot = 0 then none else some rot, if mag = 1 then none else some mag, some (decide (a.r * r0 < 0)))

/-- library.py:276-292. `ref.origin` of None raises TypeError. The spacing of arrays stays. -/
def copyRef (t : Trig K) (a : CopyArgs K) (ref : RefData K) : Py (RefData K) :=
  match ref.origin with
  | none => .error .typeError
  | some o =>
    let q := copyAttrs a ref.rotation ref.magnification ref.xrefl
    .ok { ref with origin := some (copyPos t a o), rotation := q.1, magnification := q.2.1, xrefl := q.2.2 }

/-- library.py:252-275. -/
def copyLabel (t : Trig K) (a : CopyArgs K) (l : HLabel K) : HLabel K :=
  let q := copyAttrs a l.rotation l.magnification l.xrefl
  { l with position := copyPos t a l.position, rotation := q.1, magnification := q.2.1, xrefl := q.2.2 }

def HRefs.mapData (f : RefData K → Py (RefData K)) : HRefs K P → Py (HRefs K P)
  | .nil => pure .nil
  | .cell r c rest => do
    let r' ← f r
    let rest' ← HRefs.mapData f rest
    pure (.cell r' c rest')
  | .name r s rest => do
    let r' ← f r
    let rest' ← HRefs.mapData f rest
    pure (.name r' s rest')

/-- library.py:180-294 `Cell.copy`: the contents of the new cell. The copied cell is a value, so the
distinction between deep and shallow copies is not modelled. -/
def HCell.copy (ops : PathOps K P) (t : Trig K) (name : Str) (a : CopyArgs K) (c : HCell K P) :
    Py (HCell K P) :=
  if a.xrefl || a.scale.isSome || a.rotation.isSome || a.translation.isSome then do
    let refs ← c.references.mapData (copyRef t a)
    pure (.mk name (c.polygons.map (PolySet.mapPts (copyPt t a)))
      (c.paths.map (ops.transform a.translation a.rotation a.scale (some a.xrefl) none))
      (c.labels.map (copyLabel t a)) refs)
  else pure (.mk name c.polygons c.paths c.labels c.references)

end Copies

/-! ## Listings -/

mutual
/-- library.py:476-492 `get_layers`: the attribute of a string raises AttributeError. -/
def HCell.layers (ops : PathOps K P) : HCell K P → Py (List Int)
  | .mk _ polys paths labels refs => do
    let rest ← HRefs.layers ops refs
    pure (polys.flatMap PolySet.layers ++ paths.flatMap (fun p => (ops.elems p).map fun e => e.1.1)
      ++ rest ++ labels.map HLabel.layer)

def HRefs.layers (ops : PathOps K P) : HRefs K P → Py (List Int)
  | .nil => pure []
  | .cell _ c rest => do
    let a ← HCell.layers ops c
    let b ← HRefs.layers ops rest
    pure (a ++ b)
  | .name _ _ _ => .error .attributeError
end

mutual
/-- library.py:494-508 `get_datatypes`. -/
def HCell.datatypes (ops : PathOps K P) : HCell K P → Py (List Int)
  | .mk _ polys paths _ refs => do
    let rest ← HRefs.datatypes ops refs
    pure (polys.flatMap PolySet.datatypes
      ++ paths.flatMap (fun p => (ops.elems p).map fun e => e.1.2) ++ rest)

def HRefs.datatypes (ops : PathOps K P) : HRefs K P → Py (List Int)
  | .nil => pure []
  | .cell _ c rest => do
    let a ← HCell.datatypes ops c
    let b ← HRefs.datatypes ops rest
    pure (a ++ b)
  | .name _ _ _ => .error .attributeError
end

/-- library.py:510-524 `get_texttypes`: the first reference raises AttributeError, because
`get_textypes` does not exist. -/
def HCell.texttypes : HCell K P → Py (List (Option Int))
  | .mk _ _ _ labels .nil => pure (labels.map HLabel.texttype)
  | .mk _ _ _ _ _ => .error .attributeError

mutual
/-- library.py:526-549 `get_svg_classes`. -/
def HCell.svgClasses (ops : PathOps K P) : HCell K P → List (Int × Int) × List (Int × Option Int)
  | .mk _ polys paths labels refs =>
    ((polys.flatMap fun ps => ps.layers.zip ps.datatypes)
      ++ (paths.flatMap fun p => (ops.elems p).map Prod.fst) ++ (HRefs.svgClasses ops refs).1,
     labels.map (fun l => (l.layer, l.texttype)) ++ (HRefs.svgClasses ops refs).2)

def HRefs.svgClasses (ops : PathOps K P) : HRefs K P → List (Int × Int) × List (Int × Option Int)
  | .nil => ([], [])
  | .cell _ c rest =>
    ((HCell.svgClasses ops c).1 ++ (HRefs.svgClasses ops rest).1,
     (HCell.svgClasses ops c).2 ++ (HRefs.svgClasses ops rest).2)
  | .name _ _ rest => HRefs.svgClasses ops rest
end

/-! ## Removal -/

/-- library.py:370-383 `remove_polygons`. -/
def HCell.removePolygons (test : Pgon K → Int → Int → Bool) (c : HCell K P) : HCell K P :=
  .mk c.name (c.polygons.filterMap fun ps =>
    let pld := (ps.polygons.zip (ps.layers.zip ps.datatypes)).filter fun q => !test q.1 q.2.1 q.2.2
    if pld = [] then none
    else some { polygons := pld.map Prod.fst, layers := pld.map fun q => q.2.1,
                datatypes := pld.map fun q => q.2.2 }) c.paths c.labels c.references

/-- library.py:403-409, 436-442: `while ii < len(l): if test(l[ii]): l.pop(ii) else: ii += 1`. -/
def popLoop {α : Type} (test : α → Bool) : Nat → Nat → List α → List α
  | 0, _, l => l
  | n + 1, ii, l =>
    match l[ii]? with
    | none => l
    | some x => if test x then popLoop test n ii (l.eraseIdx ii) else popLoop test n (ii + 1) l

/-- library.py:385-410 `remove_paths`. The bound on the number of rounds is never reached. -/
def HCell.removePaths (test : P → Bool) (c : HCell K P) : HCell K P :=
  .mk c.name c.polygons (popLoop test c.paths.length 0 c.paths) c.labels c.references

/-- library.py:412-443 `remove_labels`. -/
def HCell.removeLabels (test : HLabel K → Bool) (c : HCell K P) : HCell K P :=
  .mk c.name c.polygons c.paths (popLoop test c.labels.length 0 c.labels) c.references

end Gdspy
