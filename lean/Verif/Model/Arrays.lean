import Verif.Model.Removed

/-!
# Arrays with identity

Which arrays `get_polygons` returns: new ones or those in which the cell keeps its geometry. The arrays of points are
in a heap; an array is its position in the heap and a new array is appended at the end. Writing into an array
(`points[:] = ...`, `points += ...`) changes the entry of the heap.

Simplified: the polygons of paths have been computed and are in the cache (`_polygon_dict`); the first query fills the cache
and returns the same arrays, path.py:914-916, 2164-2166. Intermediate arrays that are dropped again are not allocated.
`depth` is None.
-/

namespace Gdspy

abbrev AId := Nat

/-- The arrays of points. -/
abbrev AHeap (K : Type) := List (Pgon K)

variable {K : Type}

def AHeap.look (h : AHeap K) (a : AId) : Pgon K := (h[a]?).getD []

/-- polygon.py:83-87: the attributes of `PolygonSet`. -/
structure ASet where
  polygons : List AId
  layers : List Int
  datatypes : List Int

/-- `_polygon_dict` of a path: lists of arrays by layer and datatype. -/
abbrev APath := List ((Int × Int) × List AId)

mutual
/-- library.py:104-112: the attributes of `Cell`. Labels have no arrays of points. -/
inductive ACell (K : Type) : Type
  | mk (name : Str) (polygons : List ASet) (paths : List APath) (references : ARefs K)

inductive ARefs (K : Type) : Type
  | nil
  | cell (r : RefData K) (c : ACell K) (rest : ARefs K)
  | name (r : RefData K) (s : Str) (rest : ARefs K)
end

/-- New arrays. -/
def allocAll (l : List (Pgon K)) (h : AHeap K) : List AId × AHeap K := (List.range' h.length l.length, h ++ l)

/-- `numpy.array(points)` for each of them, or a deep copy. -/
def copyIds (ids : List AId) (h : AHeap K) : List AId × AHeap K := allocAll (ids.map h.look) h

/-- `points[:] = v`. -/
def writeArr (a : AId) (v : Pgon K) (h : AHeap K) : AHeap K := h.set a v

/-- Any number of such assignments. -/
def writeArrs (l : List (AId × Pgon K)) (h : AHeap K) : AHeap K := l.foldl (fun h w => writeArr w.1 w.2 h) h

/-- path.py:913-916, 2163-2166 `get_polygons()` of a path: the arrays in the cache. -/
def APath.polys (p : APath) : List AId := p.flatMap Prod.snd

/-- `path.get_polygons(True)[key]`: arrays of a deep copy of the cache. -/
def APath.polysOf (l dt : Int) (p : APath) (h : AHeap K) : List AId × AHeap K :=
  copyIds ((p.lookup (l, dt)).getD []) h

variable [Field K]

/-- library.py:1284-1334, 1878-1944: `_transform_polygons` on a list. A reference without any transformation keeps the
arrays, an array of references always has the spacing. -/
def transformIds (t : Trig K) (r : RefData K) (ids : List AId) (h : AHeap K) : List AId × AHeap K :=
  match r.array with
  | none => if r.touches then allocAll (ids.map fun a => (h.look a).map (refPt t r)) h else (ids, h)
  | some (cols, rows, spacing) =>
    allocAll ((lattice cols rows spacing).flatMap fun spc => ids.map fun a => (h.look a).map (arrPt t r spc)) h

mutual
/-- library.py:663-676 `Cell.get_polygons()`. -/
def ACell.polys (t : Trig K) : ACell K → AHeap K → List AId × AHeap K
  | .mk _ polys paths refs, h =>
    let own := copyIds (polys.flatMap ASet.polygons) h
    let below := ARefs.polys t refs own.2
    (own.1 ++ paths.flatMap APath.polys ++ below.1, below.2)

/-- library.py:670-676 with 1336-1368, 1946-1978. -/
def ARefs.polys (t : Trig K) : ARefs K → AHeap K → List AId × AHeap K
  | .nil, h => ([], h)
  | .cell r c rest, h =>
    let inner := ACell.polys t c h
    let here := transformIds t r inner.1 inner.2
    let others := ARefs.polys t rest here.2
    (here.1 ++ others.1, others.2)
  | .name _ _ rest, h => ARefs.polys t rest h
end

/-- library.py:680-685: the polygons of a set in a layer and datatype. -/
def ASet.idsOf (l dt : Int) (s : ASet) : List AId :=
  (((s.layers.zip s.datatypes).zip s.polygons).filter fun p => p.1.1 = l ∧ p.1.2 = dt).map Prod.snd

/-- library.py:687-691: the arrays of the paths, one path after the other. -/
def pathsOf (l dt : Int) : List APath → AHeap K → List AId × AHeap K
  | [], h => ([], h)
  | p :: ps, h =>
    let a := APath.polysOf l dt p h
    let b := pathsOf l dt ps a.2
    (a.1 ++ b.1, b.2)

mutual
/-- library.py:677-698 `Cell.get_polygons((layer, datatype))`. -/
def ACell.polysOf (t : Trig K) (l dt : Int) : ACell K → AHeap K → List AId × AHeap K
  | .mk _ polys paths refs, h =>
    let own := copyIds (polys.flatMap (ASet.idsOf l dt)) h
    let ps := pathsOf l dt paths own.2
    let below := ARefs.polysOf t l dt refs ps.2
    (own.1 ++ ps.1 ++ below.1, below.2)

def ARefs.polysOf (t : Trig K) (l dt : Int) : ARefs K → AHeap K → List AId × AHeap K
  | .nil, h => ([], h)
  | .cell r c rest, h =>
    let inner := ACell.polysOf t l dt c h
    let here := transformIds t r inner.1 inner.2
    let others := ARefs.polysOf t l dt rest here.2
    (here.1 ++ others.1, others.2)
  | .name _ _ rest, h => ARefs.polysOf t l dt rest h
end

/-! ## Values -/

/-- The path with the contents of its arrays. -/
def APath.view (h : AHeap K) (p : APath) : List ((Int × Int) × List (Pgon K)) := p.map fun e => (e.1, e.2.map h.look)

def ASet.view (h : AHeap K) (s : ASet) : PolySet K := ⟨s.polygons.map h.look, s.layers, s.datatypes⟩

/-- Paths that are given by their polygons; they are not moved or relabelled here. -/
def fixedPaths : PathOps K (List ((Int × Int) × List (Pgon K))) := ⟨id, fun _ _ _ _ _ p => p, fun _ _ p => p⟩

mutual
/-- The cell with the contents of its arrays. -/
def ACell.view (h : AHeap K) : ACell K → HCell K (List ((Int × Int) × List (Pgon K)))
  | .mk n polys paths refs => .mk n (polys.map (ASet.view h)) (paths.map (APath.view h)) [] (ARefs.view h refs)

def ARefs.view (h : AHeap K) : ARefs K → HRefs K (List ((Int × Int) × List (Pgon K)))
  | .nil => .nil
  | .cell r c rest => .cell r (ACell.view h c) (ARefs.view h rest)
  | .name r s rest => .name r s (ARefs.view h rest)
end

end Gdspy
