import Verif.Model.Gdsii
import Mathlib.Algebra.Order.Floor.Ring

/-!
# Layout elements and their GDSII output

Model of the `to_gds` methods: `PolygonSet` (polygon.py:174-252), `FlexPath`
(path.py:943-1121), `Label` (label.py:183-268), `CellReference` (library.py:1136-1207),
`CellArray` (library.py:1675-1783), `Cell` (library.py:129-178), and of
`GdsLibrary.write_gds` (library.py:2427-2509) and `GdsWriter` (library.py:2934-3078).

Conventions and simplifications:
* coordinates are exact rationals;
* a writer returns the bytes it writes, or the exception it raises (what it had already
  written to the file before raising is not modelled);
* warnings are not modelled.
-/

namespace Gdspy

/-- One argument of `struct.pack` with its format letter. -/
inductive Fld where
  | H (n : Int)
  | h (n : Int)
  | l (n : Int)

/-- `struct.pack(">...", ...)`: all fields are checked. -/
def pack : List Fld → Py Bytes
  | [] => .ok []
  | f :: fs => do
      let a ← match f with
        | .H n => packH n
        | .h n => packh n
        | .l n => packl n
      let b ← pack fs
      pure (a ++ b)

/-- Python 3 `round(x)` and `numpy.round(x)`: nearest integer, ties to even. -/
def pyRound (x : ℚ) : Int :=
  if x - ⌊x⌋ < 1 / 2 then ⌊x⌋
  else if 1 / 2 < x - ⌊x⌋ then ⌊x⌋ + 1
  else if ⌊x⌋ % 2 = 0 then ⌊x⌋ else ⌊x⌋ + 1

/-- `if len(s) % 2 != 0: s = s + "\0"` (library.py:145-147, 1151-1152, 1690-1691, 2468,
label.py:236-238, and every property value). -/
def padEven (s : Str) : Str := if s.length % 2 ≠ 0 then s ++ ['\x00'] else s

/-- A property dictionary `{attr: value}` in insertion order. The value read from an empty
record is `None`. -/
abbrev Properties := List (Int × Option Str)

/-- polygon.py:230-245, path.py:1103-1118, label.py:251-260, library.py:1188-1199,
1764-1775: the property records (the same loop everywhere). `len(None)` raises
`TypeError`. -/
def writeProps : Properties → Py Bytes
  | [] => .ok []
  | (_, none) :: _ => .error .typeError
  | (attr, some value) :: r => do
      let value := padEven value
      let hd ← pack [.H 6, .H 0x2B02, .H attr, .H (4 + value.length), .H 0x2C06]
      let t ← encodeAscii value
      let rest ← writeProps r
      pure (hd ++ t ++ rest)

/-- `if not (v is None): values += struct.pack(">2H", 12, tag) + _eight_byte_real(v)`
(label.py:220-233, library.py:1164-1177, 1708-1714, 1739-1741). -/
def writeOptReal (tag : Int) : Option ℚ → Py Bytes
  | none => .ok []
  | some v => do
      let a ← pack [.H 12, .H tag]
      let b ← eightByteReal v
      pure (a ++ b)

/-- label.py:211-235, library.py:1155-1179 and 1698-1743: STRANS, MAG and ANGLE records. -/
def writeStrans (rotation magnification : Option ℚ) (x_reflection : Bool) : Py Bytes :=
  if rotation.isSome || magnification.isSome || x_reflection then do
    let v1 ← writeOptReal 0x1B05 magnification
    let v2 ← writeOptReal 0x1C05 rotation
    let w ← pack [.H 6, .H 0x1A01, .H (if x_reflection then 0x8000 else 0)]
    pure (w ++ (v1 ++ v2))
  else .ok []

/-! ## Polygons -/

/-- One polygon of a `PolygonSet` with its layer and datatype
(`polygons[i]`, `layers[i]`, `datatypes[i]`; the constructor makes the lists equally long). -/
structure Poly where
  points : List (ℚ × ℚ)
  layer : Int
  datatype : Int
  deriving DecidableEq, Repr

/-- `PolygonSet` (polygon.py:48-97). -/
structure PolygonSet where
  polys : List Poly
  properties : Properties
  deriving DecidableEq, Repr

/-- `numpy.round(points * multiplier)`, flattened row by row. -/
def gridPoints (m : ℚ) (pts : List (ℚ × ℚ)) : List Int :=
  pts.flatMap fun p => [pyRound (p.1 * m), pyRound (p.2 * m)]

/-- `.astype(">i4").tobytes()`. Simplification: numbers outside of 32 bits wrap (in numpy the
result of that conversion is platform dependent); the theorems only use in-range values. -/
def i4Bytes (l : List Int) : Bytes := l.flatMap i4

/-- polygon.py:211-216 and path.py:1093-1098: XY records of at most `k` points
(`2 * k` numbers) each. -/
def writeChunks (k : Nat) (xy : List Int) : Py Bytes :=
  if _h : xy = [] ∨ k = 0 then .ok []
  else do
    let part := xy.take (2 * k)
    let hd ← pack [.H (4 + 4 * part.length), .H 0x1003]
    let rest ← writeChunks k (xy.drop (2 * k))
    pure (hd ++ i4Bytes part ++ rest)
termination_by xy.length
decreasing_by
  have : xy.length ≠ 0 := fun hc => _h (Or.inl (List.eq_nil_of_length_eq_zero hc))
  simp only [List.length_drop]; omega

/-- polygon.py:187-229: the records of one polygon up to its coordinates. `xy[0]` raises
`IndexError` for an empty polygon. -/
def writePolyHead (m : ℚ) (p : Poly) : Py Bytes :=
  if p.points.length > 8190 then do
    let hd ← pack [.H 4, .H 0x0800, .H 6, .H 0x0D02, .h p.layer, .H 6, .H 0x0E02, .h p.datatype]
    let body ← writeChunks 8190 (gridPoints m p.points ++ (gridPoints m p.points).take 2)
    pure (hd ++ body)
  else do
    let hd ← pack [.H 4, .H 0x0800, .H 6, .H 0x0D02, .h p.layer, .H 6, .H 0x0E02, .h p.datatype,
      .H (12 + 8 * p.points.length), .H 0x1003]
    if p.points.length = 0 then .error .indexError
    else pure (hd ++ (i4Bytes (gridPoints m p.points) ++ i4Bytes ((gridPoints m p.points).take 2)))

/-- polygon.py:186-246: one polygon of the set. -/
def writePoly (m : ℚ) (props : Properties) (p : Poly) : Py Bytes := do
  let hd ← writePolyHead m p
  let pr ← writeProps props
  let e ← pack [.H 4, .H 0x1100]
  pure (hd ++ pr ++ e)

/-- Run a writer on every element of a list, concatenating the output. -/
def writeAll {α : Type _} (f : α → Py Bytes) : List α → Py Bytes
  | [] => .ok []
  | a :: l => do
      let x ← f a
      let y ← writeAll f l
      pure (x ++ y)

/-- polygon.py:174-252 `PolygonSet.to_gds`. -/
def PolygonSet.toGds (m : ℚ) (s : PolygonSet) : Py Bytes :=
  writeAll (writePoly m s.properties) s.polys

/-! ## Paths -/

/-- End cap of a path: the names, a pair of extensions, or a function. -/
inductive Ends where
  | flush
  | round
  | extended
  | smooth
  | ext (a b : ℚ)
  | callable
  deriving DecidableEq, Repr

/-- `_pathtype_dict` of `FlexPath` (path.py:294) with default 4, and 0 for functions
(path.py:979-983). -/
def Ends.pathtype : Ends → Int
  | .flush => 0
  | .round => 1
  | .extended => 2
  | .smooth => 1
  | .ext _ _ => 4
  | .callable => 0

/-- One of the parallel paths of a `FlexPath` as seen by `to_gds`: width at the first point,
end cap, layer, datatype, and its spine: the points of the path moved by its offset and with
bends inserted (path.py:1006-1091; not modelled, for zero offset and no circular bends the
spine is `points`). -/
structure SubPath where
  width : ℚ
  ends : Ends
  layer : Int
  datatype : Int
  spine : List (ℚ × ℚ)
  deriving DecidableEq, Repr

/-- A `FlexPath` with `gdsii_path=True`. -/
structure GdsPath where
  widthTransform : Bool
  subs : List SubPath
  properties : Properties
  deriving DecidableEq, Repr

/-- path.py:966-974: drop every point equal to its predecessor (zero-length segments). -/
def dropRepeated : List (ℚ × ℚ) → List (ℚ × ℚ)
  | [] => []
  | [p] => [p]
  | p :: q :: r => if p = q then dropRepeated (p :: r) else p :: dropRepeated (q :: r)
termination_by l => l.length

/-- path.py:996-1006: BGNEXTN and ENDEXTN records, for pathtype 4 only. -/
def writeEnds (m : ℚ) : Ends → Py Bytes
  | .ext a b => pack [.H 8, .H 0x3003, .l (pyRound (a * m)), .H 8, .H 0x3103, .l (pyRound (b * m))]
  | _ => .ok []

/-- path.py:1084-1101: the XY records of a spine, in chunks only if it has more than 8191
points. -/
def writeSpine (m : ℚ) (spine : List (ℚ × ℚ)) : Py Bytes :=
  if spine.length > 8191 then writeChunks 8191 (gridPoints m spine)
  else do
    let hd ← pack [.H (4 + 8 * spine.length), .H 0x1003]
    pure (hd ++ i4Bytes (gridPoints m spine))

/-- path.py:978-1119: the element of one parallel path. -/
def writeSubPath (m : ℚ) (sign : Int) (props : Properties) (s : SubPath) : Py Bytes := do
  let hd ← pack [.H 4, .H 0x0900, .H 6, .H 0x0D02, .h s.layer, .H 6, .H 0x0E02, .h s.datatype,
    .H 6, .H 0x2102, .h s.ends.pathtype, .H 8, .H 0x0F03, .l (sign * pyRound (s.width * m))]
  let ex ← writeEnds m s.ends
  let body ← writeSpine m s.spine
  let pr ← writeProps props
  let e ← pack [.H 4, .H 0x1100]
  pure (hd ++ ex ++ body ++ pr ++ e)

/-- path.py:943-1121 `FlexPath.to_gds` with `gdsii_path=True` (non-empty points). -/
def GdsPath.toGds (m : ℚ) (p : GdsPath) : Py Bytes :=
  writeAll (writeSubPath m (if p.widthTransform then 1 else -1) p.properties) p.subs

/-- `.astype(">i4")` of a double: truncation toward zero. -/
def pyTrunc (x : ℚ) : Int := if 0 ≤ x then ⌊x⌋ else ⌈x⌉

/-- path.py:2321: `(numpy.array(points) * multiplier).astype(">i4")`, flattened row by row. Unlike
everywhere else there is no rounding. -/
def truncPoints (m : ℚ) (pts : List (ℚ × ℚ)) : List Int :=
  pts.flatMap fun p => [pyTrunc (p.1 * m), pyTrunc (p.2 * m)]

/-- path.py:2322-2338: the XY records of the spine of a `RobustPath`. -/
def writeRobustSpine (m : ℚ) (spine : List (ℚ × ℚ)) : Py Bytes :=
  if spine.length > 8191 then writeChunks 8191 (truncPoints m spine)
  else do
    let hd ← pack [.H (4 + 8 * spine.length), .H 0x1003]
    pure (hd ++ i4Bytes (truncPoints m spine))

/-- path.py:2209-2356: the element of one parallel path of a `RobustPath` with
`gdsii_path=True`. The spine is the sampled centre line (path.py:2251-2320, not modelled). -/
def writeRobustSubPath (m : ℚ) (sign : Int) (props : Properties) (s : SubPath) : Py Bytes := do
  let hd ← pack [.H 4, .H 0x0900, .H 6, .H 0x0D02, .h s.layer, .H 6, .H 0x0E02, .h s.datatype,
    .H 6, .H 0x2102, .h s.ends.pathtype, .H 8, .H 0x0F03, .l (sign * pyRound (s.width * m))]
  let ex ← writeEnds m s.ends
  let body ← writeRobustSpine m s.spine
  let pr ← writeProps props
  let e ← pack [.H 4, .H 0x1100]
  pure (hd ++ ex ++ body ++ pr ++ e)

/-! ## Labels and references -/

/-- `Label` (label.py:41-159). -/
structure Label where
  text : Option Str
  position : ℚ × ℚ
  anchor : Int
  rotation : Option ℚ
  magnification : Option ℚ
  xReflection : Bool
  layer : Int
  texttype : Int
  properties : Properties
  deriving DecidableEq, Repr

/-- The text, library or cell name to be written, padded: `len(None)` is a `TypeError`. -/
def padText : Option Str → Py Str
  | none => .error .typeError
  | some t => .ok (padEven t)

/-- label.py:183-268 `Label.to_gds`. -/
def Label.toGds (m : ℚ) (b : Label) : Py Bytes := do
  let hd ← pack [.H 4, .H 0x0C00, .H 6, .H 0x0D02, .h b.layer, .H 6, .H 0x1602, .h b.texttype,
    .H 6, .H 0x1701, .h b.anchor]
  let st ← writeStrans b.rotation b.magnification b.xReflection
  let text ← padText b.text
  let xy ← pack [.H 12, .H 0x1003, .l (pyRound (b.position.1 * m)),
    .l (pyRound (b.position.2 * m)), .H (4 + text.length), .H 0x1906]
  let t ← encodeAscii text
  let pr ← writeProps b.properties
  let e ← pack [.H 4, .H 0x1100]
  pure (hd ++ st ++ xy ++ t ++ pr ++ e)

/-- What a reference points to: an unresolved name, or a cell object, identified by the name
under which its library files it (the names of the cells of a library are unique). -/
inductive Target where
  | name (s : Str)
  | cell (s : Str)
  deriving DecidableEq, Repr

/-- library.py:1147-1150 and 1686-1689: the name of the referenced cell. -/
def Target.str : Target → Str
  | .name s => s
  | .cell s => s

/-- `CellReference` (library.py:1046-1115) and `CellArray` (library.py:1550-1652; the
`Option` holds columns, rows and spacing). -/
structure Ref where
  target : Target
  array : Option (Int × Int × (ℚ × ℚ))
  origin : ℚ × ℚ
  rotation : Option ℚ
  magnification : Option ℚ
  xReflection : Bool
  properties : Properties
  deriving DecidableEq, Repr

/-- The rotation used by the corner computation in library.py:1715-1741:
`x' = (x-ox)*ca - (y-oy)*sa + ox`, `y' = (x-ox)*sa + (y-oy)*ca + oy`. -/
def rotAbout (o : ℚ × ℚ) (cs : ℚ × ℚ) (p : ℚ × ℚ) : ℚ × ℚ :=
  ((p.1 - o.1) * cs.1 - (p.2 - o.2) * cs.2 + o.1, (p.1 - o.1) * cs.2 + (p.2 - o.2) * cs.1 + o.2)

/-- library.py:1694-1697, 1707, 1715-1741: the two array corners stored in the file.
`trig` gives (`numpy.cos`, `numpy.sin`) of an angle in degrees. -/
def arrayCorners (trig : ℚ → ℚ × ℚ) (r : Ref) (columns rows : Int) (spacing : ℚ × ℚ) :
    (ℚ × ℚ) × (ℚ × ℚ) :=
  let p2 : ℚ × ℚ := (r.origin.1 + columns * spacing.1, r.origin.2)
  let y3 := r.origin.2 + rows * spacing.2
  let p3 : ℚ × ℚ := (r.origin.1, if r.xReflection then 2 * r.origin.2 - y3 else y3)
  match r.rotation with
  | none => (p2, p3)
  | some a => (rotAbout r.origin (trig a) p2, rotAbout r.origin (trig a) p3)

/-- library.py:1180-1187 (reference) and 1744-1760 (array): the XY record, after COLROW for
an array. -/
def writeRefXY (trig : ℚ → ℚ × ℚ) (m : ℚ) (r : Ref) : Py Bytes :=
  match r.array with
  | none => pack [.H 12, .H 0x1003, .l (pyRound (r.origin.1 * m)), .l (pyRound (r.origin.2 * m))]
  | some (columns, rows, spacing) =>
    let c := arrayCorners trig r columns rows spacing
    pack [.H 8, .H 0x1302, .h columns, .h rows, .H 28, .H 0x1003,
      .l (pyRound (r.origin.1 * m)), .l (pyRound (r.origin.2 * m)),
      .l (pyRound (c.1.1 * m)), .l (pyRound (c.1.2 * m)),
      .l (pyRound (c.2.1 * m)), .l (pyRound (c.2.2 * m))]

/-- library.py:1136-1207 `CellReference.to_gds` and 1675-1783 `CellArray.to_gds`. -/
def Ref.toGds (trig : ℚ → ℚ × ℚ) (m : ℚ) (r : Ref) : Py Bytes := do
  let hd ← pack [.H 4, .H (if r.array.isSome then 0x0B00 else 0x0A00),
    .H (4 + (padEven r.target.str).length), .H 0x1206]
  let nm ← encodeAscii (padEven r.target.str)
  let st ← writeStrans r.rotation r.magnification r.xReflection
  let xy ← writeRefXY trig m r
  let pr ← writeProps r.properties
  let e ← pack [.H 4, .H 0x1100]
  pure (hd ++ nm ++ st ++ xy ++ pr ++ e)

/-! ## Cells and libraries -/

/-- What `to_gds` sees of an element of `Cell.paths`: a path stored as GDSII path, or a path
stored as the polygons of its `to_polygonset()` (path.py:964-965). -/
inductive PathEl where
  | gds (p : GdsPath)
  | outline (s : PolygonSet)
  deriving DecidableEq, Repr

/-- `Cell` (library.py:66-127): the element lists. -/
structure Cell where
  name : Str
  polygons : List PolygonSet
  paths : List PathEl
  labels : List Label
  references : List Ref
  deriving DecidableEq, Repr

def PathEl.toGds (m : ℚ) : PathEl → Py Bytes
  | .gds p => p.toGds m
  | .outline s => s.toGds m

/-- library.py:129-178 `Cell.to_gds` (with an explicit time stamp). -/
def Cell.toGds (trig : ℚ → ℚ × ℚ) (m : ℚ) (ts : Timestamp) (c : Cell) : Py Bytes := do
  let name := padEven c.name
  let h1 ← pack [.H 28, .H 0x0502]
  let t ← packTs ts
  let h2 ← pack [.H (4 + name.length), .H 0x0606]
  let nm ← encodeAscii name
  let a ← writeAll (PolygonSet.toGds m) c.polygons
  let b ← writeAll (PathEl.toGds m) c.paths
  let d ← writeAll (Label.toGds m) c.labels
  let e ← writeAll (Ref.toGds trig m) c.references
  let f ← pack [.H 4, .H 0x0700]
  pure (h1 ++ t ++ h2 ++ nm ++ a ++ b ++ d ++ e ++ f)

/-- `GdsLibrary` (library.py:2183-2291): name, units and the cells in dictionary order.
The dictionary key of a cell is its name (an invariant: property C22). The name is `None`
after reading a file with an empty LIBNAME record. -/
structure Lib where
  name : Option Str
  unit : ℚ
  precision : ℚ
  cells : List Cell
  deriving DecidableEq, Repr

/-- library.py:2466-2495 and 2996-3029: the head of the file. `div` is the division of doubles:
`precision / unit` is not exact in general. -/
def writeHeader (div : ℚ → ℚ → ℚ) (name : Option Str) (unit precision : ℚ) (ts : Timestamp) :
    Py Bytes := do
  let name ← padText name
  let h1 ← pack [.H 6, .H 0x0002, .H 0x0258, .H 28, .H 0x0102]
  let t ← packTs ts
  let h2 ← pack [.H (4 + name.length), .H 0x0206]
  let nm ← encodeAscii name
  let h3 ← pack [.H 20, .H 0x0305]
  let r1 ← eightByteReal (div precision unit)
  let r2 ← eightByteReal precision
  pure (h1 ++ t ++ h2 ++ nm ++ h3 ++ r1 ++ r2)

/-- library.py:2427-2509 `write_gds` with `cells` given as the list of cells to write (all
cells of the library for `cells=None`) and an explicit time stamp. Names in the `cells`
argument are looked up by the caller of this model function; an unknown name raises
`AttributeError` in the code. -/
def writeGds (div : ℚ → ℚ → ℚ) (trig : ℚ → ℚ × ℚ) (lib : Lib) (cells : List Cell)
    (ts : Timestamp) (binaryCells : List Bytes) : Py Bytes := do
  let hd ← writeHeader div lib.name lib.unit lib.precision ts
  let body ← writeAll (Cell.toGds trig (div lib.unit lib.precision) ts) cells
  let e ← pack [.H 4, .H 0x0400]
  pure (hd ++ body ++ binaryCells.flatten ++ e)

/-! ## Incremental writer -/

/-- `GdsWriter` (library.py:2934-3078): the open file (what has been written so far) and the
resolution. -/
structure Writer where
  out : Bytes
  res : ℚ
  deriving DecidableEq, Repr

/-- library.py:2983-3029 `GdsWriter.__init__`. -/
def Writer.new (div : ℚ → ℚ → ℚ) (name : Option Str) (unit precision : ℚ) (ts : Timestamp) :
    Py Writer := do
  let hd ← writeHeader div name unit precision ts
  pure ⟨hd, div unit precision⟩

/-- library.py:3031-3053 `write_cell`. -/
def Writer.writeCell (trig : ℚ → ℚ × ℚ) (w : Writer) (c : Cell) (ts : Timestamp) : Py Writer := do
  let b ← c.toGds trig w.res ts
  pure { w with out := w.out ++ b }

/-- library.py:3055-3070 `write_binary_cells`. -/
def Writer.writeBinaryCells (w : Writer) (bcs : List Bytes) : Py Writer :=
  .ok { w with out := bcs.foldl (· ++ ·) w.out }

/-- library.py:3072-3078 `close`: the finished file. -/
def Writer.close (w : Writer) : Py Bytes := do
  let e ← pack [.H 4, .H 0x0400]
  pure (w.out ++ e)

end Gdspy
