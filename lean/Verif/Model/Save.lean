import Verif.Model.Read

/-!
# Saving, write by write

`writeGds` of `Model/Element.lean` gives the whole file or the exception. Here the same functions are
modelled as the sequence of their calls of `outfile.write`, so that the contents of the file after an
exception are known. Every entry of a list is one such call: the bytes that it gets, or the exception
raised while its argument is computed. Two calls are joined when the second one cannot raise.
-/

namespace Gdspy

/-- What is in the file after a sequence of writes, and the exception that stopped it. -/
def runWrites : List (Py Bytes) → Bytes × Option PyErr
  | [] => ([], none)
  | .ok b :: r => (b ++ (runWrites r).1, (runWrites r).2)
  | .error e :: _ => ([], some e)

/-- polygon.py:230-239, path.py:1103-1112, label.py:251-260, library.py:1188-1197, 1764-1773: two
writes for each property; `len(None)` raises `TypeError` before them. -/
def propsWrites : Properties → List (Py Bytes)
  | [] => []
  | (_, none) :: _ => [.error .typeError]
  | (attr, some value) :: r =>
      pack [.H 6, .H 0x2B02, .H attr, .H (4 + (padEven value).length), .H 0x2C06] ::
        encodeAscii (padEven value) :: propsWrites r

/-- polygon.py:186-246: one polygon of a set. `xy[0]` raises `IndexError` for an empty polygon, after
the head was written. The XY records of a long polygon (polygon.py:211-216) are joined: their sizes
are below 65536. -/
def polyWrites (m : ℚ) (props : Properties) (p : Poly) : List (Py Bytes) :=
  (if p.points.length > 8190 then
    [pack [.H 4, .H 0x0800, .H 6, .H 0x0D02, .h p.layer, .H 6, .H 0x0E02, .h p.datatype],
      writeChunks 8190 (gridPoints m p.points ++ (gridPoints m p.points).take 2)]
  else
    [pack [.H 4, .H 0x0800, .H 6, .H 0x0D02, .h p.layer, .H 6, .H 0x0E02, .h p.datatype,
        .H (12 + 8 * p.points.length), .H 0x1003],
      .ok (i4Bytes (gridPoints m p.points)),
      if p.points.length = 0 then .error .indexError
      else .ok (i4Bytes ((gridPoints m p.points).take 2))]) ++
  (propsWrites props ++ [pack [.H 4, .H 0x1100]])

/-- path.py:978-1119: one of the parallel paths of a `FlexPath` stored as path. The XY records of
a long path are joined. -/
def subPathWrites (m : ℚ) (sign : Int) (props : Properties) (s : SubPath) : List (Py Bytes) :=
  [pack [.H 4, .H 0x0900, .H 6, .H 0x0D02, .h s.layer, .H 6, .H 0x0E02, .h s.datatype,
      .H 6, .H 0x2102, .h s.ends.pathtype, .H 8, .H 0x0F03, .l (sign * pyRound (s.width * m))],
    writeEnds m s.ends, writeSpine m s.spine] ++ (propsWrites props ++ [pack [.H 4, .H 0x1100]])

/-- label.py:183-268 `Label.to_gds`. -/
def labelWrites (m : ℚ) (b : Label) : List (Py Bytes) :=
  [pack [.H 4, .H 0x0C00, .H 6, .H 0x0D02, .h b.layer, .H 6, .H 0x1602, .h b.texttype,
      .H 6, .H 0x1701, .h b.anchor],
    writeStrans b.rotation b.magnification b.xReflection] ++
  ((match b.text with
    | none => [.error .typeError]
    | some text =>
      [pack [.H 12, .H 0x1003, .l (pyRound (b.position.1 * m)), .l (pyRound (b.position.2 * m)),
          .H (4 + (padEven text).length), .H 0x1906],
        encodeAscii (padEven text)]) ++
  (propsWrites b.properties ++ [pack [.H 4, .H 0x1100]]))

/-- library.py:1136-1207 `CellReference.to_gds` and 1675-1783 `CellArray.to_gds`. -/
def refWrites (trig : ℚ → ℚ × ℚ) (m : ℚ) (r : Ref) : List (Py Bytes) :=
  [pack [.H 4, .H (if r.array.isSome then 0x0B00 else 0x0A00),
      .H (4 + (padEven r.target.str).length), .H 0x1206],
    encodeAscii (padEven r.target.str),
    writeStrans r.rotation r.magnification r.xReflection,
    writeRefXY trig m r] ++ (propsWrites r.properties ++ [pack [.H 4, .H 0x1100]])

/-- An element of a cell. -/
inductive CellItem where
  | polygons (s : PolygonSet)
  | path (p : PathEl)
  | label (b : Label)
  | ref (r : Ref)
  deriving DecidableEq, Repr

/-- The writes of an element: polygon.py:174-252, path.py:943-1121, label.py:183-268,
library.py:1136-1207 and 1675-1783. -/
def CellItem.writes (trig : ℚ → ℚ × ℚ) (m : ℚ) : CellItem → List (Py Bytes)
  | .polygons s => s.polys.flatMap (polyWrites m s.properties)
  | .path (.gds p) =>
      p.subs.flatMap (subPathWrites m (if p.widthTransform then 1 else -1) p.properties)
  | .path (.outline s) => s.polys.flatMap (polyWrites m s.properties)
  | .label b => labelWrites m b
  | .ref r => refWrites trig m r

/-- library.py:170-177: the elements of a cell in the order in which they are written. -/
def Cell.items (c : Cell) : List CellItem :=
  c.polygons.map .polygons ++ (c.paths.map .path ++ (c.labels.map .label ++ c.references.map .ref))

/-- library.py:144-169: the head of a cell. -/
def cellHeadWrites (ts : Timestamp) (name : Str) : List (Py Bytes) :=
  [do
      let h1 ← pack [.H 28, .H 0x0502]
      let t ← packTs ts
      let h2 ← pack [.H (4 + (padEven name).length), .H 0x0606]
      pure (h1 ++ t ++ h2),
    encodeAscii (padEven name)]

/-- library.py:129-178 `Cell.to_gds`. -/
def Cell.writes (trig : ℚ → ℚ × ℚ) (m : ℚ) (ts : Timestamp) (c : Cell) : List (Py Bytes) :=
  cellHeadWrites ts c.name ++ (c.items.flatMap (CellItem.writes trig m) ++ [pack [.H 4, .H 0x0700]])

/-- An entry of the argument `cells` of `write_gds`: a name or a cell. -/
inductive Pick where
  | name (s : Str)
  | cell (c : Cell)
  deriving DecidableEq, Repr

/-- library.py:2496-2499: `self.cells.get(c, c)`; for `None` all cells of the library. -/
def Lib.picked (lib : Lib) : Option (List Pick) → List Pick
  | none => lib.cells.map .cell
  | some l => l.map fun p => match p with
    | .cell c => .cell c
    | .name s => match lib.cells.find? (·.name = s) with
      | some c => .cell c
      | none => .name s

/-- library.py:2502-2503: a name that was not found is a `str`, which has no `to_gds`. -/
def Pick.writes (trig : ℚ → ℚ × ℚ) (m : ℚ) (ts : Timestamp) : Pick → List (Py Bytes)
  | .name _ => [.error .attributeError]
  | .cell c => c.writes trig m ts

/-- library.py:2427-2509 `GdsLibrary.write_gds` with an explicit time stamp: what is in the file
afterwards and the exception, if any. The head is one write (library.py:2469-2495). -/
def saveGds (div : ℚ → ℚ → ℚ) (trig : ℚ → ℚ × ℚ) (lib : Lib) (cells : Option (List Pick))
    (ts : Timestamp) (binaryCells : List Bytes) : Bytes × Option PyErr :=
  runWrites ([writeHeader div lib.name lib.unit lib.precision ts] ++
    ((lib.picked cells).flatMap (Pick.writes trig (div lib.unit lib.precision) ts) ++
      (binaryCells.map .ok ++ [pack [.H 4, .H 0x0400]])))

/-- library.py:3031-3053 `GdsWriter.write_cell` when the caller goes on after an exception: what was
written stays in the file. -/
def Writer.tryCell (trig : ℚ → ℚ × ℚ) (ts : Timestamp) (w : Writer) (c : Cell) : Writer :=
  { w with out := w.out ++ (runWrites (c.writes trig w.res ts)).1 }

end Gdspy
