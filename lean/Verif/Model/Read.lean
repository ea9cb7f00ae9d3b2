import Verif.Model.Element

/-!
# Reading GDSII files

Model of `GdsLibrary.read_gds` (library.py:2511-2735), the `_create_*` functions
(library.py:2737-2787), `get_gds_units` (library.py:3081-3113) and `get_binary_cells`
(library.py:3116-3173).
-/

namespace Gdspy

/-- The `kwargs` dictionary (library.py:2577): one optional entry per possible key. -/
structure Kwargs where
  layer : Option Int := none
  datatype : Option Int := none
  texttype : Option Int := none
  xy : Option (List ℚ) := none
  width : Option ℚ := none
  /-- present means `width_transform=False` -/
  widthTransformFalse : Bool := false
  refCell : Option Str := none
  columns : Option Int := none
  rows : Option Int := none
  xReflection : Option Bool := none
  magnification : Option ℚ := none
  rotation : Option ℚ := none
  text : Option (Option Str) := none
  anchor : Option Int := none
  ends : Option Ends := none
  bgnextn : Option ℚ := none
  endextn : Option ℚ := none
  deriving DecidableEq, Repr

/-- `create_element` (library.py:2578). -/
inductive Create where
  | polygon
  | path
  | label
  | reference
  | array
  deriving DecidableEq, Repr

/-- The element made by `create_element`. -/
inductive El where
  | polygon (s : PolygonSet)
  | path (p : GdsPath)
  | label (b : Label)
  | ref (r : Ref)
  deriving DecidableEq, Repr

/-- `.reshape((n, 2))` of a flat array of even size. -/
def pairs : List ℚ → List (ℚ × ℚ)
  | x :: y :: r => (x, y) :: pairs r
  | _ => []

/-- library.py:2737-2738 `_create_polygon(self, layer, datatype, xy)` and `Polygon.__init__`
(polygon.py:579-587). Any missing or additional keyword argument is a `TypeError`; an odd
number of coordinates greater than 1 makes `reshape` raise `ValueError`; 0 or 1 coordinates
give `reshape((-1, 2))` of nothing. -/
def createPolygon (kw : Kwargs) : Py El :=
  match kw with
  | ⟨some layer, some datatype, none, some xy, none, false, none, none, none, none, none, none,
      none, none, none, none, none⟩ =>
    if xy.length ≤ 1 then .ok (.polygon ⟨[⟨[], layer, datatype⟩], []⟩)
    else if xy.length % 2 ≠ 0 then .error .valueError
    else .ok (.polygon ⟨[⟨pairs (xy.take (xy.length - 2)), layer, datatype⟩], []⟩)
  | _ => .error .typeError

/-- library.py:2740-2746 `_create_path` and the defaults of `FlexPath.__init__`
(path.py:296-311) with scalar width and offset. -/
def createPath (kw : Kwargs) : Py El :=
  match kw.xy with
  | none => .error .keyError
  | some xy =>
    let ends : Option Ends :=
      if kw.bgnextn.isSome || kw.endextn.isSome then
        some (.ext (kw.bgnextn.getD 0) (kw.endextn.getD 0))
      else kw.ends
    if xy.length % 2 ≠ 0 then .error .valueError
    else
      match kw with
      | ⟨layer, datatype, none, _, some width, wt, none, none, none, none, none, none, none,
          none, _, _, _⟩ =>
        .ok (.path ⟨!wt, [⟨width, ends.getD .flush, layer.getD 0, datatype.getD 0, pairs xy⟩], []⟩)
      | _ => .error .typeError

/-- library.py:2748-2750 `_create_label` and `Label.__init__` (label.py:134-159): `width`,
`width_transform` and `ends` are dropped. A position without exactly two coordinates is
accepted by the code but not followed here. -/
def createLabel (kw : Kwargs) : Py El :=
  match kw with
  | ⟨layer, none, texttype, some xy, _, _, none, none, none, xr, mag, rot, some text, anchor, _,
      none, none⟩ =>
    match xy with
    | [x, y] => .ok (.label ⟨text, (x, y), anchor.getD 5, rot, mag, xr.getD false, layer.getD 0,
        texttype.getD 0, []⟩)
    | _ => .error .unmodelled
  | _ => .error .typeError

/-- library.py:2752-2758 `_create_reference` and `CellReference.__init__`. An origin without
exactly two coordinates is accepted by the code but not followed here. -/
def createReference (kw : Kwargs) : Py El :=
  match kw.xy with
  | none => .error .keyError
  | some xy =>
    match kw with
    | ⟨none, none, none, _, none, false, some ref, none, none, xr, mag, rot, none, none, none,
        none, none⟩ =>
      match xy with
      | [x, y] => .ok (.ref ⟨.name ref, none, (x, y), rot, mag, xr.getD false, []⟩)
      | _ => .error .unmodelled
    | _ => .error .typeError

/-- library.py:2763-2781: the spacing of an array from its corners. -/
def arraySpacing (trig : ℚ → ℚ × ℚ) (xr : Option Bool) (rot : Option ℚ) (columns rows : Int)
    (x0 y0 x2 y2 x3 y3 : ℚ) : ℚ × ℚ :=
  match xr with
  | some refl =>
    let (xx, yy) := match rot with
      | some a =>
        let sa := -(trig a).2
        let ca := (trig a).1
        ((x2 - x0) * ca - (y2 - y0) * sa + x0, (x3 - x0) * sa + (y3 - y0) * ca + y0)
      | none => (x2, y3)
    let yy := if refl then 2 * y0 - yy else yy
    ((xx - x0) / columns, (yy - y0) / rows)
  | none => ((x2 - x0) / columns, (y3 - y0) / rows)

/-- library.py:2760-2787 `_create_array` and `CellArray.__init__`. Too few coordinates raise
`IndexError`, a missing COLROW record `KeyError`. Zero columns or rows give infinite or
undefined spacing in numpy and more than six coordinates are ignored by the code; neither is
followed here. -/
def createArray (trig : ℚ → ℚ × ℚ) (kw : Kwargs) : Py El :=
  match kw.xy with
  | none => .error .keyError
  | some [x0, y0, x2, y2, x3, y3] =>
    match kw.columns, kw.rows with
    | some columns, some rows =>
      if columns = 0 ∨ rows = 0 then .error .unmodelled
      else
        match kw with
        | ⟨none, none, none, _, none, false, some ref, _, _, xr, mag, rot, none, none, none, none,
            none⟩ =>
          .ok (.ref ⟨.name ref, some (columns, rows,
            arraySpacing trig xr rot columns rows x0 y0 x2 y2 x3 y3), (x0, y0), rot, mag,
            xr.getD false, []⟩)
        | _ => .error .typeError
    | _, _ => .error .keyError
  | some xy => if xy.length < 6 then .error .indexError else .error .unmodelled

def createElement (trig : ℚ → ℚ × ℚ) (c : Create) (kw : Kwargs) : Py El :=
  match c with
  | .polygon => createPolygon kw
  | .path => createPath kw
  | .label => createLabel kw
  | .reference => createReference kw
  | .array => createArray trig kw

/-- `el.properties = properties` (library.py:2611). -/
def El.setProps (p : Properties) : El → El
  | .polygon s => .polygon { s with properties := p }
  | .path s => .path { s with properties := p }
  | .label b => .label { b with properties := p }
  | .ref r => .ref { r with properties := p }

/-- `Cell.add` (library.py:296-336) of one element. -/
def Cell.add (c : Cell) : El → Cell
  | .polygon s => { c with polygons := c.polygons ++ [s] }
  | .path p => { c with paths := c.paths ++ [.gds p] }
  | .label b => { c with labels := c.labels ++ [b] }
  | .ref r => { c with references := c.references ++ [r] }

/-- The `units` argument. -/
inductive Units where
  | skip
  | import_
  | convert
  | other
  deriving DecidableEq, Repr

/-- The arguments of `read_gds` (library.py:2511-2520). `nameMap` stands for the pair
`rename`/`rename_template`: the name given to each imported name (library.py:2640-2643,
2675-2678); an empty record is formatted as `None`. The dictionaries are partial functions. -/
structure ReadArgs where
  units : Units
  nameMap : Str → Str
  layers : Int → Option Int
  datatypes : Int → Option Int
  texttypes : Int → Option Int

/-- The variables of `read_gds` (library.py:2567-2582). `cell` is the name of the current
cell: the object is `self.cells[name]`. `created` are the names of the cells created by this
call: exactly their references are in `self._references`. -/
structure ReadState where
  lib : Lib
  kwargs : Kwargs := {}
  create : Option Create := none
  factor : ℚ := 1
  cell : Option Str := none
  properties : Properties := []
  attr : Int := -1
  created : List Str := []
  deriving DecidableEq, Repr

/-- `record[1][0]` where an integer is expected. `None[0]` is a `TypeError`, an empty array
an `IndexError`; characters and reals are not followed. -/
def Data.firstInt : Data → Py Int
  | .none => .error .typeError
  | .u16 (n :: _) => .ok n
  | .i16 (n :: _) => .ok n
  | .i32 (n :: _) => .ok n
  | .u16 [] => .error .indexError
  | .i16 [] => .error .indexError
  | .i32 [] => .error .indexError
  | .real [] => .error .indexError
  | .real (_ :: _) => .error .unmodelled
  | .str _ => .error .unmodelled

/-- The numbers of a record. -/
def Data.nums : Data → Py (List ℚ)
  | .none => .error .typeError
  | .u16 l => .ok (l.map fun n : Nat => (n : ℚ))
  | .i16 l => .ok (l.map fun n : Int => (n : ℚ))
  | .i32 l => .ok (l.map fun n : Int => (n : ℚ))
  | .real l => .ok l
  | .str _ => .error .unmodelled

/-- `record[1][0]` where a number is expected. -/
def Data.firstNum (d : Data) : Py ℚ := do
  match (← d.nums) with
  | [] => throw .indexError
  | x :: _ => pure x

/-- `record[1]` where text is expected; numbers are not followed. -/
def Data.text : Data → Py (Option Str)
  | .none => .ok Option.none
  | .str s => .ok (some s)
  | _ => .error .unmodelled

/-- `d[k] = v` for a dictionary in insertion order. -/
def dictSet (d : Properties) (k : Int) (v : Option Str) : Properties :=
  match d with
  | [] => [(k, v)]
  | (k', v') :: r => if k' = k then (k, v) :: r else (k', v') :: dictSet r k v

/-- `GdsLibrary._import_anchors` (library.py:2276-2278) followed by `Label._anchor`
(label.py:95-120). -/
def importAnchor (n : Int) : Int :=
  [0, 1, 2, 5, 4, 5, 6, 5, 8, 9, 10, 5, 5, 5, 5, 5].getD (n % 16).toNat 5

/-- `GdsLibrary._pathtype_dict.get(n, "extended")` (library.py:2279, 2711). -/
def importEnds (n : Int) : Ends :=
  if n = 0 then .flush else if n = 1 then .round else .extended

/-- `rename`/`rename_template` on the data of a SNAME or STRNAME record. -/
def ReadArgs.rename (a : ReadArgs) : Option Str → Str
  | some s => a.nameMap s
  | none => a.nameMap "None".toList

/-- `self.cells[name]` is modified. -/
def updateCell (cells : List Cell) (name : Str) (f : Cell → Cell) : List Cell :=
  cells.map fun c => if c.name = name then f c else c

/-- library.py:2718-2721: at ENDLIB the references made by this call are resolved by name. -/
def resolveRefs (created : List Str) (cells : List Cell) : List Cell :=
  let names := cells.map Cell.name
  cells.map fun c =>
    if c.name ∈ created then
      { c with references := c.references.map fun r =>
          match r.target with
          | .name s => if s ∈ names then { r with target := .cell s } else r
          | .cell _ => r }
    else c

/-- library.py:2583-2732: the effect of one record. Warnings are not modelled, except that
an unsupported record type beyond the name table raises `IndexError` when the warning is
composed (library.py:2728). -/
def readStep (div : ℚ → ℚ → ℚ) (trig : ℚ → ℚ × ℚ) (a : ReadArgs) (st : ReadState) (r : Record) :
    Py ReadState :=
  if r.type = 0x0D then do
    let n ← r.data.firstInt
    pure { st with kwargs := { st.kwargs with layer := some ((a.layers n).getD n) } }
  else if r.type = 0x0E ∨ r.type = 0x2E then do
    let n ← r.data.firstInt
    pure { st with kwargs := { st.kwargs with datatype := some ((a.datatypes n).getD n) } }
  else if r.type = 0x16 then do
    let n ← r.data.firstInt
    pure { st with kwargs := { st.kwargs with texttype := some ((a.texttypes n).getD n) } }
  else if r.type = 0x10 then do
    let l ← r.data.nums
    let l := l.map (st.factor * ·)
    pure { st with kwargs := { st.kwargs with xy := some (st.kwargs.xy.getD [] ++ l) } }
  else if r.type = 0x0F then do
    let x ← r.data.firstNum
    let kw := { st.kwargs with width := some (st.factor * |x|) }
    pure { st with kwargs := if x < 0 then { kw with widthTransformFalse := true } else kw }
  else if r.type = 0x11 then
    match st.create with
    | none => pure { st with kwargs := {} }
    | some c => do
      let el ← createElement trig c st.kwargs
      let el := if st.properties.length > 0 then el.setProps st.properties else el
      match st.cell with
      | none => throw .attributeError
      | some name =>
        pure { st with
          lib := { st.lib with cells := updateCell st.lib.cells name (·.add el) }
          properties := []
          create := none
          kwargs := {} }
  else if r.type = 0x08 then pure { st with create := some .polygon }
  else if r.type = 0x09 then pure { st with create := some .path }
  else if r.type = 0x2D then pure { st with create := some .polygon }
  else if r.type = 0x0C then pure { st with create := some .label }
  else if r.type = 0x12 then do
    let s ← r.data.text
    pure { st with kwargs := { st.kwargs with refCell := some (a.rename s) } }
  else if r.type = 0x13 then
    match r.data with
    | .i16 (x :: y :: _) =>
      pure { st with kwargs := { st.kwargs with columns := some x, rows := some y } }
    | .none => throw .typeError
    | .i16 _ => throw .indexError
    | _ => throw .unmodelled
  else if r.type = 0x1A then do
    let n ← r.data.firstInt
    pure { st with kwargs := { st.kwargs with xReflection := some ((n / 32768) % 2 == 1) } }
  else if r.type = 0x1B then do
    let x ← r.data.firstNum
    pure { st with kwargs := { st.kwargs with magnification := some x } }
  else if r.type = 0x1C then do
    let x ← r.data.firstNum
    pure { st with kwargs := { st.kwargs with rotation := some x } }
  else if r.type = 0x0A then pure { st with create := some .reference }
  else if r.type = 0x0B then pure { st with create := some .array }
  else if r.type = 0x06 then do
    let s ← r.data.text
    let name := a.rename s
    if name ∈ st.lib.cells.map Cell.name then throw .valueError
    pure { st with
      lib := { st.lib with cells := st.lib.cells ++ [⟨name, [], [], [], []⟩] }
      cell := some name
      created := name :: st.created }
  else if r.type = 0x19 then do
    let s ← r.data.text
    pure { st with kwargs := { st.kwargs with text := some s } }
  else if r.type = 0x07 then pure { st with cell := none }
  else if r.type = 0x03 then
    match a.units with
    | .skip => do
      let x ← r.data.firstNum
      pure { st with factor := x }
    | .import_ => do
      match (← r.data.nums) with
      | x :: y :: _ =>
        if x = 0 then throw .unmodelled
        pure { st with lib := { st.lib with unit := div y x, precision := y }, factor := x }
      | _ => throw .indexError
    | .convert => do
      match (← r.data.nums) with
      | _ :: y :: _ =>
        if st.lib.unit = 0 then throw .unmodelled
        pure { st with factor := div y st.lib.unit }
      | _ => throw .indexError
    | .other => throw .valueError
  else if r.type = 0x02 then do
    let s ← r.data.text
    pure { st with lib := { st.lib with name := s } }
  else if r.type = 0x17 then do
    let n ← r.data.firstInt
    pure { st with kwargs := { st.kwargs with anchor := some (importAnchor n) } }
  else if r.type = 0x21 then do
    let n ← r.data.firstInt
    pure { st with kwargs := { st.kwargs with ends := some (importEnds n) } }
  else if r.type = 0x30 then do
    let x ← r.data.firstNum
    pure { st with kwargs := { st.kwargs with bgnextn := some (st.factor * x) } }
  else if r.type = 0x31 then do
    let x ← r.data.firstNum
    pure { st with kwargs := { st.kwargs with endextn := some (st.factor * x) } }
  else if r.type = 0x04 then
    pure { st with lib := { st.lib with cells := resolveRefs st.created st.lib.cells } }
  else if r.type = 0x2B then do
    let n ← r.data.firstInt
    pure { st with attr := n }
  else if r.type = 0x2C then do
    let s ← r.data.text
    pure { st with properties := dictSet st.properties st.attr s }
  else if r.type < 60 then pure st
  else throw .indexError

/-- The loop of `read_gds` over the records. Returns the state reached and the exception
raised, if any. -/
def readRecords (div : ℚ → ℚ → ℚ) (trig : ℚ → ℚ × ℚ) (a : ReadArgs) (st : ReadState) :
    List Record → ReadState × Option PyErr
  | [] => (st, none)
  | r :: rs =>
    match readStep div trig a st r with
    | .ok st' => readRecords div trig a st' rs
    | .error e => (st, some e)

/-- library.py:2511-2735 `read_gds`: the library afterwards and the exception raised, if any.
The generator `_record_reader` is consumed lazily, so records before a malformed one have
taken effect. Simplification: when a record raises half-way, the state before that record is
returned (the only loss is the list `_references`). -/
def readGds (div : ℚ → ℚ → ℚ) (trig : ℚ → ℚ × ℚ) (a : ReadArgs) (lib : Lib) (file : Bytes) :
    Lib × Option PyErr :=
  let (recs, err) := recordReader file
  match readRecords div trig a { lib := lib } recs with
  | (st, some e) => (st.lib, some e)
  | (st, none) => (st.lib, err)

/-- library.py:3081-3113 `get_gds_units`: `None` for both when there is no UNITS record.
`db_meters / db_user` with `db_user = 0` raises `ZeroDivisionError` (Python floats). -/
def getGdsUnits (div : ℚ → ℚ → ℚ) (file : Bytes) : Py (Option (ℚ × ℚ)) :=
  go (rawRecordReader file)
where
  go : List (Nat × Bytes) → Py (Option (ℚ × ℚ))
    | [] => .ok none
    | (t, data) :: rest =>
      if t = 0x03 then do
        let dbUser ← eightByteRealToFloat (pySlice data 4 12)
        let dbMeters ← eightByteRealToFloat (data.drop 12)
        if dbUser = 0 then throw .zeroDivision
        pure (some (div dbMeters dbUser, dbMeters))
      else go rest

/-- `cells[name] = data` for a dictionary in insertion order. -/
def binSet (d : List (Option Str × Bytes)) (k : Option Str) (v : Bytes) :
    List (Option Str × Bytes) :=
  match d with
  | [] => [(k, v)]
  | (k', v') :: r => if k' = k then (k, v) :: r else (k', v') :: binSet r k v

/-- The loop of `get_binary_cells` (library.py:3146-3170). `data[-1]` cannot fail: the header
is part of the data. -/
def binLoop : List (Nat × Bytes) → Option Str → Option (List Bytes) →
    List (Option Str × Bytes) → Py (List (Option Str × Bytes))
  | [], _, _, cells => .ok cells
  | (t, data) :: rest, name, cellData, cells =>
    if t = 0x05 then binLoop rest name (some [data]) cells
    else if t = 0x06 then
      match cellData with
      | none => .error .attributeError
      | some cd => do
        let n ← if data.getLast? = some 0 then decodeAscii (data.drop 4).dropLast
          else decodeAscii (data.drop 4)
        binLoop rest (some n) (some (cd ++ [data])) cells
    else if t = 0x07 then
      match cellData with
      | none => .error .attributeError
      | some cd => binLoop rest name none (binSet cells name (cd ++ [data]).flatten)
    else
      match cellData with
      | none => binLoop rest name none cells
      | some cd => binLoop rest name (some (cd ++ [data])) cells

/-- library.py:3116-3173 `get_binary_cells`. -/
def getBinaryCells (file : Bytes) : Py (List (Option Str × Bytes)) :=
  binLoop (rawRecordReader file) none none []

end Gdspy
