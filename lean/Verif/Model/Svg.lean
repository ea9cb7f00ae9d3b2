import Verif.Model.BBox

/-!
# SVG output

Model of `to_svg` of labels, polygons, paths, references, arrays and cells and of `Cell.write_svg`
(label.py:270-320, polygon.py:254-284, path.py:1123-1154, 2358-2389, library.py:856-1043, 1209-1252, 1785-1846).

The elements are modelled as data (`SvgEl`), with numbers as they are before being formatted; the text of the
label element is modelled as a string too. `numpy.format_float_positional` and the formatting of integers
are given functions (`SvgFmt`). Not modelled: the style sheet, the width and height attributes, the files.
-/

namespace Gdspy

/-- How numbers are written: `numpy.format_float_positional(x, trim="0", precision=precision)` and
`"{}".format(n)`. -/
structure SvgFmt (K : Type) where
  num : K → Str
  int : Int → Str

/-- The items in a `transform` attribute. `flip` is `scale(1 -1)`. -/
inductive SvgT (K : Type)
  | translate (x y : K)
  | rotate (a : K)
  | flip
  | scale (m : K)
  deriving DecidableEq

/-- The elements of a group. -/
inductive SvgEl (K : Type)
  | polygon (layer datatype : Int) (points : Pgon K)
  | text (layer : Int) (texttype : Option Int) (anchor baseline : Str) (transform : List (SvgT K)) (text : Str)
  | use (transform : List (SvgT K)) (href : Str)
  deriving DecidableEq

variable {K P : Type}

/-- `self.text.translate({38: "&amp;", 60: "&lt;", 62: "&gt;"})` (label.py:314). -/
def svgEscape (s : Str) : Str :=
  s.flatMap fun ch => if ch = '&' then "&amp;".toList else if ch = '<' then "&lt;".toList
    else if ch = '>' then "&gt;".toList else [ch]

/-- `name.replace("#", "_")` (library.py:872, 1251, 1845). -/
def svgId (s : Str) : Str := s.map fun ch => if ch = '#' then '_' else ch

section

variable [Field K]

/-- label.py:283-304: the transformation of a label; `scaling` first. -/
def labelTransforms (s : K) (l : HLabel K) : List (SvgT K) :=
  [.flip, .translate (s * l.position.1) (-s * l.position.2)]
  ++ (match l.rotation with | none => [] | some a => [.rotate (-a)])
  ++ (if l.xrefl = some true then [.flip] else [])
  ++ (match l.magnification with | none => [] | some m => [.scale m])

/-- label.py:305-306. The anchor is one of the values of `Label._anchor`; others raise IndexError. -/
def labelAnchor (a : Nat) : Py (Str × Str) := do
  let ta ← match ["start", "middle", "end"][a % 4]? with | none => .error .indexError | some x => pure x
  let da ← match ["text-before-edge", "central", "text-after-edge"][a / 4]? with
    | none => .error .indexError | some x => pure x
  pure (ta.toList, da.toList)

/-- label.py:270-320 `Label.to_svg`. -/
def labelSvg (s : K) (l : HLabel K × Nat) : Py (SvgEl K) := do
  let a ← labelAnchor l.2
  pure (.text l.1.layer l.1.texttype a.1 a.2 (labelTransforms s l.1) (svgEscape l.1.text))

/-- library.py:1226-1247, 1802-1817: the transformation of a reference up to the reflection; a missing
origin raises TypeError. -/
def refTransforms (s : K) (r : RefData K) : Py (List (SvgT K)) :=
  match r.origin with
  | none => .error .typeError
  | some o => .ok ([.translate (s * o.1) (s * o.2)]
      ++ (match r.rotation with | none => [] | some a => [.rotate a])
      ++ (if r.xrefl = some true then [.flip] else []))

def magTransforms (r : RefData K) : List (SvgT K) :=
  match r.magnification with | none => [] | some m => [.scale m]

/-- library.py:1209-1252, 1785-1846: `to_svg` of a reference or array of the cell with the given name. -/
def refSvg (s : K) (r : RefData K) (name : Str) : Py (List (SvgEl K)) := do
  let tr ← refTransforms s r
  match r.array with
  | none => pure [.use (tr ++ magTransforms r) (svgId name)]
  | some (cols, rows, spacing) => pure ((List.range cols).flatMap fun (ii : Nat) =>
      (List.range rows).map fun (jj : Nat) =>
        .use (tr ++ [.translate (s * spacing.1 * (ii : K)) (s * spacing.2 * (jj : K))] ++ magTransforms r)
          (svgId name))

/-- polygon.py:267-284. -/
def polySetSvg (s : K) (ps : PolySet K) : List (SvgEl K) :=
  (ps.polygons.zip (ps.layers.zip ps.datatypes)).map fun q =>
    .polygon q.2.1 q.2.2 (q.1.map fun p => (s * p.1, s * p.2))

/-- path.py:1136-1154, 2371-2389. -/
def pathSvg (ops : PathOps K P) (s : K) (p : P) : List (SvgEl K) :=
  (ops.dict p).flatMap fun e => e.2.map fun q => .polygon e.1.1 e.1.2 (q.map fun p => (s * p.1, s * p.2))

/-- Cells with names and labels. A reference has a cell, or a string in `unresolved`. -/
structure SvgHeap (K P : Type) where
  cells : BHeap K P
  name : Nat → Str
  labels : Nat → List (HLabel K × Nat)
  unresolved : BRef K → Str

/-- library.py:1219-1222, 1795-1798: the name that a reference uses. -/
def SvgHeap.refName (h : SvgHeap K P) (r : BRef K) : Str :=
  match r.target with
  | some d => h.name d
  | none => h.unresolved r

/-- library.py:871-884: the elements in the group of a cell. -/
def cellSvg (ops : PathOps K P) (s : K) (h : SvgHeap K P) (c : Nat) : Py (List (SvgEl K)) := do
  let labels ← (h.labels c).mapM (labelSvg s)
  let refs ← (h.cells c).refs.mapM fun r => refSvg s r.data (h.refName r)
  pure ((h.cells c).polygons.flatMap (polySetSvg s) ++ (h.cells c).paths.flatMap (pathSvg ops s)
    ++ labels ++ refs.flatten)

/-- What `write_svg` writes: the view box (x, y, width, height), the groups in `<defs>` with their ids, and the
last group, which has `transform="scale(1 -1)"`. -/
structure SvgDoc (K : Type) where
  viewBox : K × K × K × K
  defs : List (Str × List (SvgEl K))
  top : Str × List (SvgEl K)

/-- The argument `pad` after reading it: a number, or a percentage. -/
inductive SvgPad (K : Type)
  | num (x : K)
  | percent (x : K)

variable [LinearOrder K]

/-- library.py:957-971. -/
def svgViewBox (s : K) (background : Bool) (pad : SvgPad K) (bb : Pt K × Pt K) : K × K × K × K :=
  let x := bb.1.1 * s
  let y := -(bb.2.2 * s)
  let w := bb.2.1 * s - bb.1.1 * s
  let h := bb.2.2 * s - bb.1.2 * s
  if background then
    let p := match pad with
      | .num p => p
      | .percent p => max w h * p / 100
    (x - p, y - p, w + 2 * p, h + 2 * p)
  else (x, y, w, h)

/-- library.py:886-1043 `write_svg`, with the result of `get_bounding_box()` given, and `order` the order in
which the set `get_dependencies(True)` is iterated. None: nothing is written. -/
def writeSvg (ops : PathOps K P) (s : K) (background : Bool) (pad : SvgPad K) (h : SvgHeap K P)
    (bb : Option (Pt K × Pt K)) (order : List Nat) (c : Nat) : Py (Option (SvgDoc K)) :=
  match bb with
  | none => pure none
  | some bb => do
    let defs ← order.mapM fun d => do
      let els ← cellSvg ops s h d
      pure (svgId (h.name d), els)
    let els ← cellSvg ops s h c
    pure (some ⟨svgViewBox s background pad bb, defs, (svgId (h.name c), els)⟩)

end

/-! ## The text element as a string -/

def SvgT.str (f : SvgFmt K) : SvgT K → Str
  | .translate x y => "translate(".toList ++ f.num x ++ " ".toList ++ f.num y ++ ")".toList
  | .rotate a => "rotate(".toList ++ f.num a ++ ")".toList
  | .flip => "scale(1 -1)".toList
  | .scale m => "scale(".toList ++ f.num m ++ ")".toList

/-- The items of a transformation, separated by spaces. -/
def svgTransformStr (f : SvgFmt K) (l : List (SvgT K)) : Str :=
  [' '].intercalate (l.map (SvgT.str f))

/-- `"{}".format(self.texttype)`. -/
def svgTypeStr (f : SvgFmt K) : Option Int → Str
  | none => "None".toList
  | some n => f.int n

/-- label.py:315-320: the string written for a label. -/
def svgTextStr (f : SvgFmt K) (layer : Int) (texttype : Option Int) (anchor baseline : Str)
    (transform : List (SvgT K)) (text : Str) : Str :=
  "<text class=\"l".toList ++ f.int layer ++ "t".toList
    ++ svgTypeStr f texttype
    ++ "\" text-anchor=\"".toList ++ anchor ++ "\" dominant-baseline=\"".toList ++ baseline
    ++ "\" transform=\"".toList ++ svgTransformStr f transform ++ "\">".toList ++ text ++ "</text>\n".toList

end Gdspy
