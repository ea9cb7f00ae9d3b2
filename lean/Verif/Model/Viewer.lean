import Verif.Model.Path
import Mathlib.Algebra.Order.Floor.Ring
import Mathlib.Data.Rat.Floor

/-!
# The layout viewer

Model of the parts of viewer.py that compute something: default colors and patterns, the visibility
filter, the list of hidden layers, the stacking order, the extents of the drawing and zooming. The
window itself (tkinter) is represented by what these parts read and write: the state and the
position of the drawn items, and the position of the view. Not modelled: creation of widgets, dialogs,
drawing of the layer list, and rounding to pixels.

Numbers are exact.
-/

namespace Gdspy

/-! ## Colors -/

/-- `colorsys.hsv_to_rgb` of the standard library. -/
def hsvToRgb (h s v : ℚ) : ℚ × ℚ × ℚ :=
  if s = 0 then (v, v, v)
  else
    let i := truncInt (h * 6)
    let f := h * 6 - i
    let p := v * (1 - s)
    let q := v * (1 - s * f)
    let t := v * (1 - s * (1 - f))
    if i % 6 = 0 then (v, t, p)
    else if i % 6 = 1 then (q, v, p)
    else if i % 6 = 2 then (p, v, t)
    else if i % 6 = 3 then (p, q, v)
    else if i % 6 = 4 then (t, p, v)
    else (v, p, q)

/-- The digits of `{:x}`. -/
def hexDigits (n : Nat) : Str := Nat.toDigits 16 n

/-- `{:02x}`: at least two characters, the sign included. -/
def hex2 (n : Int) : Str :=
  if n < 0 then
    let d := hexDigits n.natAbs
    '-' :: (List.replicate (1 - d.length) '0' ++ d)
  else
    let d := hexDigits n.natAbs
    List.replicate (2 - d.length) '0' ++ d

/-- viewer.py:82-93 `"#{0[0]:02x}{0[1]:02x}{0[2]:02x}".format(...)`. -/
def rgbStr (r g b : Int) : Str := '#' :: (hex2 r ++ hex2 g ++ hex2 b)

/-- viewer.py:80-93: the color of a layer and datatype for which none is given. -/
def autoColor (layer datatype : Int) : Str :=
  let c := hsvToRgb (((layer % 3 : Int) : ℚ) / 3 + ((layer % 6 / 3 : Int) : ℚ) / 6 + ((layer / 6 : Int) : ℚ) / 11)
    (1 - (((layer + datatype) % 8 : Int) : ℚ) / 12) (1 - ((datatype % 3 : Int) : ℚ) / 4)
  rgbStr (truncInt (255 * c.1 + 1 / 2)) (truncInt (255 * c.2.1 + 1 / 2)) (truncInt (255 * c.2.2 + 1 / 2))

/-- viewer.py:74-111 `ColorDict` and `PatternDict`: a dictionary, and `__missing__`, which stores and
returns the default or, without one, a value computed from the key. -/
def missing {α : Type} (auto : Int × Int → α) (default : Option α) (d : List ((Int × Int) × α))
    (key : Int × Int) : List ((Int × Int) × α) × α :=
  match d.lookup key with
  | some v => (d, v)
  | none =>
    let v := default.getD (auto key)
    (d ++ [(key, v)], v)

/-- viewer.py:107. -/
def autoPattern (key : Int × Int) : Int := (key.1 + key.2) % 8

/-- viewer.py:245-247: one channel of the color of outlines, for the background `c`. -/
def outlineChannel (c : Int) : Int := if c > 127 then 0 else 255

/-- viewer.py:248-257: one channel of the color of hidden layers in the list. -/
def greyChannel (c : Int) : Int :=
  if c < 85 then (c + 256) / 2 else if c > 171 then c / 2 else if c > 127 then 255 else 0

/-! ## The visibility filter -/

/-- Regular expressions as used in viewer.py:657-663. -/
inductive Re where
  | chr (p : Char → Bool)
  | seq (a b : Re)
  | alt (a b : Re)
  | eps
  | star (a : Re)

/-- Repeat a matcher, as often as possible first; a repetition that consumes nothing ends it. The first
argument bounds the number of repetitions. -/
def Re.stars (f : Str → List Str) : Nat → Str → List Str
  | 0, s => [s]
  | n + 1, s => ((f s).filter fun r => r.length < s.length).flatMap (Re.stars f n) ++ [s]

/-- Matching at the beginning of a string with backtracking: what remains of the string after each of
the possible matches, in the order in which Python's `re` tries them. -/
def Re.run : Re → Str → List Str
  | .chr _, [] => []
  | .chr p, c :: s => if p c then [s] else []
  | .seq a b, s => (a.run s).flatMap b.run
  | .alt a b, s => a.run s ++ b.run s
  | .eps, s => [s]
  | .star a, s => Re.stars a.run s.length s

/-- `re.fullmatch(s) is not None`. -/
def Re.fullmatch (r : Re) (s : Str) : Bool := (r.run s).any List.isEmpty

/-- `re.findall(s)` for an expression without groups that does not match the empty string. The first
argument bounds the number of steps. -/
def Re.findall (r : Re) : Nat → Str → List Str
  | 0, _ => []
  | _ + 1, [] => []
  | n + 1, c :: s =>
    match (r.run (c :: s)).head? with
    | some rest => ((c :: s).take ((c :: s).length - rest.length)) :: Re.findall r n rest
    | none => Re.findall r n s

/-- `\s` with `re.ASCII`. -/
def isWs (c : Char) : Bool := c = ' ' || c = '\t' || c = '\n' || c = '\r' || c = '\x0b' || c = '\x0c'

def Re.lit (c : Char) : Re := .chr fun d => d = c
def Re.ws : Re := .star (.chr isWs)
def Re.opt (r : Re) : Re := .alt r .eps
/-- `[0-9]+` -/
def Re.digits : Re := .seq (.chr Char.isDigit) (.star (.chr Char.isDigit))

/-- viewer.py:658: `(?:\*|[0-9]+(?:\s*-\s*[0-9]+)?)`. -/
def reItem : Re :=
  .alt (Re.lit '*')
    (.seq Re.digits (Re.opt (.seq Re.ws (.seq (Re.lit '-') (.seq Re.ws Re.digits)))))

/-- viewer.py:659: `{_m1}(?:\s*,\s*{_m1})*`. -/
def reList : Re := .seq reItem (.star (.seq Re.ws (.seq (Re.lit ',') (.seq Re.ws reItem))))

/-- viewer.py:660: `\s*\(\s*{_m2}\s*/\s*{_m2}\s*\)\s*`. -/
def reSpec : Re :=
  .seq Re.ws (.seq (Re.lit '(') (.seq Re.ws (.seq reList (.seq Re.ws (.seq (Re.lit '/')
    (.seq Re.ws (.seq reList (.seq Re.ws (.seq (Re.lit ')') Re.ws)))))))))

/-- viewer.py:661: `{_m3}(?:,{_m3})*`. -/
def reFilter : Re := .seq reSpec (.star (.seq (Re.lit ',') reSpec))

/-- `s.strip()`. Simplified: only the characters of `\s`, as no other white space occurs. -/
def stripWs (s : Str) : Str := ((s.dropWhile isWs).reverse.dropWhile isWs).reverse

/-- `s.split(sep)` for a separator of one character. -/
def splitChar (sep : Char) : Str → List Str
  | [] => [[]]
  | c :: s =>
    if c = sep then [] :: splitChar sep s
    else match splitChar sep s with
      | [] => [[c]]
      | w :: l => (c :: w) :: l

/-- `int(s)` of digits, possibly with white space around them. -/
def parseInt (s : Str) : Int := (stripWs s).foldl (fun n c => n * 10 + ((c.toNat : Int) - 48)) 0

/-- viewer.py:675-684: the condition that one item stands for. (The code writes it as Python text, which
it evaluates.) -/
def itemTest (spec : Str) (v : Int) : Bool :=
  if spec.contains '*' then true
  else if spec.contains '-' then
    let ab := splitChar '-' spec
    decide (parseInt (ab.headD []) ≤ v) && decide (v ≤ parseInt (ab.getD 1 []))
  else decide (v = parseInt spec)

/-- viewer.py:673-686: `(... or ...)`. -/
def listTest (s : Str) (v : Int) : Bool := (splitChar ',' (stripWs s)).any fun spec => itemTest spec v

/-- viewer.py:670-687: `(... and ...)` for one pair; `[1:-1]` drops the parentheses. -/
def specTest (pair : Str) (l d : Int) : Bool :=
  let body := ((stripWs pair).drop 1).dropLast
  let s := splitChar '/' body
  listTest (s.headD []) l && listTest (s.getD 1 []) d

/-- viewer.py:665-691: the layers hidden by a filter, or nothing if it is not understood. `info` are the
layers and datatypes in the list of the viewer. -/
def filterHidden (rule : Str) (info : List (Int × Int)) : Option (List (Int × Int)) :=
  if reFilter.fullmatch rule then
    let specs := reSpec.findall (rule.length + 1) rule
    some (info.filter fun k => !(specs.any fun p => specTest p k.1 k.2))
  else none

/-! ## Hidden layers -/

/-- The state of the viewer as far as visibility goes: `hidden_layers`, the layers in the list, and the
state of the items that are drawn, by layer (`"hidden"` is true). -/
structure View where
  hidden : List (Int × Int)
  info : List (Int × Int)
  state : Int × Int → Bool

/-- viewer.py:487-493 and 575-622: a redraw. -/
def View.redraw (v : View) : View := { v with state := fun k => decide (k ∈ v.hidden) }

/-- viewer.py:744-757 `_change_visibility`. -/
def View.toggle (layer : Int × Int) (v : View) : View :=
  if layer ∈ v.hidden then
    { v with hidden := v.hidden.erase layer, state := Function.update v.state layer false }
  else
    { v with hidden := v.hidden ++ [layer], state := Function.update v.state layer true }

/-- viewer.py:765-776: one step of the loop in `_change_other_visibility`. -/
def View.otherStep (layer : Int × Int) (unhide : Bool) (v : View) (other : Int × Int) : View :=
  if layer ≠ other then
    if unhide && decide (other ∈ v.hidden) then
      { v with hidden := v.hidden.erase other, state := Function.update v.state other false }
    else if !(unhide || decide (other ∈ v.hidden)) then
      { v with hidden := v.hidden ++ [other], state := Function.update v.state other true }
    else v
  else v

/-- viewer.py:759-778 `_change_other_visibility`. Without another layer `unhide` is not assigned, and not
used. -/
def View.toggleOthers (layer : Int × Int) (v : View) : View :=
  let unhide := ((v.info.filter fun k => layer ≠ k).head?.map fun k => decide (k ∈ v.hidden)).getD false
  v.info.foldl (View.otherStep layer unhide) v

/-- viewer.py:657-695 `_set_filter`. -/
def View.filter (rule : Str) (v : View) : View :=
  match filterHidden rule v.info with
  | some h => ({ v with hidden := h }).redraw
  | none => v

/-- viewer.py:396-414, 459-493: another cell or depth is shown, with the layers `info`. -/
def View.showCell (info : List (Int × Int)) (v : View) : View := ({ v with info := info }).redraw

/-- What a user can do to the visibility of layers. -/
inductive ViewAct where
  | toggle (layer : Int × Int)
  | toggleOthers (layer : Int × Int)
  | filter (rule : Str)
  | showCell (info : List (Int × Int))

def View.act (v : View) : ViewAct → View
  | .toggle l => v.toggle l
  | .toggleOthers l => v.toggleOthers l
  | .filter r => v.filter r
  | .showCell i => v.showCell i

/-- A viewer together with the list that is the default value of `hidden_types`, which is a single object
(viewer.py:182, 222): `shared` says that `hidden_layers` is that object. -/
structure Session where
  dflt : List (Int × Int)
  view : View
  shared : Bool

/-- A program that has not opened a viewer. -/
def Session.start : Session := { dflt := [], view := { hidden := [], info := [], state := fun _ => false }, shared := false }

/-- viewer.py:182, 222: open a viewer for a cell with the layers `info`, without giving `hidden_types`. -/
def Session.openView (info : List (Int × Int)) (s : Session) : Session :=
  { dflt := s.dflt, view := ({ hidden := s.dflt, info := info, state := fun _ => false } : View).redraw, shared := true }

/-- Clicks change the list in place (viewer.py:747, 752, 768, 773), a filter binds `hidden_layers` to a new
list (viewer.py:689). -/
def Session.act (s : Session) (a : ViewAct) : Session :=
  let v := s.view.act a
  let shared := match a with
    | .filter r => s.shared && (filterHidden r s.view.info).isNone
    | _ => s.shared
  { dflt := if shared then v.hidden else s.dflt, view := v, shared := shared }

/-! ## Stacking order -/

/-- Tk `canvas raise a b`: the items with tag `a`, in their order, move just above the topmost item with
tag `b`. The items are listed from bottom to top. (Without an item `b` Tk raises an error.) -/
def tagRaise {α : Type} [DecidableEq α] (a b : α) (items : List (α × Nat)) : List (α × Nat) :=
  let moved := items.filter fun i => i.1 = a
  let rest := items.filter fun i => i.1 ≠ a
  let k := rest.length - (rest.reverse.takeWhile fun i => i.1 ≠ b).length
  rest.take k ++ moved ++ rest.drop k

/-- Exchange the entries `i` and `i + 1`. -/
def swapAt {α : Type} (i : Nat) (l : List α) : List α :=
  match l.drop i with
  | a :: b :: r => l.take i ++ b :: a :: r
  | _ => l

/-- viewer.py:780-800 `_raise`, with the layers of the list (`l_canvas_info`) and the drawn items. -/
def raiseLayer {α : Type} [DecidableEq α] (layer : α) (s : List α × List (α × Nat)) : List α × List (α × Nat) :=
  let idx := s.1.idxOf layer
  match s.1[idx]?, s.1[idx + 1]? with
  | some under, some above => (swapAt idx s.1, tagRaise under above s.2)
  | _, _ => s

/-- viewer.py:802-822 `_lower`. -/
def lowerLayer {α : Type} [DecidableEq α] (layer : α) (s : List α × List (α × Nat)) : List α × List (α × Nat) :=
  let idx := s.1.idxOf layer
  if idx > 0 then
    match s.1[idx - 1]?, s.1[idx]? with
    | some under, some above => (swapAt (idx - 1) s.1, tagRaise under above s.2)
    | _, _ => s
  else s

/-- viewer.py:487, 572-622: the items of the layers are drawn one layer after another, `content l` being the
items of a layer. -/
def drawItems {α : Type} (layers : List α) (content : α → List Nat) : List (α × Nat) :=
  layers.flatMap fun l => (content l).map fun i => (l, i)

/-- A click on the arrow up (true) or down of a layer. -/
def arrowClick {α : Type} [DecidableEq α] (s : List α × List (α × Nat)) (c : Bool × α) : List α × List (α × Nat) :=
  if c.1 then raiseLayer c.2 s else lowerLayer c.2 s

/-! ## Extents and zoom -/

section Zoom

variable {K : Type} [Field K] [LinearOrder K]

/-- viewer.py:577-583, 600-615: where a point is drawn on the canvas. -/
def canvasPt (scale : K) (p : Pt K) : Pt K := (p.1 / scale, p.2 / -scale)

/-- viewer.py:825-830: the coordinates shown for a point of the canvas. -/
def shownPt (scale : K) (q : Pt K) : Pt K := (q.1 * scale, -q.2 * scale)

/-- viewer.py:416-425: the box of the polygons, y pointing downwards, as (left, top, right, bottom).
`none` if there are none. Simplified: the initial values of 1e300 are not modelled. -/
def viewBox (polys : List (Pgon K)) : Option (K × K × K × K) :=
  match polys.flatten with
  | [] => none
  | p :: l => some (l.foldl (fun b q => (min b.1 q.1, min b.2.1 (-q.2), max b.2.2.1 q.1, max b.2.2.2 (-q.2)))
      (p.1, -p.2, p.1, -p.2))

/-- viewer.py:429-450: scale and scroll region for the given size of the window. -/
def extents (box : Option (K × K × K × K)) (width height : K) : K × (K × K × K × K) :=
  let bb := box.getD (-1, -1, 1, 1)
  let sy := (bb.2.2.2 - bb.2.1) / height
  let sx := (bb.2.2.1 - bb.1) / width
  if sy > sx then
    let scale := sy * (105 / 100)
    let addx := (width * scale - bb.2.2.1 + bb.1) * (1 / 2)
    let addy := (bb.2.2.2 - bb.2.1) * (25 / 1000)
    (scale, ((bb.1 - addx) / scale, (bb.2.1 - addy) / scale, (bb.2.2.1 + addx) / scale, (bb.2.2.2 + addy) / scale))
  else
    let scale := sx * (105 / 100)
    let addy := (height * scale - bb.2.2.2 + bb.2.1) * (1 / 2)
    let addx := (bb.2.2.1 - bb.1) * (25 / 1000)
    (scale, ((bb.1 - addx) / scale, (bb.2.1 - addy) / scale, (bb.2.2.1 + addx) / scale, (bb.2.2.2 + addy) / scale))

/-- What zooming changes: the scale, the point of the canvas at the upper left corner of the window, the
ruler (`x_rl`, `y_rl`), and the points of the items on the canvas. -/
structure Zoom (K : Type) where
  scale : K
  view : Pt K
  ruler : Pt K
  items : List (Pt K)

/-- `canvas.canvasx(x)`, `canvas.canvasy(y)`. -/
def Zoom.canvas (z : Zoom K) (e : Pt K) : Pt K := (z.view.1 + e.1, z.view.2 + e.2)

/-- Tk keeps the window inside the scroll region (lo, hi) (option `confine` of the canvas): the left end
`x` of a window of the given size is moved if there is space on the other side. -/
def confine (lo hi size x : K) : K :=
  if x - lo < 0 ∧ hi - (x + size) > 0 then x + min (-(x - lo)) (hi - (x + size))
  else if hi - (x + size) < 0 ∧ x - lo > 0 then x - min (-(hi - (x + size))) (x - lo)
  else x

/-- `canvas.xview(MOVETO, f)` with scroll region (lo, hi): the fraction `f` of the region is to the left
of the window. Simplified: Tk rounds to pixels. -/
def moveTo (lo hi size f : K) : K := confine lo hi size (lo + f * (hi - lo))

/-- The scroll region after zooming: `canvas.bbox(ALL)`, enlarged by `k` times its size on each side
(viewer.py:874-876, 888-890, 979-981). -/
def enlarge (k : K) (bb : K × K × K × K) : K × K × K × K :=
  (bb.1 - (bb.2.2.1 - bb.1) * k, bb.2.1 - (bb.2.2.2 - bb.2.1) * k, bb.2.2.1 + (bb.2.2.1 - bb.1) * k,
    bb.2.2.2 + (bb.2.2.2 - bb.2.1) * k)

/-- viewer.py:866, 869-871: the items and the ruler grow by the factor `s`. -/
def Zoom.grow (s : K) (z : Zoom K) : Zoom K :=
  { scale := z.scale / s
    view := z.view
    ruler := (z.ruler.1 * s, z.ruler.2 * s)
    items := z.items.map fun p => (s * p.1, s * p.2) }

/-- viewer.py:860-879 `_zoom` for the wheel at `e`; `up` is `evt.delta > 0`, `bb` the box of the items
after scaling, `size` the size of the window. -/
def Zoom.wheel (up : Bool) (e size : Pt K) (bb : K × K × K × K) (z : Zoom K) : Zoom K :=
  let s : K := if up then 3 / 2 else 1 / (3 / 2)
  let x0 := s * (z.canvas e).1 - e.1
  let y0 := s * (z.canvas e).2 - e.2
  let r := enlarge (12 / 10) bb
  { z.grow s with
    view := (moveTo r.1 r.2.2.1 size.1 ((x0 - r.1) / (r.2.2.1 - r.1)),
      moveTo r.2.1 r.2.2.2 size.2 ((y0 - r.2.1) / (r.2.2.2 - r.2.1))) }

/-- viewer.py:881-927 `_zoom_in` and `_zoom_out`; `fx` and `fy` are the positions of the scroll bars. -/
def Zoom.key (up : Bool) (size fx fy : Pt K) (bb : K × K × K × K) (z : Zoom K) : Zoom K :=
  let s : K := if up then 3 / 2 else 1 / (3 / 2)
  let r := enlarge (12 / 10) bb
  { z.grow s with
    view := (moveTo r.1 r.2.2.1 size.1 (1 / 2 * (fx.2 + fx.1) - 1 / 2 * (size.1 / (r.2.2.1 - r.1))),
      moveTo r.2.1 r.2.2.2 size.2 (1 / 2 * (fy.2 + fy.1) - 1 / 2 * (size.2 / (r.2.2.2 - r.2.1)))) }

/-- viewer.py:953-984 `_mouse_btn_1` at the end of a drag from the canvas point `a` to the window point
`e`; `size` is the size of the window. -/
def Zoom.rect (a e size : Pt K) (bb : K × K × K × K) (z : Zoom K) : Zoom K :=
  let c := z.canvas e
  let dx := |a.1 - c.1|
  let dy := |a.2 - c.2|
  let sx := c.1 + a.1
  let sy := c.2 + a.2
  if |dx * dy| > 1 / 1000000000000 then
    let s := if size.1 / dx < size.2 / dy then size.1 / dx else size.2 / dy
    let x0 := if size.1 / dx < size.2 / dy then 1 / 2 * s * (sx - dx) else 1 / 2 * (s * sx - size.1)
    let y0 := if size.1 / dx < size.2 / dy then 1 / 2 * (s * sy - size.2) else 1 / 2 * s * (sy - dy)
    let r := enlarge (15 / 10) bb
    { z.grow s with
      view := (moveTo r.1 r.2.2.1 size.1 ((x0 - r.1) / (r.2.2.1 - r.1)),
        moveTo r.2.1 r.2.2.2 size.2 ((y0 - r.2.1) / (r.2.2.2 - r.2.1))) }
  else z

/-- viewer.py:835-836: dx and dy shown while the ruler is used, with the mouse at `e`. -/
def Zoom.measure (z : Zoom K) (e : Pt K) : Pt K :=
  (((z.canvas e).1 - z.ruler.1) * z.scale, (z.ruler.2 - (z.canvas e).2) * z.scale)

end Zoom

end Gdspy
