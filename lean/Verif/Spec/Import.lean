import Verif.Model.Read
import Verif.Spec.Grid

/-!
Specification of what a write/read cycle must give back, element by element.
-/

namespace Gdspy.Spec

/-- A dictionary given to `read_gds` applied to a number: numbers not in it are kept. -/
def mapped (f : ℤ → Option ℤ) (n : ℤ) : ℤ :=
  match f n with
  | some k => k
  | none => n

/-- The user did not ask for any renaming or layer change. -/
def PlainArgs (a : ReadArgs) : Prop :=
  a.nameMap = id ∧ (∀ n, a.layers n = none) ∧ (∀ n, a.datatypes n = none) ∧
    (∀ n, a.texttypes n = none)

/-- The nine anchors. -/
def GoodAnchor (n : ℤ) : Prop := n ∈ ([0, 1, 2, 4, 5, 6, 8, 9, 10] : List ℤ)

/-! ### Scaling of all lengths -/

def scale2 (k : ℚ) (p : ℚ × ℚ) : ℚ × ℚ := (k * p.1, k * p.2)

def _root_.Gdspy.Poly.scaled (k : ℚ) (p : Poly) : Poly := { p with points := p.points.map (scale2 k) }

def _root_.Gdspy.PolygonSet.scaled (k : ℚ) (s : PolygonSet) : PolygonSet :=
  { s with polys := s.polys.map (Poly.scaled k) }

def _root_.Gdspy.Ends.scaled (k : ℚ) : Ends → Ends
  | .ext x y => .ext (k * x) (k * y)
  | e => e

def _root_.Gdspy.SubPath.scaled (k : ℚ) (s : SubPath) : SubPath :=
  { s with width := k * s.width, ends := s.ends.scaled k, spine := s.spine.map (scale2 k) }

def _root_.Gdspy.GdsPath.scaled (k : ℚ) (p : GdsPath) : GdsPath :=
  { p with subs := p.subs.map (SubPath.scaled k) }

def _root_.Gdspy.Label.scaled (k : ℚ) (b : Label) : Label :=
  { b with position := scale2 k b.position }

def _root_.Gdspy.Ref.scaled (k : ℚ) (r : Ref) : Ref :=
  { r with origin := scale2 k r.origin
           array := r.array.map fun t => (t.1, t.2.1, scale2 k t.2.2) }

/-! ### Elements as read -/

/-- Every polygon of a set becomes a set of its own, with the properties of the set. -/
def _root_.Gdspy.PolygonSet.imported (a : ReadArgs) (s : PolygonSet) : List PolygonSet :=
  s.polys.map fun p =>
    ⟨[⟨p.points, mapped a.layers p.layer, mapped a.datatypes p.datatype⟩], s.properties⟩

/-- End caps that the format cannot express are replaced. -/
def endsImported : Ends → Ends
  | .smooth => .round
  | .callable => .flush
  | e => e

/-- Every parallel path becomes a path of its own. -/
def _root_.Gdspy.GdsPath.imported (a : ReadArgs) (p : GdsPath) : List GdsPath :=
  p.subs.map fun s => ⟨p.widthTransform,
    [⟨s.width, endsImported s.ends, mapped a.layers s.layer, mapped a.datatypes s.datatype,
      s.spine⟩], p.properties⟩

def _root_.Gdspy.Label.imported (a : ReadArgs) (b : Label) : Label :=
  { b with layer := mapped a.layers b.layer, texttype := mapped a.texttypes b.texttype }

/-- A reference as read, before names are resolved. -/
def _root_.Gdspy.Ref.imported (a : ReadArgs) (r : Ref) : Ref :=
  { r with target := .name (a.nameMap r.target.str) }

/-! ### Elements that the format can hold exactly -/

structure _root_.Gdspy.PolygonSet.Good (m d : ℚ) (s : PolygonSet) : Prop where
  points : ∀ p ∈ s.polys, p.points ≠ [] ∧ ∀ q ∈ p.points, OnGrid2 m d q
  words : ∀ p ∈ s.polys, Word p.layer ∧ Word p.datatype
  props : GoodProps s.properties

/-- The width is non-negative, and positive if it must not be scaled (the file marks
that by the sign of the width). -/
structure _root_.Gdspy.GdsPath.Good (m d : ℚ) (p : GdsPath) : Prop where
  points : ∀ s ∈ p.subs, s.spine ≠ [] ∧ ∀ q ∈ s.spine, OnGrid2 m d q
  words : ∀ s ∈ p.subs, Word s.layer ∧ Word s.datatype
  width : ∀ s ∈ p.subs, ∃ n, OnGridAt m d s.width n ∧
    if p.widthTransform then 0 ≤ n else 0 < n
  ends : ∀ s ∈ p.subs, ∀ x y, s.ends = .ext x y → OnGrid m d x ∧ OnGrid m d y
  props : GoodProps p.properties

structure _root_.Gdspy.Label.Good (m d : ℚ) (b : Label) : Prop where
  text : ∃ s, b.text = some s ∧ GoodText s
  position : OnGrid2 m d b.position
  anchor : GoodAnchor b.anchor
  rotation : GoodReal b.rotation
  magnification : GoodReal b.magnification
  words : Word b.layer ∧ Word b.texttype
  props : GoodProps b.properties

/-- The two corners that an array stores: the origin moved by `columns` steps and by `rows` steps
along the (reflected, then rotated) grid directions. -/
def cornersOf (cs : ℚ × ℚ) (refl : Bool) (o : ℚ × ℚ) (columns rows : ℤ) (sp : ℚ × ℚ) :
    (ℚ × ℚ) × (ℚ × ℚ) :=
  let u : ℚ := columns * sp.1
  let v : ℚ := if refl then -(rows * sp.2) else rows * sp.2
  ((o.1 + u * cs.1, o.2 + u * cs.2), (o.1 - v * cs.2, o.2 + v * cs.1))

/-- Cosine and sine of an optional rotation. -/
def trigOf (trig : ℚ → ℚ × ℚ) : Option ℚ → ℚ × ℚ
  | none => (1, 0)
  | some a => trig a

structure _root_.Gdspy.Ref.Good (trig : ℚ → ℚ × ℚ) (m d : ℚ) (r : Ref) : Prop where
  target : GoodText r.target.str
  origin : OnGrid2 m d r.origin
  rotation : GoodReal r.rotation
  magnification : GoodReal r.magnification
  array : ∀ columns rows sp, r.array = some (columns, rows, sp) →
    Word columns ∧ Word rows ∧ columns ≠ 0 ∧ rows ≠ 0 ∧
    (trigOf trig r.rotation).1 ^ 2 + (trigOf trig r.rotation).2 ^ 2 = 1 ∧
    OnGrid2 m d (cornersOf (trigOf trig r.rotation) r.xReflection r.origin columns rows sp).1 ∧
    OnGrid2 m d (cornersOf (trigOf trig r.rotation) r.xReflection r.origin columns rows sp).2
  props : GoodProps r.properties

/-! ### Reading on from some point of a file -/

/-- The rest of a run of `read_gds`, from the state `st` and with `file` left to read. -/
def readFrom (div : ℚ → ℚ → ℚ) (trig : ℚ → ℚ × ℚ) (a : ReadArgs) (st : ReadState) (file : Bytes) :
    ReadState × Option PyErr :=
  match readRecords div trig a st (recordReader file).1 with
  | (st', some e) => (st', some e)
  | (st', none) => (st', (recordReader file).2)

/-- The state of the reader inside of the cell `name`, between two elements, when the library read
so far is `lib` and a database unit counts `f` user units. -/
def cellState (lib : Lib) (f : ℚ) (name : Str) (attr : ℤ) (created : List Str) : ReadState :=
  { lib := lib, kwargs := {}, create := none, factor := f, cell := some name, properties := [],
    attr := attr, created := created }

/-- The state of the reader between two cells. -/
def libState (lib : Lib) (f : ℚ) (attr : ℤ) (created : List Str) : ReadState :=
  { lib := lib, kwargs := {}, create := none, factor := f, cell := none, properties := [],
    attr := attr, created := created }

/-- The library with some elements added, in order, to its cell `name`. -/
def _root_.Gdspy.Lib.addTo (lib : Lib) (name : Str) (els : List El) : Lib :=
  { lib with cells := lib.cells.map fun c => if c.name = name then els.foldl Cell.add c else c }

/-- The writer `w` succeeds, and wherever its output stands in a cell of a file, reading it
adds exactly the elements `els` to that cell, and reading goes on after it as if
nothing had happened. -/
def ReadsAs (div : ℚ → ℚ → ℚ) (trig : ℚ → ℚ × ℚ) (a : ReadArgs) (f : ℚ) (w : Py Bytes)
    (els : List El) : Prop :=
  ∃ b, w = .ok b ∧ ∀ lib name attr created, ∃ attr', ∀ rest,
    readFrom div trig a (cellState lib f name attr created) (b ++ rest)
      = readFrom div trig a (cellState (lib.addTo name els) f name attr' created) rest

/-- The run of `read_gds` is reading from the beginning of the file. -/
theorem readGds_eq (div : ℚ → ℚ → ℚ) (trig : ℚ → ℚ × ℚ) (a : ReadArgs) (lib : Lib) (file : Bytes) :
    readGds div trig a lib file
      = ((readFrom div trig a { lib := lib } file).1.lib,
          (readFrom div trig a { lib := lib } file).2) := by
  unfold readGds readFrom
  simp only
  rcases h : readRecords div trig a { lib := lib } (recordReader file).1 with ⟨st, _ | e⟩ <;> rfl

end Gdspy.Spec
