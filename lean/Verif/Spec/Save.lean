import Verif.Model.Save
import Verif.Spec.ImportLib

/-!
Specification of saving: which cells are asked for, and which part of a cell is in the file when
saving it raises an exception.
-/

namespace Gdspy.Spec

/-- An entry of the argument `cells` stands for a cell: the cell itself, or the cell of the library
with that name. -/
def Selects (lib : Lib) : Pick → Cell → Prop
  | .name s, c => c ∈ lib.cells ∧ c.name = s
  | .cell c', c => c = c'

/-- The cells that are asked for. -/
def Chosen (lib : Lib) : Option (List Pick) → List Cell → Prop
  | none, cs => cs = lib.cells
  | some l, cs => List.Forall₂ (Selects lib) l cs

/-- `p` is the part of the cell `c` that is in the file after saving `c`: the cell itself if nothing
is wrong with it; otherwise the elements before the one that raises (`y`), and of `y` those parts that
were completed (`extra`, for example the first polygons of a set). -/
inductive Leaves (trig : ℚ → ℚ × ℚ) (m d : ℚ) : Cell → Cell → Prop
  | whole (c : Cell) (hgood : c.Good trig m d) : Leaves trig m d c c
  | cut (c p : Cell) (before : List CellItem) (y : CellItem) (after extra : List CellItem) (part : Bytes) (e : PyErr)
      (hc : c.items = before ++ y :: after) (hraises : runWrites (y.writes trig m) = (part, some e))
      (hextra : runWrites (extra.flatMap (CellItem.writes trig m)) = (part, none))
      (hname : p.name = c.name) (hp : p.items = before ++ extra) (hgood : p.Good trig m d) :
      Leaves trig m d c p

/-- A property that cannot be written, what its loop turn leaves in the file and the exception: nothing for
the value `None` and for a number that does not fit; PROPATTR and the head of PROPVALUE for a value that
is not ASCII. -/
def PropLeaves : Int × Option Str → Bytes → PyErr → Prop
  | (_, none), x, e => x = [] ∧ e = .typeError
  | (n, some v), x, e =>
    ((n < 0 ∨ 65536 ≤ n) ∧ x = [] ∧ e = .structError) ∨
    ((0 ≤ n ∧ n < 65536) ∧ v.length < 65531 ∧ (∃ c ∈ v, 128 ≤ c.toNat) ∧
      x = [0, 6, 0x2B, 2] ++ be16 n.toNat ++ be16 (4 + (v.length + v.length % 2)) ++ [0x2C, 6] ∧
      e = .unicodeError)

end Gdspy.Spec
