import Verif.Model.Viewer

/-!
Specification vocabulary for the viewer.
-/

namespace Gdspy.Spec

/-- A color that Tk understands: `#rrggbb`. -/
def HexColor (s : Str) : Prop :=
  ∃ a b c d e f : Char, s = ['#', a, b, c, d, e, f] ∧
    ∀ x ∈ [a, b, c, d, e, f], x ∈ ("0123456789abcdef".toList)

/-! ## Filters -/

/-- White space. -/
def Blank (s : Str) : Prop := ∀ c ∈ s, c ∈ [' ', '\t', '\n', '\r', '\x0b', '\x0c']

/-- A number in decimal digits. -/
inductive Numeral : Str → Nat → Prop
  | digit {d : Nat} : d < 10 → Numeral [Char.ofNat (48 + d)] d
  | snoc {s n} {d : Nat} : d < 10 → Numeral s n → Numeral (s ++ [Char.ofNat (48 + d)]) (10 * n + d)

/-- What an item of a filter stands for. -/
inductive FilterItem where
  | any
  | range (lo hi : Nat)
  | one (n : Nat)

def FilterItem.holds (v : Int) : FilterItem → Prop
  | .any => True
  | .range lo hi => (lo : Int) ≤ v ∧ v ≤ hi
  | .one n => v = n

/-- How an item is written: `*`, `3 - 5`, `8`. -/
inductive WritesItem : Str → FilterItem → Prop
  | any : WritesItem ['*'] .any
  | range {a b s t lo hi} : Numeral a lo → Numeral b hi → Blank s → Blank t →
      WritesItem (a ++ s ++ ['-'] ++ t ++ b) (.range lo hi)
  | one {a n} : Numeral a n → WritesItem a (.one n)

/-- Items separated by commas. -/
inductive WritesItems : Str → List FilterItem → Prop
  | one {s i} : WritesItem s i → WritesItems s [i]
  | cons {s i u v t l} : WritesItem s i → Blank u → Blank v → WritesItems t l →
      WritesItems (s ++ u ++ [','] ++ v ++ t) (i :: l)

/-- `( layers / datatypes )`. -/
inductive WritesSpec : Str → List FilterItem × List FilterItem → Prop
  | mk {u v w x y z a b l d} : Blank u → Blank v → Blank w → Blank x → Blank y → Blank z →
      WritesItems a l → WritesItems b d →
      WritesSpec (u ++ ['('] ++ v ++ a ++ w ++ ['/'] ++ x ++ b ++ y ++ [')'] ++ z) (l, d)

/-- Pairs separated by commas. -/
inductive WritesFilter : Str → List (List FilterItem × List FilterItem) → Prop
  | one {s p} : WritesSpec s p → WritesFilter s [p]
  | cons {s p t l} : WritesSpec s p → WritesFilter t l → WritesFilter (s ++ [','] ++ t) (p :: l)

/-- The filter shows a layer and datatype. -/
def Shows (f : List (List FilterItem × List FilterItem)) (k : Int × Int) : Prop :=
  ∃ p ∈ f, (∃ i ∈ p.1, i.holds k.1) ∧ ∃ i ∈ p.2, i.holds k.2

end Gdspy.Spec
