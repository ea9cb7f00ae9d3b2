import Verif.Model.Element
import Verif.Spec.Real8

/-!
Specification vocabulary for what a GDSII file can hold exactly.
-/

namespace Gdspy.Spec

/-- `x` is the coordinate of database grid line `n`: `x = d * n`, where `d` is the stored size
of a database unit in user units and `m` the multiplier used for writing. In exact
arithmetic `d * m = 1`; with doubles `d` and `m` are only approximately reciprocal, and the
condition says that the accumulated error stays below half a grid step. The grid index
is a 32-bit integer. -/
def OnGridAt (m d x : ℚ) (n : ℤ) : Prop :=
  x = d * n ∧ |(n : ℚ)| * |d * m - 1| < 1 / 2 ∧ -2147483648 ≤ n ∧ n < 2147483648

def OnGrid (m d x : ℚ) : Prop := ∃ n, OnGridAt m d x n

def OnGrid2 (m d : ℚ) (p : ℚ × ℚ) : Prop := OnGrid m d p.1 ∧ OnGrid m d p.2

/-- A 16-bit signed number (layer, datatype, texttype, columns, rows). -/
def Word (n : ℤ) : Prop := -32768 ≤ n ∧ n < 32768

/-- Text that the format can hold: ASCII, not empty, short enough for one record, and not an
even number of characters ending in NUL (that NUL would be taken for padding). -/
def GoodText (s : Str) : Prop :=
  s ≠ [] ∧ (∀ c ∈ s, c.toNat < 128) ∧ s.length ≤ 65530 ∧
    (s.length % 2 = 0 → ∀ x, s.getLast? = some x → x.toNat ≠ 0)

/-- Property dictionaries that the format can hold: distinct attribute numbers below 32768 and
good values. -/
def GoodProps (l : List (ℤ × Option Str)) : Prop :=
  (l.map Prod.fst).Nodup ∧ ∀ p ∈ l, (0 ≤ p.1 ∧ p.1 < 32768) ∧ ∃ s, p.2 = some s ∧ GoodText s

/-- An optional stored number. -/
def GoodReal (x : Option ℚ) : Prop := ∀ v, x = some v → Storable v

end Gdspy.Spec
