import Verif.Model.Flex
import Verif.Spec.Path

/-!
# What a FlexPath should be
-/

namespace Gdspy.Spec

variable {K : Type}

/-- One row of widths and one of offsets for each point, with one entry for each path; one end, corner, bend radius,
layer and datatype for each path. -/
structure FlexAligned (f : Flex K) : Prop where
  widths : f.widths.length = f.points.length
  offsets : f.offsets.length = f.points.length
  widthCols : ∀ r ∈ f.widths, r.length = f.n
  offsetCols : ∀ r ∈ f.offsets, r.length = f.n
  ends : f.ends.length = f.n
  corners : f.corners.length = f.n
  bendRadius : f.bendRadius.length = f.n
  layers : f.layers.length = f.n
  datatypes : f.datatypes.length = f.n
  nonempty : f.points ≠ []

/-- A list given as width or offset has one entry for each path. -/
def FArgOk (n : Nat) : FArg K → Prop
  | .list l => l.length = n
  | _ => True

def FlexArgsOk (n : Nat) : FlexOp K → Prop
  | .segment _ w o _ => FArgOk n w ∧ FArgOk n o
  | .arc _ _ _ w o => FArgOk n w ∧ FArgOk n o
  | .turn _ _ w o => FArgOk n w ∧ FArgOk n o
  | .parametric _ w o _ => FArgOk n w ∧ FArgOk n o
  | .bezier _ w o _ => FArgOk n w ∧ FArgOk n o
  | .smooth _ _ _ w o _ => FArgOk n w ∧ FArgOk n o
  | _ => True

/-- The widths asked for: those before, the given number for every path, or the given list. -/
def askedWidths (n : Nat) (last : List K) : FArg K → List K
  | .none => last
  | .num x => List.replicate n x
  | .list l => l

/-- The offsets asked for: a number is added to the offsets before. -/
def askedOffsets [Field K] (last : List K) : FArg K → List K
  | .none => last
  | .num x => last.map (· + x)
  | .list l => l

/-- `m` rows that go from `last` to `target` in equal steps. -/
def Tapered [Field K] (n m : Nat) (last target : List K) (rows : List (List K)) : Prop :=
  rows.length = m ∧ ∀ i k, i < m → k < n → ∃ r a b, rows[i]? = some r ∧ last[k]? = some a ∧ target[k]? = some b ∧
    r[k]? = some (a + (b - a) * (((i : K) + 1) / (m : K)))

/-- The laws of the square root and of `atan2`. -/
structure Num.Polar [Field K] [LinearOrder K] (t : Num K) : Prop where
  sqrtNonneg : ∀ x, 0 ≤ t.sqrt x
  sqrtSq : ∀ x, 0 ≤ x → t.sqrt x ^ 2 = x
  cos : ∀ x y, t.sqrt (x ^ 2 + y ^ 2) * t.cos (t.atan2 y x) = x
  sin : ∀ x y, t.sqrt (x ^ 2 + y ^ 2) * t.sin (t.atan2 y x) = y

end Gdspy.Spec
