import Verif.Model.Hier
import Mathlib.Algebra.BigOperators.Intervals
import Mathlib.Data.Nat.Choose.Basic
import Mathlib.Algebra.Order.Group.Abs

/-!
# Specification for Bezier curves
-/

namespace Gdspy.Spec

variable {K : Type}

/-- The Bernstein form of a polynomial with the given coefficients. -/
def bern [Field K] (n : Nat) (g : Nat → K) (u : K) : K :=
  ∑ i ∈ Finset.range (n + 1), (n.choose i : K) * u ^ i * (1 - u) ^ (n - i) * g i

/-- The Bezier curve with the given control points, by its closed formula. -/
def bezier [Field K] (ctrl : List (Pt K)) (u : K) : Pt K :=
  (bern (ctrl.length - 1) (fun i => (ctrl.getD i (0, 0)).1) u,
   bern (ctrl.length - 1) (fun i => (ctrl.getD i (0, 0)).2) u)

section Samples

variable [Field K] [LinearOrder K]

/-- Square of the distance of two points. -/
def sqDist (a b : Pt K) : K := (a.1 - b.1) ^ 2 + (a.2 - b.2) ^ 2

/-- The point of the chord from `a` to `b` at fraction `s`. -/
def onChord (a b : Pt K) (s : K) : Pt K := ((1 - s) * a.1 + s * b.1, (1 - s) * a.2 + s * b.2)

/-- At fraction `s` of the interval, the chord is not further than the square root of `err` from the curve. -/
def CloseAt (f : K → Pt K) (err s : K) (a b : K × Pt K) : Prop :=
  sqDist (onChord a.2 b.2 s) (f ((1 - s) * a.1 + s * b.1)) ≤ err

/-- `l` has parameters with points of the curve `f`, in increasing order, from `u0` to `u1`. -/
structure Samples (f : K → Pt K) (u0 u1 : K) (l : List (K × Pt K)) : Prop where
  onCurve : ∀ q ∈ l, q.2 = f q.1
  increasing : l.Pairwise fun a b => a.1 < b.1
  first : l.head? = some (u0, f u0)
  last : l.getLast? = some (u1, f u1)

/-- A curve without jumps: coordinates change at most `L` times as much as the parameter. -/
def Lipschitz (f : K → Pt K) (u0 u1 L : K) : Prop :=
  ∀ u v, u0 ≤ u → u ≤ v → v ≤ u1 → |(f v).1 - (f u).1| ≤ L * (v - u) ∧ |(f v).2 - (f u).2| ≤ L * (v - u)

end Samples

end Gdspy.Spec
