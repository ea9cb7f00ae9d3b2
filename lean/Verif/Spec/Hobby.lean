import Verif.Model.Hobby
import Verif.Spec.Plane
import Mathlib.Analysis.SpecialFunctions.Trigonometric.Basic
import Mathlib.Algebra.BigOperators.Group.Finset.Basic

/-!
Specification of interpolating curves, after J. D. Hobby, "Smooth, easy to compute interpolating splines", over the reals.
-/

namespace Gdspy.Spec

/-- The vector from `p` to `q`. -/
def arrow (p q : Pt ℝ) : Pt ℝ := (q.1 - p.1, q.2 - p.2)

/-- The length of a vector. -/
noncomputable def norm2 (v : Pt ℝ) : ℝ := Real.sqrt (v.1 ^ 2 + v.2 ^ 2)

/-- The vector `v` turned counterclockwise by the angle `a`. -/
noncomputable def turned (a : ℝ) (v : Pt ℝ) : Pt ℝ :=
  (Real.cos a * v.1 - Real.sin a * v.2, Real.sin a * v.1 + Real.cos a * v.2)

/-- The point `k` times the vector `v` away from `p`. -/
def along (p v : Pt ℝ) (k : ℝ) : Pt ℝ := (p.1 + k * v.1, p.2 + k * v.2)

/-- The unit vector in a direction. -/
noncomputable def heading (a : ℝ) : Pt ℝ := (Real.cos a, Real.sin a)

/-- Hobby's velocity at the beginning of a segment that leaves the chord by the angle `x` and comes back by the angle `y`. -/
noncomputable def velocity (x y : ℝ) : ℝ :=
  (2 + Real.sqrt 2 * (Real.sin x - Real.sin y / 16) * (Real.sin y - Real.sin x / 16) * (Real.cos x - Real.cos y)) /
    (1 + (Real.sqrt 5 - 1) / 2 * Real.cos x + (3 - Real.sqrt 5) / 2 * Real.cos y)

/-- A segment: its ends, the tensions there, and the angles by which it leaves the chord and comes back to it. -/
structure Segment where
  p : Pt ℝ
  q : Pt ℝ
  tout : ℝ
  tin : ℝ
  x : ℝ
  y : ℝ

/-- The control points of a segment; the velocities are positive. -/
def Segment.Controls (s : Segment) (a b : Pt ℝ) : Prop :=
  0 < velocity s.x s.y ∧ 0 < velocity s.y s.x ∧
  a = along s.p (turned s.x (arrow s.p s.q)) (velocity s.x s.y / (3 * s.tout)) ∧
  b = along s.q (turned (-s.y) (arrow s.p s.q)) (-(velocity s.y s.x / (3 * s.tin)))

/-- The mock curvature at the beginning. -/
noncomputable def Segment.bend0 (s : Segment) : ℝ :=
  s.tout ^ 2 / norm2 (arrow s.p s.q) * ((s.x + s.y) / s.tin - 3 * s.x)

/-- The mock curvature at the end. -/
noncomputable def Segment.bend1 (s : Segment) : ℝ :=
  s.tin ^ 2 / norm2 (arrow s.p s.q) * ((s.x + s.y) / s.tout - 3 * s.y)

/-- The segment leaves in the given direction. -/
def Segment.Leaves (s : Segment) (a : ℝ) : Prop :=
  turned s.x (arrow s.p s.q) = along (0, 0) (heading a) (norm2 (arrow s.p s.q))

/-- The segment arrives in the given direction. -/
def Segment.Arrives (s : Segment) (a : ℝ) : Prop :=
  turned (-s.y) (arrow s.p s.q) = along (0, 0) (heading a) (norm2 (arrow s.p s.q))

/-- The conditions for two segments that meet: both have the given direction, or else the mock curvatures agree and the
angles add up to minus the turn of the chords, which is between -π and π. -/
def Meets (angle : Option ℝ) (s s' : Segment) : Prop :=
  match angle with
  | some a => s.Arrives a ∧ s'.Leaves a
  | none => s.bend1 = s'.bend0 ∧ -Real.pi ≤ -(s.y + s'.x) ∧ -(s.y + s'.x) < Real.pi ∧
      along (0, 0) (arrow s'.p s'.q) (norm2 (arrow s.p s.q)) =
        along (0, 0) (turned (-(s.y + s'.x)) (arrow s.p s.q)) (norm2 (arrow s'.p s'.q))

/-- The first segment has the given direction, or its mock curvatures have the given ratio. -/
def Begins (angle : Option ℝ) (curl : ℝ) (s : Segment) : Prop :=
  match angle with
  | some a => s.Leaves a
  | none => s.bend0 = curl * s.bend1

/-- The last segment has the given direction, or its mock curvatures have the given ratio. -/
def Finishes (angle : Option ℝ) (curl : ℝ) (s : Segment) : Prop :=
  match angle with
  | some a => s.Arrives a
  | none => s.bend1 = curl * s.bend0

/-- Control points of an open interpolating curve through the points `z 0`, ..., `z n`. -/
def SmoothOpen (n : Nat) (z : Nat → Pt ℝ) (angles : Nat → Option ℝ) (cs ce : ℝ) (tin tout : Nat → ℝ) (l : List (Pt ℝ × Pt ℝ)) :
    Prop :=
  ∃ x y : Nat → ℝ, l.length = n ∧
    let seg (k : Nat) : Segment := ⟨z k, z (k + 1), tout k, tin (k + 1), x k, y k⟩
    (∀ k c, l[k]? = some c → (seg k).Controls c.1 c.2) ∧
    (∀ k, k + 1 < n → Meets (angles (k + 1)) (seg k) (seg (k + 1))) ∧
    Begins (angles 0) cs (seg 0) ∧ Finishes (angles n) ce (seg (n - 1))

/-- Control points of a closed interpolating curve through `z 0`, ..., `z (n - 1)`. -/
def SmoothClosed (n : Nat) (z : Nat → Pt ℝ) (angles : Nat → Option ℝ) (tin tout : Nat → ℝ) (l : List (Pt ℝ × Pt ℝ)) : Prop :=
  ∃ x y : Nat → ℝ, l.length = n ∧
    let seg (k : Nat) : Segment := ⟨z k, z ((k + 1) % n), tout k, tin ((k + 1) % n), x k, y k⟩
    (∀ k c, l[k]? = some c → (seg k).Controls c.1 c.2) ∧
    (∀ k, k < n → Meets (angles ((k + 1) % n)) (seg k) (seg ((k + 1) % n)))

/-- The control point `b` before and the control point `a` after the point `p` are on a line through `p`, on opposite sides, in the
given direction if there is one. -/
def SmoothAt (angle : Option ℝ) (b p a : Pt ℝ) : Prop :=
  ∃ e u w : ℝ, (∀ e', angle = some e' → e = e') ∧ 0 < u ∧ 0 < w ∧ a = along p (heading e) u ∧ b = along p (heading e) (-w)

/-- The tension at a point. -/
def tensionAt : Tension ℝ → Nat → ℝ
  | .one t, _ => t
  | .each l, k => l.getD k 0

/-- What is returned solves the system of equations. -/
def Solves (solve : LinSolve ℝ) : Prop :=
  ∀ n m c x, solve n m c = .ok x → ∀ i < n, ∑ j ∈ Finset.range n, m i j * x j = c i

end Gdspy.Spec
