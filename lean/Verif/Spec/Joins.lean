import Verif.Spec.Offset
import Verif.Lemmas.RealNum

/-!
What `offset` draws around a polygon: moved sides, and joins at the corners.
-/

namespace Gdspy.Spec

/-- The unit vector at right angles to a side, to the right of it. -/
noncomputable def rightward (s : IPt × IPt) : Pt ℝ :=
  (((s.2.2 : ℝ) - s.1.2) / √(((s.2.1 : ℝ) - s.1.1) ^ 2 + ((s.2.2 : ℝ) - s.1.2) ^ 2),
   -(((s.2.1 : ℝ) - s.1.1) / √(((s.2.1 : ℝ) - s.1.1) ^ 2 + ((s.2.2 : ℝ) - s.1.2) ^ 2)))

def dotP (u w : Pt ℝ) : ℝ := u.1 * w.1 + u.2 * w.2
def crossP (u w : Pt ℝ) : ℝ := u.1 * w.2 - u.2 * w.1

/-- The sine of the angle between sides; positive for left turns. -/
noncomputable def sinTurn (k j : IPt × IPt) : ℝ := crossP (rightward k) (rightward j)
noncomputable def cosTurn (k j : IPt × IPt) : ℝ := dotP (rightward k) (rightward j)

/-- `q` is `v + d`, rounded to the grid. -/
def Near (v : IPt) (d : Pt ℝ) (q : IPt) : Prop := |(q.1 : ℝ) - (v.1 + d.1)| ≤ 1 / 2 ∧ |(q.2 : ℝ) - (v.2 + d.2)| ≤ 1 / 2

/-- `v + d` is on the line at distance `δ` to the right of the side, or of a line along it through `v`. -/
def AtDistance (δ : ℝ) (s : IPt × IPt) (d : Pt ℝ) : Prop := dotP d (rightward s) = δ

/-- Two points on the moved sides, joined by a line at the same distance from the corner that leaves both moved sides at the same angle. -/
def Cut (δ : ℝ) (k j : IPt × IPt) (v p q : IPt) : Prop :=
  ∃ u d d', dotP u u = 1 ∧ dotP u (rightward k) = dotP u (rightward j) ∧ 0 ≤ dotP u (rightward k) ∧
    AtDistance δ k d ∧ dotP d u = δ ∧ Near v d p ∧ AtDistance δ j d' ∧ dotP d' u = δ ∧ Near v d' q

/-- The points of a circle with radius `|δ|` around the corner, from one moved side to the other, at `n` full steps for `N` points per
turn; the last step goes to the other side. `n` is the nearest number of steps for the angle `A`. -/
def OnArc (δ N : ℝ) (k j : IPt × IPt) (v : IPt) (pts : List IPt) : Prop :=
  ∃ A, -Real.pi < A ∧ A ≤ Real.pi ∧ Real.cos A = cosTurn k j ∧ Real.sin A = sinTurn k j ∧
    ∃ n : Nat, 1 ≤ n ∧ (|(n : ℝ) - N / (2 * Real.pi) * abs A| ≤ 1 / 2 ∨ n = 1) ∧ ∃ arc q, pts = arc ++ [q] ∧ arc.length = n ∧
      (∀ (i : Nat) p, arc[i]? = some p → ∃ a, a = (if δ < 0 then -(i * (2 * Real.pi / N)) else i * (2 * Real.pi / N)) ∧
        Near v (δ * (Real.cos a * (rightward k).1 - Real.sin a * (rightward k).2),
          δ * (Real.sin a * (rightward k).1 + Real.cos a * (rightward k).2)) p) ∧
      Near v (δ * (rightward j).1, δ * (rightward j).2) q

/-- What is drawn at the corner `v` between two sides. -/
inductive JoinAt (δ tol N : ℝ) (k j : IPt × IPt) (v : IPt) : JoinKind → List IPt → Prop
  /-- where the moved sides cross: their ends, with a detour over the corner -/
  | inner {join p q} : sinTurn k j * δ < 0 → Near v (δ * (rightward k).1, δ * (rightward k).2) p →
      Near v (δ * (rightward j).1, δ * (rightward j).2) q → JoinAt δ tol N k j v join [p, v, q]
  /-- the point where the moved sides meet, if it is not too far away -/
  | miter {p} (d : Pt ℝ) : 0 ≤ sinTurn k j * δ → AtDistance δ k d → AtDistance δ j d → √(dotP d d) ≤ tol * |δ| → Near v d p →
      JoinAt δ tol N k j v .miter [p]
  | cut {p q} : 0 ≤ sinTurn k j * δ → (∀ d, AtDistance δ k d → AtDistance δ j d → tol * |δ| < √(dotP d d)) → Cut δ k j v p q →
      JoinAt δ tol N k j v .miter [p, q]
  | square {p q} : 0 ≤ sinTurn k j * δ → Cut δ k j v p q → JoinAt δ tol N k j v .square [p, q]
  | round {pts} : 0 ≤ sinTurn k j * δ → OnArc δ N k j v pts → JoinAt δ tol N k j v .round pts

/-- The points drawn along sides. `k` is the side before. At a corner that is almost straight (less than one unit, over a length of
`|δ|`), there is one point, and the direction of the side before it is kept. -/
inductive Along (δ tol N : ℝ) (join : JoinKind) : IPt × IPt → List (IPt × IPt) → List IPt → Prop
  | nil {k} : Along δ tol N join k [] []
  | straight {k j l p r} : |sinTurn k j * δ| < 1 → 0 < cosTurn k j → Near j.1 (δ * (rightward k).1, δ * (rightward k).2) p →
      Along δ tol N join k l r → Along δ tol N join k (j :: l) (p :: r)
  | corner {k j l pts r} : (1 ≤ |sinTurn k j * δ| ∨ cosTurn k j ≤ 0) → JoinAt δ tol N k j j.1 join pts →
      Along δ tol N join j l r → Along δ tol N join k (j :: l) (pts ++ r)

/-- The contour drawn around a polygon. -/
def Contour (δ tol N : ℝ) (join : JoinKind) (P D : List IPt) : Prop :=
  ∃ k, (edges P).getLast? = some k ∧ Along δ tol N join k (edges P) D

/-- The outline `Q` is the polygon `P` in grid units, in counterclockwise direction, with at least three vertices and no vertex twice in
a row. -/
structure GridOutline (precision : ℝ) (P : Pgon ℝ) (Q : List IPt) : Prop where
  same : Q = P.map (gridPt (1 / precision)) ∨ Q = (P.map (gridPt (1 / precision))).reverse
  distinct : ∀ e ∈ edges Q, e.1 ≠ e.2
  three : 3 ≤ Q.length
  positive : 0 < shoelace (ofGrid Q : Pgon ℝ)

end Gdspy.Spec
