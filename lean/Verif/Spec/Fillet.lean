import Verif.Spec.Arc
import Verif.Model.Fillet
import Mathlib.Analysis.SpecialFunctions.Trigonometric.Inverse

/-!
Specification of rounded corners, over the reals.
-/

namespace Gdspy.Spec

/-- The scalar product of `b - a` and `d - c`. -/
def dotSeg (a b c d : Pt ℝ) : ℝ := (b.1 - a.1) * (d.1 - c.1) + (b.2 - a.2) * (d.2 - c.2)

/-- The angle by which the direction changes at `v` on the way from `p` to `q`. -/
noncomputable def turnAt (p v q : Pt ℝ) : ℝ :=
  Real.arccos (dotSeg p v v q / (Real.sqrt (dist2 p v) * Real.sqrt (dist2 v q)))

/-- The point `x` is in the triangle with the given corners. -/
def InTriangle (a v b x : Pt ℝ) : Prop :=
  ∃ k m : ℝ, 0 ≤ k ∧ 0 ≤ m ∧ k + m ≤ 1 ∧
    x = (v.1 + k * (a.1 - v.1) + m * (b.1 - v.1), v.2 + k * (a.2 - v.2) + m * (b.2 - v.2))

/-- The points `l` are a rounded corner in the place of the vertex `v` between `p` and `q`: points at equal distances on an
arc of a circle with centre `c` that touches the edge from `p` to `v` in `a`, the edge from `v` to `q` in `b`, and turns as
much as the corner. The points of contact are nearer to `v` than to the other ends of the edges. The radius is the
wanted one if the edges are long enough for that; otherwise the shorter one is used up (49% of it). There are `density` points
for a full turn, but at least two. -/
def RoundedCorner (p v q : Pt ℝ) (radius density : ℝ) (l : List (Pt ℝ)) : Prop :=
  ∃ (r : ℝ) (c a b : Pt ℝ) (s0 s1 f0 f1 : ℝ) (n : ℕ),
    0 ≤ r ∧ r ≤ radius ∧ (r = radius ∨ s0 = 49 / 100 ∨ s1 = 49 / 100) ∧
    0 ≤ s0 ∧ s0 ≤ 49 / 100 ∧ a = between v p s0 ∧ dotSeg c a p v = 0 ∧
    0 ≤ s1 ∧ s1 ≤ 49 / 100 ∧ b = between v q s1 ∧ dotSeg c b v q = 0 ∧
    2 ≤ n ∧ (n : ℤ) = max 2 ⌈turnAt p v q / (2 * Real.pi) * density⌉ ∧ |f1 - f0| = turnAt p v q ∧
    l = (List.range n).map (fun i : ℕ => ovalAt c (r, r) (f0 + (i : ℝ) * ((f1 - f0) / ((n : ℝ) - 1)))) ∧
    l.head? = some a ∧ l.getLast? = some b ∧ ∀ x ∈ l, InTriangle a v b x

/-- The vertices of a closed polygon, with their radii, that differ from the vertex before. -/
noncomputable def firsts (p : List (Pt ℝ)) (rs : List ℝ) : List (Pt ℝ × ℝ) := by
  classical
  exact (((p.zip rs).zip (p.getLast?.toList ++ p)).filter fun x => decide (x.1.1 ≠ x.2)).map Prod.fst

/-- The closed polygon `vs` turns back nowhere. -/
def NoReversal (vs : List (Pt ℝ × ℝ)) : Prop :=
  ∀ i a v b, vs[i % vs.length]? = some a → vs[(i + 1) % vs.length]? = some v → vs[(i + 2) % vs.length]? = some b →
    turnAt a.1 v.1 b.1 < Real.pi

/-- The polygon `out` is the closed polygon `vs`, whose vertices have radii, with rounded corners: one piece for each vertex, in
order, beginning with that for the last one. Where the direction changes by less than a millionth the vertex is kept. -/
def Filleted (vs : List (Pt ℝ × ℝ)) (density : ℝ) (out : List (Pt ℝ)) : Prop :=
  ∃ pieces : List (List (Pt ℝ)), out = pieces.flatten ∧ pieces.length = vs.length ∧
    ∀ i a v b, vs[i % vs.length]? = some a → vs[(i + 1) % vs.length]? = some v → vs[(i + 2) % vs.length]? = some b →
      ∃ l, pieces[(i + 2) % vs.length]? = some l ∧
        ((turnAt a.1 v.1 b.1 ≤ 1 / 1000000 ∧ l = [v.1]) ∨
          (1 / 1000000 < turnAt a.1 v.1 b.1 ∧ RoundedCorner a.1 v.1 b.1 v.2 density l))

/-- The radius of vertex `i` of polygon `j` according to the documentation: one number for all, one number for each polygon,
a list for each polygon, or one number for each vertex of all polygons in order. -/
def RadiusFor (arg : FilletArg ℝ) (ps : List (Pgon ℝ)) (j i : Nat) (r : ℝ) : Prop :=
  match arg with
  | .one r' => r = r'
  | .list rs =>
    if rs.length = ps.length then
      rs[j]? = some (RadItem.one r) ∨ ∃ l : List ℝ, rs[j]? = some (RadItem.many l) ∧ l[i]? = some r
    else rs[((ps.take j).map List.length).sum + i]? = some (.one r)

end Gdspy.Spec
