import Verif.Spec.Clip
import Verif.Model.Holes

/-!
What it means to join a hole to an outline, and which nodes of a polygon tree stand for polygons.
-/

namespace Gdspy.Spec

/-- A grid point in the plane. -/
def gp {K : Type} [IntCast K] (v : IPt) : Pt K := ((v.1 : K), (v.2 : K))

/-- The triangle between the edge from `a` to `b` and the point `c`, which is at a height of the edge (not that of `a`) and less
than one grid unit to the left or the right of it. -/
structure Sliver (a b c : IPt) : Prop where
  height : (b.2 ≤ c.2 ∧ c.2 < a.2) ∨ (a.2 < c.2 ∧ c.2 ≤ b.2)
  near : |(c.1 : ℚ) - xAt (gp a) (gp b) (c.2 : ℚ)| < 1

/-- The outline `out` is the outline `r` in which the edge from `a` to `b` has been replaced by a path from `a` to `c`, through a
bridge to the point `p` of the hole `h`, around the hole, through the bridge back to `c`, and on to `b`. Outlines are
closed: where they begin does not matter. -/
def Joined (r h out : List IPt) (a b c p : IPt) : Prop :=
  ∃ ms hs, (b :: (ms ++ [a])).IsRotated r ∧ (p :: hs).IsRotated h ∧
    (b :: (ms ++ a :: c :: p :: (hs ++ p :: if c = b then [] else [c]))).IsRotated out

/-- The bridge from `c` to `p` is horizontal, begins at the left of the hole, and ends close to an edge of the outline
(`Sliver`); no edge of the outline goes through it, except maybe less than a grid unit from `c`. -/
structure Bridge (r h : List IPt) (a b c p : IPt) : Prop where
  leftmost : ∀ v ∈ h, p.1 ≤ v.1
  level : c.2 = p.2
  leftwards : c.1 ≤ p.1
  foot : Sliver a b c
  clear : ∀ e ∈ edges r, ((e.1.2 < p.2 ∧ p.2 < e.2.2) ∨ (e.2.2 < p.2 ∧ p.2 < e.1.2)) →
    xAt (gp e.1) (gp e.2) (p.2 : ℚ) < c.1 + 1 ∨ (p.1 : ℚ) < xAt (gp e.1) (gp e.2) (p.2 : ℚ)

/-- The first hole has a vertex at the left of each vertex of the second, or above or below it. -/
def LeftFirst (g h : List IPt) : Prop := ∀ w ∈ h, ∃ v ∈ g, v.1 ≤ w.1

/-- A function that sorts paths by their smallest abscissa. -/
def SortsByLeft (sort : List (List IPt) → List (List IPt)) : Prop :=
  ∀ l, (sort l).Perm l ∧ (sort l).Pairwise LeftFirst

/-- The nodes that are not holes: those at the top, and the children of their holes. -/
inductive Outer (tree : List PolyNode) : PolyNode → Prop
  | top {n} : n ∈ tree → Outer tree n
  | inner {n h m} : Outer tree n → h ∈ n.childs → m ∈ h.childs → Outer tree m

/-- The holes of a node. -/
def holesOf (n : PolyNode) : List (List IPt) := n.childs.map PolyNode.contour

section
variable {K : Type} [Field K] [LinearOrder K]

/-- The winding number of a contour with its holes. -/
def nodeWind (n : PolyNode) (q : Pt K) : Int := wind (ofGrid n.contour) q + total ((holesOf n).map ofGrid) q

/-- The holes are strictly inside of the contour and outside of each other, as far as their leftmost
vertices are concerned. -/
structure HolesInside (contour : List IPt) (holes : List (List IPt)) : Prop where
  nonempty : ∀ h ∈ holes, h ≠ []
  inside : ∀ h ∈ holes, ∀ p ∈ h, (∀ v ∈ h, p.1 ≤ v.1) →
    wind (ofGrid (K := ℚ) contour) (gp p) ≠ 0 ∧ ¬ OnOutline (ofGrid (K := ℚ) contour) (gp p)
  apart : holes.Pairwise fun g h =>
    (∀ p ∈ h, (∀ v ∈ h, p.1 ≤ v.1) → wind (ofGrid (K := ℚ) g) (gp p) = 0 ∧ ¬ OnOutline (ofGrid (K := ℚ) g) (gp p)) ∧
    (∀ p ∈ g, (∀ v ∈ g, p.1 ≤ v.1) → wind (ofGrid (K := ℚ) h) (gp p) = 0 ∧ ¬ OnOutline (ofGrid (K := ℚ) h) (gp p))

/-- Clipper with a polygon tree as result, for rectilinear operands: the contours are rectilinear, the points for which
the operation holds are those inside of the polygons of the tree without their holes, each polygon has an inside, and the
holes are where they should be. -/
structure ExactTree (K : Type) [Field K] [LinearOrder K]
    (execute : ClipOp → List (List IPt) → List (List IPt) → List PolyNode) : Prop where
  covers : ∀ op A B, (∀ P ∈ A, Rectilinear P) → (∀ P ∈ B, Rectilinear P) → ∀ p : Pt K,
    (∃ n, Outer (execute op A B) n ∧ nodeWind n p ≠ 0) ↔
      op.holds (total (A.map ofGrid) p ≠ 0) (total (B.map ofGrid) p ≠ 0)
  nonempty : ∀ op A B, (∀ P ∈ A, Rectilinear P) → (∀ P ∈ B, Rectilinear P) →
    ∀ n, Outer (execute op A B) n → ∃ p : Pt K, nodeWind n p ≠ 0
  rectilinear : ∀ op A B, (∀ P ∈ A, Rectilinear P) → (∀ P ∈ B, Rectilinear P) →
    ∀ n, Outer (execute op A B) n → Rectilinear n.contour ∧ ∀ h ∈ holesOf n, Rectilinear h
  inside : ∀ op A B, (∀ P ∈ A, Rectilinear P) → (∀ P ∈ B, Rectilinear P) →
    ∀ n, Outer (execute op A B) n → HolesInside n.contour (holesOf n)

end

end Gdspy.Spec
