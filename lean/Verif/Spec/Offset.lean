import Verif.Spec.Holes
import Verif.Spec.Flex
import Verif.Model.Offset

/-!
What it means to move the sides of a rectilinear outline by a distance, and what `offset` relies on class `Clipper` for.
-/

namespace Gdspy.Spec

/-- Each vertex, between the one before it and the one after it. -/
def corners {α : Type} (P : List α) : List (α × α × α) := (P.rotate (P.length - 1)).zip (edges P)

/-- Positive if the way from `a` over `v` to `b` turns left, negative if it turns right. -/
def turn (a v b : IPt) : Int := (v.1 - a.1) * (b.2 - v.2) - (v.2 - a.2) * (b.1 - v.1)

/-- Positive if the way from `a` over `v` to `b` goes on, negative if it goes back. -/
def onward (a v b : IPt) : Int := (v.1 - a.1) * (b.1 - v.1) + (v.2 - a.2) * (b.2 - v.2)

/-- An outline with horizontal and vertical sides: no vertex is repeated, and no side goes back along the one before it. -/
structure Outline (P : List IPt) : Prop where
  rectilinear : Rectilinear P
  distinct : ∀ e ∈ edges P, e.1 ≠ e.2
  onwards : ∀ c ∈ corners P, turn c.1 c.2.1 c.2.2 ≠ 0 ∨ 0 < onward c.1 c.2.1 c.2.2
  three : 3 ≤ P.length

section
variable {K : Type} [Field K] [LinearOrder K] [FloorRing K]

/-- The point `v`, moved by the distance `d` to the right of the way from `a` to `b`, and rounded to the grid. -/
def stepOut (d : K) (a b v : IPt) : IPt :=
  if a.1 = b.1 then (clipRound ((v.1 : K) + if a.2 < b.2 then d else -d), v.2)
  else (v.1, clipRound ((v.2 : K) + if a.1 < b.1 then -d else d))

/-- The rectangle between a side and the moved side. -/
def band (d : K) (e : IPt × IPt) : List IPt := [e.1, stepOut d e.1 e.2 e.1, stepOut d e.1 e.2 e.2, e.2]

/-- The rectangle at a corner, between the moved sides. -/
def cornerBox (d : K) (c : IPt × IPt × IPt) : List IPt :=
  [c.2.1, stepOut d c.1 c.2.1 c.2.1, stepOut d c.2.1 c.2.2 (stepOut d c.1 c.2.1 c.2.1), stepOut d c.2.1 c.2.2 c.2.1]

/-- When sides are moved away from the corner there is a gap between the moved sides: at left turns if they are moved to the right, and
the other way round. -/
def Gap (d : K) (c : IPt × IPt × IPt) : Prop := 0 < (turn c.1 c.2.1 c.2.2 : K) * d

instance (d : K) (c : IPt × IPt × IPt) : Decidable (Gap d c) := by unfold Gap; infer_instance

/-- The number of bands and corner rectangles of an outline that contain a point. -/
def margin (d : K) (P : List IPt) (p : Pt K) : Nat :=
  (edges P).countP (fun e => decide (wind (ofGrid (band d e)) p ≠ 0)) +
    (corners P).countP fun c => decide (Gap d c ∧ wind (ofGrid (cornerBox d c)) p ≠ 0)

/-- The point is in a band or a corner rectangle. -/
def InMargin (d : K) (P : List IPt) (p : Pt K) : Prop :=
  (∃ e ∈ edges P, wind (ofGrid (band d e)) p ≠ 0) ∨ ∃ c ∈ corners P, Gap d c ∧ wind (ofGrid (cornerBox d c)) p ≠ 0

end

/-! ## Clipper -/

/-- All nodes of a tree. -/
inductive Node (tree : List PolyNode) : PolyNode → Prop
  | top {n} : n ∈ tree → Node tree n
  | child {n m} : Node tree n → m ∈ n.childs → Node tree m

/-- The clockwise rectangle. -/
def clockwise (b : IBox) : List IPt := [(b.x0, b.y1), (b.x1, b.y1), (b.x1, b.y0), (b.x0, b.y0)]

section
variable {K : Type} [Field K] [LinearOrder K]

/-- The point is inside of a contour. -/
def Within (n : PolyNode) (p : Pt K) : Prop := wind (ofGrid n.contour) p ≠ 0

/-- The contours of a tree: those at the top have winding number `s`, their children the opposite, and so on; children are inside of their
parents, and siblings do not overlap. -/
structure Nested (K : Type) [Field K] [LinearOrder K] (s : Int) (tree : List PolyNode) : Prop where
  sign : ∀ n, Outer tree n → (∀ p : Pt K, Within n p → wind (ofGrid n.contour) p = s) ∧
    ∀ m ∈ n.childs, ∀ p : Pt K, Within m p → wind (ofGrid m.contour) p = -s
  inside : ∀ n, Node tree n → ∀ m ∈ n.childs, ∀ p : Pt K, Within m p → Within n p
  siblings : ∀ n, Node tree n → n.childs.Pairwise fun a b => ∀ p : Pt K, ¬ (Within a p ∧ Within b p)
  tops : tree.Pairwise fun a b => ∀ p : Pt K, ¬ (Within a p ∧ Within b p)

/-- The points inside of the polygons of a tree, without their holes. -/
def Filled (tree : List PolyNode) (p : Pt K) : Prop := ∃ n, Outer tree n ∧ nodeWind n p ≠ 0

/-- The polygons of a tree have an inside, are rectilinear, and their holes are where they should be. -/
structure Sound (K : Type) [Field K] [LinearOrder K] (tree : List PolyNode) : Prop where
  nonempty : ∀ n, Outer tree n → ∃ p : Pt K, nodeWind n p ≠ 0
  rectilinear : ∀ n, Outer tree n → Rectilinear n.contour ∧ ∀ h ∈ holesOf n, Rectilinear h
  inside : ∀ n, Outer tree n → HolesInside n.contour (holesOf n)

/-- The box is around all points with a winding number, with a distance. -/
def Around (K : Type) [Field K] [LinearOrder K] (b : IBox) (A : List (List IPt)) : Prop :=
  b.x0 < b.x1 ∧ b.y0 < b.y1 ∧ ∀ P ∈ A, ∀ p : Pt K, wind (ofGrid P) p ≠ 0 →
    (b.x0 : K) + 1 ≤ p.1 ∧ p.1 + 1 ≤ b.x1 ∧ (b.y0 : K) + 1 ≤ p.2 ∧ p.2 + 1 ≤ b.y1

/-- The union of rectilinear polygons by class `Clipper`: with positive filling the tree has the points with positive winding
number. With negative filling, for polygons with a clockwise rectangle around them, the only contour at the top is this rectangle;
the tree has the points with negative winding number. -/
structure ExactUnion (K : Type) [Field K] [LinearOrder K] (e : UnionEngine) : Prop where
  bounds : ∀ A, (e.bounds A).x0 ≤ (e.bounds A).x1 ∧ (e.bounds A).y0 ≤ (e.bounds A).y1 ∧ ∀ P ∈ A, ∀ p : Pt K, wind (ofGrid P) p ≠ 0 →
    ((e.bounds A).x0 : K) ≤ p.1 ∧ p.1 ≤ (e.bounds A).x1 ∧ ((e.bounds A).y0 : K) ≤ p.2 ∧ p.2 ≤ (e.bounds A).y1
  positive : ∀ A, (∀ P ∈ A, Rectilinear P) → Sound K (e.tree false A) ∧
    ∀ p : Pt K, Filled (e.tree false A) p ↔ 0 < total (A.map ofGrid) p
  negative : ∀ A b, (∀ P ∈ A, Rectilinear P) → Around K b A → ∃ c l, e.tree true (A ++ [clockwise b]) = [.mk c l] ∧
    (∀ p : Pt K, wind (ofGrid c) p ≠ 0 ↔ wind (ofGrid (clockwise b)) p ≠ 0) ∧ Nested K (-1) [.mk c l] ∧ Sound K l ∧
    ∀ p : Pt K, Filled [.mk c l] p ↔ total ((A ++ [clockwise b]).map ofGrid) p < 0

/-- `L` are the outlines of the union of the polygons `A` by class `Clipper`, holes in clockwise direction. When the union is done with
negative filling and a clockwise rectangle around the polygons, `Clipper` returns the rectangle and then `L`. An outline that goes as high
as any other is no hole. -/
structure UnionOutlines (K : Type) [Field K] [LinearOrder K] (e : UnionEngine) (A L : List (List IPt)) : Prop where
  flat : ∀ b, Around K b A → ∃ c, e.flat true (A ++ [clockwise b]) = c :: L
  outline : ∀ P ∈ L, Outline P
  union : ∀ p : Pt K, total (L.map ofGrid) p = if 0 < total (A.map ofGrid) p then 1 else 0
  highest : ∀ P ∈ L, (∃ v ∈ P, ∀ Q ∈ L, ∀ w ∈ Q, w.2 ≤ v.2) → 0 < shoelace (ofGrid P : Pgon K)

end

end Gdspy.Spec
