import Verif.Spec.Band

/-!
# What the outline of a path with corners should be

A path follows a line of points; its sides are straight between the corners, and the corners and ends have the shapes
that were asked for.
-/

namespace Gdspy.Spec

variable {K : Type}

section

variable [Field K] [LinearOrder K]

/-- A straight side, from its first to its second point. -/
abbrev Side (K : Type) := Pt K × Pt K

/-- The middle of two points. -/
def middle (p q : Pt K) : Pt K := ((p.1 + q.1) / 2, (p.2 + q.2) / 2)

/-- The vector of a side. -/
def Side.vec (a : Side K) : Pt K := (a.2.1 - a.1.1, a.2.2 - a.1.2)

/-- Positive if `b` points to the left of `a`, negative if it points to the right. -/
def Side.turn (a b : Side K) : K := a.vec.1 * b.vec.2 - a.vec.2 * b.vec.1

/-- The sine of the angle between the sides is less than one millionth. -/
def Side.Straight (a b : Side K) : Prop := a.turn b ^ 2 < 1 / 10 ^ 12 * dist2 a.1 a.2 * dist2 b.1 b.2

/-- The common point of the lines of two sides; for sides without a turn, the middle of the end of one and the beginning
of the other. -/
def Side.Meet (a b : Side K) (p : Pt K) : Prop :=
  (a.Straight b → p = middle a.2 b.1) ∧ (¬ a.Straight b → OnLine a.1 a.2 p ∧ OnLine b.1 b.2 p)

/-- The point `l` ahead of `p` in the direction of the side. -/
def Side.ahead (t : Num K) (a : Side K) (p : Pt K) (l : K) : Pt K :=
  (p.1 + l * (a.vec.1 / t.sqrt (dist2 a.1 a.2)), p.2 + l * (a.vec.2 / t.sqrt (dist2 a.1 a.2)))

/-- The side that goes from `s0` to the left of `p` to `s1` to the left of `q`. -/
def beside (t : Num K) (p q : Pt K) (s0 s1 : K) : Side K :=
  let n := toLeft t (q.1 - p.1, q.2 - p.2)
  ((p.1 + s0 * n.1, p.2 + s0 * n.2), (q.1 + s1 * n.1, q.2 + s1 * n.2))

/-- The side at distances `ds` to the left of the line from point `i` of `pts` to the next. -/
def sideAt (t : Num K) (pts : List (Pt K)) (ds : List K) (i : Nat) : Side K :=
  beside t (pts.getD i (0, 0)) (pts.getD (i + 1) (0, 0)) (ds.getD i 0) (ds.getD (i + 1) 0)

/-- `cs` is the line at distances `offs` to the left of the line `pts`. -/
structure CentreLine (t : Num K) (pts : List (Pt K)) (offs : List K) (cs : List (Pt K)) : Prop where
  length : cs.length = pts.length
  first : cs.getD 0 (0, 0) = (sideAt t pts offs 0).1
  last : cs.getD (pts.length - 1) (0, 0) = (sideAt t pts offs (pts.length - 2)).2
  inner : ∀ i, i + 2 < pts.length → (sideAt t pts offs i).Meet (sideAt t pts offs (i + 1)) (cs.getD (i + 1) (0, 0))

/-- The lines of the sides cross not after the end of `a` and not before the beginning of `b` (or the sides do not
turn). -/
def Side.Inner (a b : Side K) : Prop :=
  a.Straight b ∨ ∃ x y : K, x ≤ 0 ∧ 0 ≤ y ∧
    (a.2.1 + x * a.vec.1, a.2.2 + x * a.vec.2) = (b.1.1 + y * b.vec.1, b.1.2 + y * b.vec.2)

/-- Seen from `c`, `x` is between `p` and `q`. -/
def Between (c p q x : Pt K) : Prop :=
  ∃ α β : K, 0 ≤ α ∧ 0 ≤ β ∧ x.1 - c.1 = α * (p.1 - c.1) + β * (q.1 - c.1) ∧
    x.2 - c.2 = α * (p.2 - c.2) + β * (q.2 - c.2)

/-- Points on an arc about `c` from `p` to `q`, in this order. -/
structure ArcPoints (c p q : Pt K) (g : List (Pt K)) : Prop where
  first : g.head? = some p
  last : g.getLast? = some q
  circle : ∀ x ∈ g, dist2 c x = dist2 c p
  order : g.Pairwise fun x y => Between c x q y

/-- 1 for a turn to the left, -1 for a turn to the right. -/
def turnSign (a b : Side K) : K := if 0 < a.turn b then 1 else -1

/-- The points `g` of one side of a path at the corner `c` with width `w`, between the sides `a` and `b`. `rad` is the radius
of circular bends. Nothing is said about corners given as functions and smooth ones. -/
def CornerOk (t : Num K) (rad : Option K) (corner : FlexCorner K) (a b : Side K) (c : Pt K) (w : K)
    (g : List (Pt K)) : Prop :=
  match corner with
  | .miter => ∃ p, g = [p] ∧ a.Meet b p
  | .natural => (a.Straight b → g = [middle a.2 b.1]) ∧
      (¬ a.Straight b → ∃ x y p, p = a.ahead t a.2 x ∧ p = b.ahead t b.1 (-y) ∧
        g = if x ≤ w / 2 ∧ y ≤ w / 2 then [p] else [a.ahead t a.2 (min x (w / 2)), b.ahead t b.1 (-(min y (w / 2)))])
  | .bevel => (a.Inner b → ∃ p, g = [p] ∧ a.Meet b p) ∧ (¬ a.Inner b → g = [a.2, b.1])
  | .round => (a.Inner b → ∃ p, g = [p] ∧ a.Meet b p) ∧ (¬ a.Inner b → 4 ≤ g.length ∧ ArcPoints c a.2 b.1 g)
  | .bend => (a.turn b = 0 → g = [middle a.2 b.1]) ∧
      (a.turn b ≠ 0 → ∃ br o p q, rad = some br ∧
        -- `o` is `br` aside of the lines through `c` along `a` and `b`, on the side of the turn
        (∀ v : Side K, v = a ∨ v = b →
          ∃ l, o = v.ahead t (c.1 + (turnSign a b * br) * (toLeft t v.vec).1, c.2 + (turnSign a b * br) * (toLeft t v.vec).2) l) ∧
        -- the arc goes from the line of `a` to the line of `b`, without a kink
        OnLine a.1 a.2 p ∧ OnLine b.1 b.2 q ∧
        (p.1 - o.1) * a.vec.1 + (p.2 - o.2) * a.vec.2 = 0 ∧ (q.1 - o.1) * b.vec.1 + (q.2 - o.2) * b.vec.2 = 0 ∧
        2 ≤ g.length ∧ ArcPoints o p q g)
  | .smooth | .fn _ => True

/-- The points `g` of an end of width `w` at `c`, from its right corner `p` to its left corner `q`; `out` is the unit vector
out of the path, `d` the extension given for this end. Nothing is said about ends given as functions and smooth ones. -/
def EndOk (fin : FlexEnd K) (c p q out : Pt K) (w d : K) (g : List (Pt K)) : Prop :=
  let ext (d : K) : List (Pt K) :=
    [p, (p.1 + d * out.1, p.2 + d * out.2), (q.1 + d * out.1, q.2 + d * out.2), q]
  match fin with
  | .flush => g = [p, q]
  | .extended => g = ext (w / 2)
  | .pair _ _ => g = ext d
  | .round => 5 ≤ g.length ∧ g.head? = some p ∧ g.getLast? = some q ∧
      (∀ x ∈ g, dist2 c x = (w / 2) ^ 2 ∧ 0 ≤ (x.1 - c.1) * out.1 + (x.2 - c.2) * out.2) ∧
      g.Pairwise fun x y => 0 ≤ (x.1 - y.1) * (p.1 - c.1) + (x.2 - y.2) * (p.2 - c.2)
  | .smooth | .fn _ => True

/-- The corners of the side at `s` half widths to the left of the line `cs` (`s` is 1 or -1). -/
def CornersOk (t : Num K) (rad : Option K) (corner : FlexCorner K) (s : K) (cs : List (Pt K)) (ws : List K)
    (gs : List (List (Pt K))) : Prop :=
  gs.length = cs.length - 2 ∧ ∀ i g, gs[i]? = some g →
    CornerOk t rad corner (sideAt t cs (ws.map fun w => s * (w / 2)) i) (sideAt t cs (ws.map fun w => s * (w / 2)) (i + 1))
      (cs.getD (i + 1) (0, 0)) (ws.getD (i + 1) 0) g

/-- The extension given for the beginning and for the end. -/
def extensions : FlexEnd K → K × K
  | .pair a b => (a, b)
  | _ => (0, 0)

/-- `P` is the outline of a path of widths `ws` along `cs`: along its right side, around the end, back along its left
side and around the beginning. -/
def OutlineOk (t : Num K) (rad : Option K) (corner : FlexCorner K) (fin : FlexEnd K) (cs : List (Pt K)) (ws : List K)
    (P : Pgon K) : Prop :=
  let right := sideAt t cs (ws.map fun w => -1 * (w / 2))
  let left := sideAt t cs (ws.map fun w => 1 * (w / 2))
  let n := cs.length - 1
  ∃ (begins ends : List (Pt K)) (rs ls : List (List (Pt K))),
    P = begins.reverse ++ rs.flatten ++ ends ++ ls.flatten.reverse ∧
    CornersOk t rad corner (-1) cs ws rs ∧ CornersOk t rad corner 1 cs ws ls ∧
    EndOk fin (cs.getD 0 (0, 0)) (right 0).1 (left 0).1
      (Side.ahead t (cs.getD 1 (0, 0), cs.getD 0 (0, 0)) (0, 0) 1) (ws.getD 0 0) (extensions fin).1 begins ∧
    EndOk fin (cs.getD n (0, 0)) (right (n - 1)).2 (left (n - 1)).2
      (Side.ahead t (cs.getD (n - 1) (0, 0), cs.getD n (0, 0)) (0, 0) 1) (ws.getD n 0) (extensions fin).2 ends

/-- `P` is the outline of a path of widths `w0` and `w1` from `a` to `b`: around the beginning, along its left side, around
the end and back along its right side. If the widths are equal and the ends are extended, the corners between the sides and
the ends may be left out: they are on straight lines. -/
def TwoOutlineOk (t : Num K) (fin : FlexEnd K) (a b : Pt K) (w0 w1 : K) (P : Pgon K) : Prop :=
  let right := beside t a b (-1 * (w0 / 2)) (-1 * (w1 / 2))
  let left := beside t a b (1 * (w0 / 2)) (1 * (w1 / 2))
  ∃ begins ends : List (Pt K),
    EndOk fin a right.1 left.1 (Side.ahead t (b, a) (0, 0) 1) w0 (extensions fin).1 begins ∧
    EndOk fin b right.2 left.2 (Side.ahead t (a, b) (0, 0) 1) w1 (extensions fin).2 ends ∧
    (w0 = w1 ∧ (fin = .extended ∨ ∃ x y, fin = .pair x y) →
      ∃ b' e', begins = right.1 :: b' ++ [left.1] ∧ ends = right.2 :: e' ++ [left.2] ∧ P = b' ++ e'.reverse) ∧
    (¬ (w0 = w1 ∧ (fin = .extended ∨ ∃ x y, fin = .pair x y)) → P = begins ++ ends.reverse)

/-- The length of a line of points. -/
def lineLength (t : Num K) : List (Pt K) → K
  | p :: q :: r => t.sqrt (dist2 p q) + lineLength t (q :: r)
  | _ => 0

/-- How far the two ends of a path of width `w` go beyond its line. -/
def reach (fin : FlexEnd K) (w : K) : K × K :=
  match fin with
  | .extended => (w / 2, w / 2)
  | .pair a b => (a, b)
  | _ => (0, 0)

/-- The line from `p` over `c` to `q` goes straight on or turns by an angle whose sine is at least one millionth. -/
def ClearTurn (p c q : Pt K) : Prop :=
  let turn := (c.1 - p.1) * (q.2 - c.2) - (c.2 - p.2) * (q.1 - c.1)
  1 / 10 ^ 12 * dist2 p c * dist2 c q ≤ turn ^ 2 ∨
    (turn = 0 ∧ 0 < (c.1 - p.1) * (q.1 - c.1) + (c.2 - p.2) * (q.2 - c.2))

end

end Gdspy.Spec
