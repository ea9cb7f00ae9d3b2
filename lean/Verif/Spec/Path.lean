import Verif.Model.Path
import Verif.Spec.Hier

/-!
# Specification for paths
-/

namespace Gdspy.Spec

variable {K : Type}

/-- The entry `i` of a layer argument, used cyclically. -/
def pick : LayerArg → Nat → Int
  | .one l, _ => l
  | .list l, i => l.getD (i % l.length) 0

/-- `q` is `p` with further polygons, in rounds of one polygon per parallel path; the polygons of
path `i` have the `i`-th layer and datatype of the arguments, used cyclically. -/
def Extends (layer datatype : LayerArg) (p q : PPath K) : Prop :=
  q.n = p.n ∧ ∃ (rounds : List (List (Pgon K))), (∀ r ∈ rounds, r.length = p.n) ∧
    q.polygons = p.polygons ++ rounds.flatten ∧
    q.layers = p.layers ++ (rounds.map fun _ => (List.range p.n).map (pick layer)).flatten ∧
    q.datatypes = p.datatypes ++ (rounds.map fun _ => (List.range p.n).map (pick datatype)).flatten

/-- As many layers and datatypes as polygons. -/
def PathAligned (p : PPath K) : Prop :=
  p.layers.length = p.polygons.length ∧ p.datatypes.length = p.polygons.length

/-! ## A turtle: the end point of a path -/

/-- Laws of the numpy functions used to follow the end point. -/
structure Num.Laws [Field K] [LinearOrder K] (t : Num K) : Prop where
  trig : Trig.Laws t.toTrig
  pos : 0 < t.halfpi
  cosHalf : t.cos t.halfpi = 0
  sinHalf : t.sin t.halfpi = 1

/-- A position and a heading (a unit vector). -/
structure Turtle (K : Type) where
  pos : Pt K
  head : Pt K

section Turtle

variable [Field K]

/-- Move `l` ahead and `o` to the right. -/
def Turtle.forward (l o : K) (s : Turtle K) : Turtle K :=
  { s with pos := (s.pos.1 + l * s.head.1 + o * s.head.2, s.pos.2 + l * s.head.2 - o * s.head.1) }

/-- Face another direction. -/
def Turtle.face (v : Pt K) (s : Turtle K) : Turtle K := { s with head := v }

/-- The vector turned by the angle with cosine `c` and sine `s`. -/
def turnVec (c s : K) (v : Pt K) : Pt K := (c * v.1 - s * v.2, s * v.1 + c * v.2)

/-- Follow a circle around `centre`, by the angle with cosine `c` and sine `s`. -/
def Turtle.around (c s : K) (centre : Pt K) (m : Turtle K) : Turtle K :=
  { pos := (centre.1 + (turnVec c s (m.pos.1 - centre.1, m.pos.2 - centre.2)).1,
      centre.2 + (turnVec c s (m.pos.1 - centre.1, m.pos.2 - centre.2)).2)
    head := turnVec c s m.head }

/-- Turn left with radius `r`: the centre is `r` to the left. -/
def Turtle.left (t : Num K) (r a : K) (m : Turtle K) : Turtle K :=
  m.around (t.cos a) (t.sin a) (m.pos.1 - r * m.head.2, m.pos.2 + r * m.head.1)

/-- Turn right with radius `r`: the centre is `r` to the right. -/
def Turtle.right (t : Num K) (r a : K) (m : Turtle K) : Turtle K :=
  m.around (t.cos a) (-t.sin a) (m.pos.1 + r * m.head.2, m.pos.2 - r * m.head.1)

/-- The turtle of a path. -/
def turtleOf (t : Num K) (p : PPath K) : Turtle K := ⟨(p.x, p.y), p.direction.vec t⟩

end Turtle

/-- What a turn means: `l`, `r` are quarter turns, `ll`, `rr` half turns, positive angles are to the
left, negative ones to the right. -/
def Turtle.turn [Field K] [LinearOrder K] (t : Num K) (r : K) (m : Turtle K) : TurnArg K → Turtle K
  | .l => m.left t r t.halfpi
  | .ll => m.left t r (2 * t.halfpi)
  | .r => m.right t r t.halfpi
  | .rr => m.right t r (2 * t.halfpi)
  | .num a => if 0 < a then m.left t r a else m.right t r (-a)

end Gdspy.Spec
