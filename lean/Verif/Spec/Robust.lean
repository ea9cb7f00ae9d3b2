import Verif.Model.Robust
import Verif.Spec.Path
import Verif.Spec.Curve

/-!
# What a RobustPath should be
-/

namespace Gdspy.Spec

variable {K : Type}

/-- One width, offset, end, layer and datatype for each path, and as many sections in each of them. -/
structure RobustAligned (r : Robust K) : Prop where
  widths : r.widths.length = r.n
  offsets : r.offsets.length = r.n
  paths : r.paths.length = r.n
  ends : r.ends.length = r.n
  layers : r.layers.length = r.n
  datatypes : r.datatypes.length = r.n
  sections : ∃ m, ∀ p ∈ r.paths, p.length = m

section

variable [Field K]

/-- From `a` to `b` in proportion to the parameter. -/
def ramp (a b u : K) : K := a + (b - a) * u

/-- The width of path `i` along a new section, where `now` is the width before it: constant, tapered to the given number,
or the given function. None if the list has no entry. -/
def widthLaw (now : K) (i : Nat) : RArg K → Option (K → K)
  | .none => some fun _ => now
  | .num x => some (ramp now x)
  | .fn f => some f
  | .list l => l[i]?.map fun v => match v with
    | .num x => ramp now x
    | .fn f => f

/-- The offset of path `i` along a new section: numbers and functions are increases, the entries of lists are absolute. -/
def offsetLaw (now : K) (i : Nat) : RArg K → Option (K → K)
  | .none => some fun _ => now
  | .num x => some (ramp now (now + x))
  | .fn f => some fun u => now + f u
  | .list l => l[i]?.map fun v => match v with
    | .num x => ramp now x
    | .fn f => f

/-- `g` is `r` with one section added to every path: all follow `curve`, whose direction is `dir`, with the requested
widths and offsets; the widths and offsets at the end of the section become the current ones. The path then is at
the end of the curve. -/
structure Extended (r g : Robust K) (curve : K → Pt K) (dir : K → K → Pt K) (width offset : RArg K) : Prop where
  x : g.x = curve 1
  rows : ∀ i, i < r.n → ∃ p w o wl ol s, r.paths[i]? = some p ∧ r.widths[i]? = some w ∧ r.offsets[i]? = some o ∧
    (if r.gdsiiPath then some fun _ => w else widthLaw w i width) = some wl ∧ offsetLaw o i offset = some ol ∧
    g.paths[i]? = some (p ++ [s]) ∧ g.widths[i]? = some (wl 1) ∧ g.offsets[i]? = some (ol 1) ∧
    (∀ u, s.x u = curve u) ∧ (∀ u h, s.dx u h = dir u h) ∧ (∀ u, s.wid u = wl u) ∧ (∀ u, s.off u = ol u) ∧
    s.err = r.tolerance ^ 2 ∧ s.h = 1 / (2 * (r.maxEvals : K)) ∧ s.maxEvals = r.maxEvals ∧
    ∀ p, s.tr.app p = p
  n : g.n = r.n
  ends : g.ends = r.ends
  layers : g.layers = r.layers
  datatypes : g.datatypes = r.datatypes
  tolerance : g.tolerance = r.tolerance
  maxEvals : g.maxEvals = r.maxEvals

/-- Several sections added one after the other, each with the same requests. -/
inductive ExtendedBy (width offset : RArg K) : Robust K → Robust K → List ((K → Pt K) × (K → K → Pt K)) → Prop
  | done (r : Robust K) : ExtendedBy width offset r r []
  | more {r m g : Robust K} {c : (K → Pt K) × (K → K → Pt K)} {l : List ((K → Pt K) × (K → K → Pt K))} :
      Extended r m c.1 c.2 width offset → ExtendedBy width offset m g l → ExtendedBy width offset r g (c :: l)

/-- The control points of the derivative of a Bezier curve. -/
def slopes (ctrl : List (Pt K)) : List (Pt K) :=
  List.zipWith (fun p q => (((ctrl.length : K) - 1) * (q.1 - p.1), ((ctrl.length : K) - 1) * (q.2 - p.2))) ctrl ctrl.tail

/-- A Bezier curve and its derivative. -/
def bezierSection (ctrl : List (Pt K)) : (K → Pt K) × (K → K → Pt K) :=
  (bezier ctrl, fun u _ => bezier (slopes ctrl) u)

/-- The points of a call, seen from the origin. -/
def placedAt (x : Pt K) (relative : Bool) (p : Pt K) : Pt K := if relative then (x.1 + p.1, x.2 + p.2) else p

/-- The line followed by a section, as drawn. -/
def lineOf (s : Sub K) (u : K) : Pt K := s.tr.app (s.x u)

/-- The sections of every path follow each other without a gap, and the last ends where the path is. -/
structure Unbroken (r : Robust K) : Prop where
  chain : ∀ p ∈ r.paths, p.IsChain fun s s' => lineOf s 1 = lineOf s' 0
  tip : ∀ p ∈ r.paths, ∀ s ∈ p.getLast?, lineOf s 1 = r.x

end

end Gdspy.Spec
