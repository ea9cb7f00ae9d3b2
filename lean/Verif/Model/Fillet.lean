import Verif.Model.Path
import Verif.Model.PolygonSet

/-!
# Rounded corners

Model of `PolygonSet.fillet` (polygon.py:383-509).

Coordinates are in a field, the numpy functions are given by `Num`, and the tangent is the quotient of sine and cosine.
Where a boundary turns back on itself (`ct` is 0, which in floating point numbers it never is exactly) the result is
`unmodelled`. Warnings are not modelled. `points_per_2pi` is a number of the field.
-/

namespace Gdspy

variable {K : Type}

/-- An entry of a list of radii: a number for a polygon (or a vertex), or a list with a number for each vertex. -/
inductive RadItem (K : Type) where
  | one (r : K)
  | many (rs : List K)
  deriving DecidableEq

/-- The argument `radius`. -/
inductive FilletArg (K : Type) where
  | one (r : K)
  | list (rs : List (RadItem K))
  deriving DecidableEq

/-- polygon.py:423-434: one entry for each polygon. A list of the wrong length is to raise ValueError, but the
text of the message has `len(p.shape[0])`, which raises TypeError. -/
def filletPerPolygon : List (RadItem K) → List (Pgon K) → Py (List (List K))
  | .one r :: rs, p :: ps => do
    let l ← filletPerPolygon rs ps
    .ok (List.replicate p.length r :: l)
  | .many r :: rs, p :: ps =>
    if r.length ≠ p.length then .error .typeError
    else do
      let l ← filletPerPolygon rs ps
      .ok (r :: l)
  | _, _ => .ok []

/-- polygon.py:444-448: one entry for each vertex. -/
def filletSlices (radius : List K) : List (Pgon K) → List (List K)
  | [] => []
  | p :: ps => radius.take p.length :: filletSlices (radius.drop p.length) ps

/-- The numbers of a list that has no lists in it; lists are not modelled here. -/
def radNumbers : List (RadItem K) → Py (List K)
  | [] => .ok []
  | .one r :: l => do
    let rs ← radNumbers l
    .ok (r :: rs)
  | .many _ :: _ => .error .unmodelled

/-- polygon.py:418-448: the radius of each vertex of each polygon. -/
def filletRadii (radius : FilletArg K) (polygons : List (Pgon K)) : Py (List (List K)) :=
  match radius with
  | .one r => .ok (polygons.map fun p => List.replicate p.length r)
  | .list rs =>
    if rs.length = polygons.length then filletPerPolygon rs polygons
    else if rs.length ≠ (polygons.map List.length).sum then .error .valueError
    else do
      let l ← radNumbers rs
      .ok (filletSlices l polygons)

section Corner

variable [Field K] [LinearOrder K] [FloorRing K]

/-- polygon.py:451-452: the length of the edge between two points. -/
def edgeLen (t : Num K) (p q : Pt K) : K := t.sqrt ((q.1 - p.1) ^ 2 + (q.2 - p.2) ^ 2)

/-- polygon.py:451-456: the vertices, with their radii, that differ from the one before; the first argument is the
vertex before the first one. -/
def filletDistinct (t : Num K) : Pt K → List (Pt K × K) → List (Pt K × K)
  | _, [] => []
  | q, (p, r) :: l => if edgeLen t q p ≠ 0 then (p, r) :: filletDistinct t p l else filletDistinct t p l

/-- polygon.py:484-487: the angles of the arc. -/
def filletAngles (t : Num K) (pp a0 a1 : K) : List K :=
  linspace a0 a1 (max (truncInt ((⌈|a1 - a0| / (2 * (2 * t.halfpi)) * pp⌉ : K) + 1 / 2)) 2).toNat

/-- polygon.py:461-502: the points in the place of the vertex `v` between the vertices `p` and `q`. -/
def filletCorner (t : Num K) (pp : K) (p v q : Pt K) (radius : K) : Py (List (Pt K)) :=
  let len0 := edgeLen t p v
  let len1 := edgeLen t v q
  let u : Pt K := ((v.1 - p.1) / len0, (v.2 - p.2) / len0)
  let w : Pt K := ((q.1 - v.1) / len1, (q.2 - v.2) / len1)
  let norm := edgeLen t u w
  let d : Pt K := if norm ≠ 0 then ((w.1 - u.1) / norm, (w.2 - u.2) / norm) else (w.1 - u.1, w.2 - u.2)
  match t.acos (w.1 * u.1 + w.2 * u.2) with
  | none => .ok [v]
  | some theta =>
    let ct := t.cos (theta / 2)
    let tt := t.sin (theta / 2) / ct
    if theta > 1 / 1000000 then
      if ct = 0 then .error .unmodelled
      else
        let a0 := t.atan2 (-u.2 * tt - d.2 / ct) (-u.1 * tt - d.1 / ct)
        let a1 := t.atan2 (w.2 * tt - d.2 / ct) (w.1 * tt - d.1 / ct)
        let pi := 2 * t.halfpi
        let a1 := if a1 - a0 > pi then a1 - 2 * pi else if a1 - a0 < -pi then a1 + 2 * pi else a1
        let ll := radius * tt
        let (r, ll) := if ll > 49 / 100 * len0 then (49 / 100 * len0 / tt, 49 / 100 * len0) else (radius, ll)
        let r := if ll > 49 / 100 * len1 then 49 / 100 * len1 / tt else r
        .ok ((filletAngles t pp a0 a1).map fun a =>
          (r * d.1 / ct + v.1 + r * t.cos a, r * d.2 / ct + v.2 + r * t.sin a))
    else .ok [v]

/-- The vertices of a polygon with radii after those that repeat the one before are gone. -/
def filletVertices (t : Num K) (p : Pgon K) (rs : List K) : List (Pt K × K) :=
  let l := p.zip rs
  match l.getLast? with
  | none => []
  | some q => filletDistinct t q.1 l

/-- polygon.py:450-503: one polygon. The loop begins with the last vertex. -/
def filletPolygon (t : Num K) (pp : K) (p : Pgon K) (rs : List K) : Py (Pgon K) := do
  let l := filletVertices t p rs
  let n := l.length
  let at_ (i : Nat) : Pt K × K := l.getD (i % n) ((0, 0), 0)
  let pieces ← (List.range n).mapM fun i =>
    filletCorner t pp (at_ (i + n + n - 2)).1 (at_ (i + n - 1)).1 (at_ i).1 (at_ (i + n - 1)).2
  .ok pieces.flatten

/-- polygon.py:383-509 `PolygonSet.fillet`. -/
def PolySet.fillet (t : Num K) (chop : Slicer K) (fuel : Nat) (radius : FilletArg K) (pp : K) (maxPoints : Nat)
    (ps : PolySet K) : Py (Option (PolySet K)) := do
  let radii ← filletRadii radius ps.polygons
  let polygons ← (ps.polygons.zip radii).mapM fun x => filletPolygon t pp x.1 x.2
  let ps := { ps with polygons := polygons }
  if polygons.any fun p => decide (p.length > maxPoints) then ps.fracture chop fuel maxPoints
  else .ok (some ps)

end Corner

end Gdspy
