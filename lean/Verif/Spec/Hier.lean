import Verif.Model.Hier

/-!
Specification vocabulary for cell hierarchies: affine maps, the flat list of all polygons, and
conditions on hierarchies.
-/

namespace Gdspy.Spec

variable {K P : Type}

/-- The affine map `(x, y) ↦ (a x + b y + e, c x + d y + f)`. -/
structure Aff (K : Type) where
  a : K
  b : K
  c : K
  d : K
  e : K
  f : K

section Affine

variable [Field K]

def Aff.app (A : Aff K) (p : Pt K) : Pt K := (A.a * p.1 + A.b * p.2 + A.e, A.c * p.1 + A.d * p.2 + A.f)

/-- First `B`, then `A`. -/
def Aff.comp (A B : Aff K) : Aff K :=
  ⟨A.a * B.a + A.b * B.c, A.a * B.b + A.b * B.d, A.c * B.a + A.d * B.c, A.c * B.b + A.d * B.d,
    A.a * B.e + A.b * B.f + A.e, A.c * B.e + A.d * B.f + A.f⟩

def Aff.id : Aff K := ⟨1, 0, 0, 1, 0, 0⟩

/-- Reflection across the x axis. -/
def Aff.reflect : Aff K := ⟨1, 0, 0, -1, 0, 0⟩

/-- Rotation around the origin, with cosine and sine given. -/
def Aff.rotate (c s : K) : Aff K := ⟨c, -s, s, c, 0, 0⟩

/-- Scaling from the origin. -/
def Aff.scale (m : K) : Aff K := ⟨m, 0, 0, m, 0, 0⟩

/-- Translation. -/
def Aff.shift (v : Pt K) : Aff K := ⟨1, 0, 0, 1, v.1, v.2⟩

/-- The map, or the identity when the attribute is None. -/
def Aff.opt {α : Type} (o : Option α) (f : α → Aff K) : Aff K := (o.map f).getD .id

/-- The last steps of every reference: rotate, then move to the origin. -/
def Aff.place (t : Trig K) (r : RefData K) : Aff K :=
  (Aff.opt r.origin .shift).comp (Aff.opt r.rotation fun a => .rotate (t.cos a) (t.sin a))

def Aff.mirror (r : RefData K) : Aff K := if r.xrefl = some true then .reflect else .id

/-- The placements of the referenced cell: one for a reference, one per column and row for an array
(whose spacing is neither magnified nor, before the reflection, rotated). -/
def placements (t : Trig K) (r : RefData K) : List (Aff K) :=
  match r.array with
  | none => [((Aff.place t r).comp (Aff.mirror r)).comp (Aff.opt r.magnification .scale)]
  | some (cols, rows, s) =>
    (List.range cols).flatMap fun (i : Nat) => (List.range rows).map fun (j : Nat) =>
      ((Aff.place t r).comp (Aff.mirror r)).comp
        ((Aff.shift (s.1 * (i : K), s.2 * (j : K))).comp (Aff.opt r.magnification .scale))

/-- The reference that stands for column `i` and row `j` of an array with spacing `s`: placed at the
lattice point, reflected, rotated and moved to the origin of the array. -/
def gridRef (t : Trig K) (r : RefData K) (s : Pt K) (i j : Nat) : RefData K :=
  { r with
    array := none
    origin := some (((Aff.place t r).comp (Aff.mirror r)).app (s.1 * (i : K), s.2 * (j : K))) }

end Affine

section Flat

variable [Field K] [LinearOrder K]

mutual
/-- All polygons of the hierarchy with their layer and datatype, mapped to the coordinates of the
cell. Below the limit of depth a cell is represented by the rectangle of its bounding box, under
its name. -/
def flat (ops : PathOps K P) (t : Trig K) (depth : Option Int) : HCell K P → List (SpecKey × Pgon K)
  | .mk name polys paths labels refs =>
    if depth.any (fun d => d < 0) then
      (((HCell.mk name polys paths labels refs).bbox ops t).map fun b =>
        (SpecKey.cell name, boxRect b)).toList
    else
      (polys.flatMap fun ps => (List.range ps.polygons.length).map fun i =>
        (SpecKey.ld (ps.layers.getD i 0) (ps.datatypes.getD i 0), ps.polygons.getD i []))
      ++ (paths.flatMap fun p => (ops.elems p).flatMap fun e =>
        e.2.map fun pts => (SpecKey.ld e.1.1 e.1.2, pts))
      ++ flatRefs ops t (depth.map fun d => d - 1) refs

def flatRefs (ops : PathOps K P) (t : Trig K) (depth : Option Int) : HRefs K P → List (SpecKey × Pgon K)
  | .nil => []
  | .cell r c rest =>
    ((placements t r).flatMap fun A => (flat ops t depth c).map fun q => (q.1, q.2.map A.app))
      ++ flatRefs ops t depth rest
  | .name _ _ rest => flatRefs ops t depth rest
end

/-- A cell that has only the rectangle of the bounding box of `c`. -/
def leaf (ops : PathOps K P) (t : Trig K) (c : HCell K P) : HCell K P :=
  .mk c.name (((c.bbox ops t).map fun b => (⟨[boxRect b], [0], [0]⟩ : PolySet K)).toList) [] [] .nil

mutual
/-- The hierarchy in which cells more than `d` references below are replaced by the rectangles of
their bounding boxes. -/
def cut (ops : PathOps K P) (t : Trig K) (d : Nat) : HCell K P → HCell K P
  | .mk name polys paths labels refs => .mk name polys paths labels (cutRefs ops t d refs)

def cutRefs (ops : PathOps K P) (t : Trig K) (d : Nat) : HRefs K P → HRefs K P
  | .nil => .nil
  | .cell r c rest =>
    .cell r (match d with
      | 0 => leaf ops t c
      | d + 1 => cut ops t d c) (cutRefs ops t d rest)
  | .name r s rest => .name r s (cutRefs ops t d rest)
end

end Flat

mutual
/-- A condition on all polygon sets and all references of the hierarchy. -/
def AllCell (p : PolySet K → Prop) (r : RefData K → Prop) : HCell K P → Prop
  | .mk _ polys _ _ refs => (∀ ps ∈ polys, p ps) ∧ AllRefs p r refs

def AllRefs (p : PolySet K → Prop) (r : RefData K → Prop) : HRefs K P → Prop
  | .nil => True
  | .cell d c rest => r d ∧ AllCell p r c ∧ AllRefs p r rest
  | .name d _ rest => r d ∧ AllRefs p r rest
end

/-- Every polygon has a layer and a datatype. -/
def Aligned (ps : PolySet K) : Prop :=
  ps.layers.length = ps.polygons.length ∧ ps.datatypes.length = ps.polygons.length

/-- Not an array with magnification 0. -/
def NoZeroMag [Zero K] (r : RefData K) : Prop := r.array = none ∨ r.magnification ≠ some 0

/-- `b` is the smallest box around the points: it contains all of them, and each of its four sides
touches one. -/
def IsBBox [LE K] (pts : List (Pt K)) (b : Pt K × Pt K) : Prop :=
  (∀ p ∈ pts, b.1.1 ≤ p.1 ∧ b.1.2 ≤ p.2 ∧ p.1 ≤ b.2.1 ∧ p.2 ≤ b.2.2) ∧
  (∃ p ∈ pts, p.1 = b.1.1) ∧ (∃ p ∈ pts, p.2 = b.1.2) ∧
  (∃ p ∈ pts, p.1 = b.2.1) ∧ (∃ p ∈ pts, p.2 = b.2.2)

mutual
/-- Number of levels of references to cells. -/
def height : HCell K P → Nat
  | .mk _ _ _ _ refs => heightRefs refs

def heightRefs : HRefs K P → Nat
  | .nil => 0
  | .cell _ c rest => max (height c + 1) (heightRefs rest)
  | .name _ _ rest => heightRefs rest
end

/-- The laws of cosine and sine. -/
structure Trig.Laws [Field K] (t : Trig K) : Prop where
  pyth : ∀ a, t.cos a ^ 2 + t.sin a ^ 2 = 1
  zero : t.cos 0 = 1 ∧ t.sin 0 = 0
  neg : ∀ a, t.cos (-a) = t.cos a ∧ t.sin (-a) = - t.sin a
  add : ∀ a b, t.cos (a + b) = t.cos a * t.cos b - t.sin a * t.sin b ∧
    t.sin (a + b) = t.sin a * t.cos b + t.cos a * t.sin b
  card : ∀ a, t.cardinal a = true → t.cos a = 0 ∨ t.sin a = 0

end Gdspy.Spec
