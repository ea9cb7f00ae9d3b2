import Verif.Spec.Double
import Verif.Model.Hier

/-!
Specification: layouts in which all coordinates are integers, counted in database units, all
references are turned by multiples of 90 degrees, and nothing is magnified. `flat` places all
polygons exactly.
-/

namespace Gdspy.Spec

/-- A quarter turn counterclockwise, `q` times. -/
def quarterTurn : ℕ → ℤ × ℤ → ℤ × ℤ
  | 0, p => p
  | q + 1, p => (-(quarterTurn q p).2, (quarterTurn q p).1)

structure GridRef where
  origin : Option (ℤ × ℤ)
  quarters : Option ℕ
  xrefl : Bool
  array : Option (ℕ × ℕ × (ℤ × ℤ))

/-- Where a vertex goes: moved to its place in the array, reflected, turned, moved to the origin. -/
def GridRef.place (i : GridRef) (s p : ℤ × ℤ) : ℤ × ℤ :=
  let p := (p.1 + s.1, p.2 + s.2)
  let p := if i.xrefl then (p.1, -p.2) else p
  let p := quarterTurn (i.quarters.getD 0) p
  let o := i.origin.getD (0, 0)
  (p.1 + o.1, p.2 + o.2)

/-- The places in the array. -/
def GridRef.copies (i : GridRef) : List (ℤ × ℤ) :=
  match i.array with
  | none => [(0, 0)]
  | some (columns, rows, sp) =>
    (List.range columns).flatMap fun (a : ℕ) => (List.range rows).map fun (b : ℕ) => (sp.1 * (a : ℤ), sp.2 * (b : ℤ))

mutual
/-- A cell: polygons with layer and datatype, and references. -/
inductive GridCell : Type
  | mk (polygons : List ((Int × Int) × List (ℤ × ℤ))) (refs : GridRefs)
inductive GridRefs : Type
  | nil
  | cons (r : GridRef) (c : GridCell) (rest : GridRefs)
end

mutual
def GridCell.flat : GridCell → List ((Int × Int) × List (ℤ × ℤ))
  | .mk polygons refs => polygons ++ refs.flat
def GridRefs.flat : GridRefs → List ((Int × Int) × List (ℤ × ℤ))
  | .nil => []
  | .cons i c rest =>
    (i.copies.flatMap fun s => c.flat.map fun t => (t.1, t.2.map (i.place s))) ++ rest.flat
end

mutual
/-- The number of levels of references. -/
def GridCell.depth : GridCell → ℕ
  | .mk _ refs => refs.depth
def GridRefs.depth : GridRefs → ℕ
  | .nil => 0
  | .cons _ c rest => max (c.depth + 1) rest.depth
end

def Bounded (p : ℤ × ℤ) : Prop := |p.1| ≤ 2 ^ 31 ∧ |p.2| ≤ 2 ^ 31

mutual
/-- The origins, and the polygons of each cell, fit in a file. -/
def GridCell.Fits : GridCell → Prop
  | .mk polygons refs =>
    (∀ t ∈ GridCell.flat (.mk polygons refs), ∀ p ∈ t.2, Bounded p) ∧ refs.Fits
def GridRefs.Fits : GridRefs → Prop
  | .nil => True
  | .cons i c rest => (∀ o, i.origin = some o → Bounded o) ∧ c.Fits ∧ rest.Fits
end

/-! ### Layouts in doubles that stand for such a layout -/

/-- `x` is `n` database units of size `g`, up to 8 rounding errors. -/
def GridNear (g x : ℚ) (n : ℤ) : Prop := |x - n * g| ≤ |n * g| / 2 ^ 50

def GridNear2 (g : ℚ) (p : ℚ × ℚ) (n : ℤ × ℤ) : Prop := GridNear g p.1 n.1 ∧ GridNear g p.2 n.2

/-- Optional values: both missing, or both present and related. -/
def Both {α β : Type} (R : α → β → Prop) : Option α → Option β → Prop
  | none, none => True
  | some a, some b => R a b
  | _, _ => False

/-- The angle `a` is `q` quarter turns: its cosine and sine are computed as 0, 1 or -1 with an error
of at most 2^-50 (numpy: `cos(pi/2)` is 6e-17). -/
def Quarter (t : Trig ℚ) (a : ℚ) (q : ℕ) : Prop :=
  |t.cos a - (quarterTurn q (1, 0)).1| ≤ 1 / 2 ^ 50 ∧ |t.sin a - (quarterTurn q (1, 0)).2| ≤ 1 / 2 ^ 50

structure GridRef.Is (g : ℚ) (t : Trig ℚ) (i : GridRef) (r : RefData ℚ) : Prop where
  origin : Both (GridNear2 g) r.origin i.origin
  rotation : Both (Quarter t) r.rotation i.quarters
  magnification : r.magnification = none
  xrefl : r.xrefl = some true ↔ i.xrefl = true
  array : Both (fun a b => a.1 = b.1 ∧ a.2.1 = b.2.1 ∧ GridNear2 g a.2.2 b.2.2) r.array i.array

variable {P : Type}

mutual
/-- The cell has no paths, and its polygons and references are those of the layout. -/
def GridCell.Is (g : ℚ) (t : Trig ℚ) : GridCell → HCell ℚ P → Prop
  | .mk polygons refs, .mk _ polys paths _ hrefs =>
    paths = [] ∧ (∀ s ∈ polys, s.layers.length = s.polygons.length ∧ s.datatypes.length = s.polygons.length) ∧
    List.Forall₂ (fun a b => a.1 = b.1 ∧ List.Forall₂ (GridNear2 g) a.2 b.2) (polys.flatMap PolySet.tagged) polygons ∧
    refs.Is g t hrefs
/-- References to names are ignored. -/
def GridRefs.Is (g : ℚ) (t : Trig ℚ) : GridRefs → HRefs ℚ P → Prop
  | refs, .name _ _ rest => refs.Is g t rest
  | .nil, .nil => True
  | .cons i c rest, .cell r c' rest' => i.Is g t r ∧ c.Is g t c' ∧ rest.Is g t rest'
  | .nil, .cell _ _ _ => False
  | .cons _ _ _, .nil => False
end

end Gdspy.Spec
