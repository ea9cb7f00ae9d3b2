import Verif.Model.PolygonSet

/-!
Specification vocabulary for `fracture`.
-/

namespace Gdspy.Spec

variable {K : Type}

/-- `q` comes from `p` by slicing any number of times. -/
inductive PieceOf (chop : Slicer K) : Pgon K → Pgon K → Prop
  | self (p) : PieceOf chop p p
  | cut {p r q : Pgon K} {cuts axis slabs slab} : chop p cuts axis = .ok slabs → slab ∈ slabs → r ∈ slab →
      PieceOf chop r q → PieceOf chop p q

/-- The polygons of the set with their layer and datatype. -/
def tags (ps : PolySet K) : List (Pgon K × Int × Int) := ps.polygons.zip (ps.layers.zip ps.datatypes)

/-- The polygons of the set with the given layer and datatype. -/
def withTag (ps : PolySet K) (l d : Int) : List (Pgon K) :=
  ((tags ps).filter fun q => q.2 = (l, d)).map Prod.fst

end Gdspy.Spec
