import Verif.Spec.Hier

/-!
Specification of the contents of a whole hierarchy.
-/

namespace Gdspy.Spec

variable {K P : Type}

/-- The cells referenced in a list of references. -/
def children : HRefs K P → List (HCell K P)
  | .nil => []
  | .cell _ c rest => c :: children rest
  | .name _ _ rest => children rest

/-- The names in a list of references. -/
def strings : HRefs K P → List Str
  | .nil => []
  | .cell _ _ rest => strings rest
  | .name _ s rest => s :: strings rest

/-- `d` is `c` itself or is reached from `c` through references. -/
inductive Below : HCell K P → HCell K P → Prop
  | refl (c : HCell K P) : Below c c
  | step {c e d : HCell K P} (h : e ∈ children c.references) (h' : Below e d) : Below c d

/-- No reference in the hierarchy is a string. -/
def NoStrings (c : HCell K P) : Prop := ∀ d, Below c d → strings d.references = []

end Gdspy.Spec
