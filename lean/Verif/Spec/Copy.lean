import Verif.Model.Copy
import Verif.Spec.Library

/-!
Specification vocabulary for copies of objects.
-/

namespace Gdspy.Spec

variable {K P : Type}

/-- The object `n` holds the object `k`: a cell its polygon sets, paths, labels and references, a
reference its cell. -/
inductive Held : Obj K P → Nat → Prop
  | polygon {s a b c d k} : k ∈ a → Held (.cell s a b c d) k
  | path {s a b c d k} : k ∈ b → Held (.cell s a b c d) k
  | label {s a b c d k} : k ∈ c → Held (.cell s a b c d) k
  | reference {s a b c d k} : k ∈ d → Held (.cell s a b c d) k
  | target {r k} : Held (.ref r (.obj k)) k

/-- The two objects are equal, except that `φ` maps the objects held by the first to those held by
the second. -/
inductive SameUnder (φ : Nat → Nat) : Obj K P → Obj K P → Prop
  | cell {s a b c d} : SameUnder φ (.cell s a b c d)
      (.cell s (a.map φ) (b.map φ) (c.map φ) (d.map φ))
  | poly {p} : SameUnder φ (.poly p) (.poly p)
  | path {p} : SameUnder φ (.path p) (.path p)
  | label {l} : SameUnder φ (.label l) (.label l)
  | ref {r c} : SameUnder φ (.ref r (.obj c)) (.ref r (.obj (φ c)))
  | name {r s} : SameUnder φ (.ref r (.str s)) (.ref r (.str s))

/-- `z` is `x` or is reached from `x` by attributes. -/
def HeldBy (m : Mem K P) (x z : Nat) : Prop :=
  Relation.ReflTransGen (fun a b => Held (m.node a) b) x z

/-- Objects only hold objects that exist. -/
def Mem.Closed (m : Mem K P) : Prop := ∀ x < m.size, ∀ k, Held (m.node x) k → k < m.size

/-- In `m'`, which comes after `m`, there is a copy of `x` and of everything inside of `x`, made of new
objects only, and nothing else has changed. -/
structure FreshCopy (m m' : Mem K P) (φ : Nat → Nat) (x : Nat) : Prop where
  /-- the objects that existed are as they were -/
  old : ∀ z < m.size, m'.node z = m.node z
  /-- everything inside has a new object as its copy -/
  fresh : ∀ z, HeldBy m x z → m.size ≤ φ z ∧ φ z < m'.size
  /-- different objects have different copies -/
  inj : ∀ z w, HeldBy m x z → HeldBy m x w → φ z = φ w → z = w
  /-- nothing else has been created -/
  only : ∀ y, m.size ≤ y → y < m'.size → ∃ z, HeldBy m x z ∧ φ z = y
  /-- the copies are equal to the originals, and hold the copies of what the originals hold -/
  same : ∀ z, HeldBy m x z → SameUnder φ (m.node z) (m'.node (φ z))

section Move

variable [Field K]

def shiftPoly (dx dy : K) (l : List (Pgon K)) : List (Pgon K) :=
  l.map fun p => p.map fun q => (q.1 + dx, q.2 + dy)

/-- The second object is the first one moved by (dx, dy). -/
inductive MovedObj (move : K → K → P → P) (dx dy : K) : Obj K P → Obj K P → Prop
  | poly {ps ls ds} : MovedObj move dx dy (.poly ⟨ps, ls, ds⟩) (.poly ⟨shiftPoly dx dy ps, ls, ds⟩)
  | path {p} : MovedObj move dx dy (.path p) (.path (move dx dy p))
  | label {t px py ro mg xr la tt} : MovedObj move dx dy (.label ⟨t, (px, py), ro, mg, xr, la, tt⟩)
      (.label ⟨t, (px + dx, py + dy), ro, mg, xr, la, tt⟩)
  | ref {ox oy ro mg xr ar t} : MovedObj move dx dy (.ref ⟨some (ox, oy), ro, mg, xr, ar⟩ t)
      (.ref ⟨some (ox + dx, oy + dy), ro, mg, xr, ar⟩ t)

end Move

end Gdspy.Spec
