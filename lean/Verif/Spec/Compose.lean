import Verif.Spec.Hier

/-!
Specification of the composition of two references.
-/

namespace Gdspy.Spec

variable {K : Type} [Field K]

/-- Is the reference reflected? -/
def isRefl (r : RefData K) : Bool := r.xrefl = some true

/-- The single reference that does what reference `r1` to a cell with reference `r2` does: the origin
of `r2` is moved by `r1`; angles add, with the sign changed if `r1` is reflected; magnifications
multiply; reflections cancel. If `r2` is an array, its spacing is magnified by `r1`. -/
def composeRef (t : Trig K) (r1 r2 : RefData K) : RefData K where
  origin :=
    let o := r2.origin.getD (0, 0)
    let m := r1.magnification.getD 1
    let x := m * o.1
    let y := (if isRefl r1 then -1 else 1) * m * o.2
    let a := r1.rotation.getD 0
    let d := r1.origin.getD (0, 0)
    some (t.cos a * x - t.sin a * y + d.1, t.sin a * x + t.cos a * y + d.2)
  rotation := some (r1.rotation.getD 0 + (if isRefl r1 then -1 else 1) * r2.rotation.getD 0)
  magnification := some (r1.magnification.getD 1 * r2.magnification.getD 1)
  xrefl := some (xor (isRefl r1) (isRefl r2))
  array := r2.array.map fun q =>
    (q.1, q.2.1, (r1.magnification.getD 1 * q.2.2.1, r1.magnification.getD 1 * q.2.2.2))

end Gdspy.Spec
