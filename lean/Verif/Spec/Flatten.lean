import Verif.Spec.Hier

/-!
Specification for flattening, and for labels seen through references.
-/

namespace Gdspy.Spec

variable {K P : Type}

mutual
/-- A condition on all paths of the hierarchy. -/
def AllPaths (q : P → Prop) : HCell K P → Prop
  | .mk _ _ paths _ refs => (∀ p ∈ paths, q p) ∧ AllPathsRefs q refs

def AllPathsRefs (q : P → Prop) : HRefs K P → Prop
  | .nil => True
  | .cell _ c rest => AllPaths q c ∧ AllPathsRefs q rest
  | .name _ _ rest => AllPathsRefs q rest
end

mutual
/-- All paths satisfy `q`, and all references to cells with paths in or below them satisfy `w`. -/
def PathsOk (w : RefData K → Prop) (q : P → Prop) : HCell K P → Prop
  | .mk _ _ paths _ refs => (∀ p ∈ paths, q p) ∧ PathsOkRefs w q refs

def PathsOkRefs (w : RefData K → Prop) (q : P → Prop) : HRefs K P → Prop
  | .nil => True
  | .cell r c rest => (w r ∨ AllPaths (fun _ => False) c) ∧ PathsOk w q c ∧ PathsOkRefs w q rest
  | .name _ _ rest => PathsOkRefs w q rest
end

section

variable [Field K]

/-- Apply a map to all points of the elements of a path. -/
def mapElems (f : Pt K → Pt K) (l : List ((Int × Int) × List (Pgon K))) :
    List ((Int × Int) × List (Pgon K)) :=
  l.map fun e => (e.1, e.2.map (List.map f))

/-- Transforming a path that satisfies `q` as a reference that satisfies `w` does moves its polygons by the
corresponding affine map, and the result satisfies `q` again. -/
structure GeomPaths (t : Trig K) (ops : PathOps K P) (w : RefData K → Prop) (q : P → Prop) : Prop where
  ref : ∀ r p, w r → q p → ops.elems (ops.transform r.origin r.rotation r.magnification r.xrefl none p)
    = mapElems (((Aff.place t r).comp (Aff.mirror r)).comp (Aff.opt r.magnification .scale)).app (ops.elems p)
  arr : ∀ r s p, w r → q p → ops.elems (ops.transform r.origin r.rotation r.magnification r.xrefl (some s) p)
    = mapElems (((Aff.place t r).comp (Aff.mirror r)).comp
        ((Aff.shift s).comp (Aff.opt r.magnification .scale))).app (ops.elems p)
  closed : ∀ r s p, w r → q p → q (ops.transform r.origin r.rotation r.magnification r.xrefl s p)

/-- Setting layers and datatypes of a path that satisfies `q` changes just those. -/
def RelabelPaths (ops : PathOps K P) (q : P → Prop) : Prop :=
  ∀ l d p, q p → ops.elems (ops.relabel l d p) = (ops.elems p).map fun e => ((l.getD e.1.1, d.getD e.1.2), e.2)

/-- The specification after setting a single layer and/or datatype. -/
def relabelKey (sl sd : Option Int) : SpecKey → SpecKey
  | .ld l d => .ld (sl.getD l) (sd.getD d)
  | .cell n => .cell n

mutual
/-- All labels of the hierarchy, each with the maps of the references above it, outermost first: the
reference and its placement. -/
def labelPaths (t : Trig K) : HCell K P → List (HLabel K × List (RefData K × Aff K))
  | .mk _ _ _ labels refs => labels.map (fun l => (l, [])) ++ labelPathsRefs t refs

def labelPathsRefs (t : Trig K) : HRefs K P → List (HLabel K × List (RefData K × Aff K))
  | .nil => []
  | .cell r c rest =>
    ((placements t r).flatMap fun A => (labelPaths t c).map fun q => (q.1, (r, A) :: q.2))
      ++ labelPathsRefs t rest
  | .name _ _ rest => labelPathsRefs t rest
end

/-- The composition of the maps of a chain of references. -/
def chainMap (l : List (RefData K × Aff K)) : Aff K := l.foldr (fun q A => q.2.comp A) .id

end

end Gdspy.Spec
