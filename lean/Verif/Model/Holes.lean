import Verif.Model.Clip

/-!
# Polygons with holes

Model of the conversion of Clipper's polygon tree to a list of polygons: `link_holes` and `tree2paths`
(clipper.cpp:4731-4834). Each hole is joined to its contour by a pair of coincident edges.

The vector has room for all insertions (4755-4762), so they happen in place and an iterator keeps its position
(that the room suffices is `C69_room`). Arithmetic is exact: `cInt` has no overflow. Where the code
would use an iterator that points past the end the result is `unmodelled`.
-/

namespace Gdspy

/-- `PolyNode`: a contour and the nodes inside of it. -/
inductive PolyNode where
  | mk (contour : List IPt) (childs : List PolyNode)

/-- `PolyNode::Contour` -/
def PolyNode.contour : PolyNode → List IPt
  | .mk c _ => c

/-- `PolyNode::Childs` -/
def PolyNode.childs : PolyNode → List PolyNode
  | .mk _ l => l

/-- clipper.cpp:4731-4734, 4771: `min_element` by X, the first if there are several. -/
def leftIndex (h : List IPt) : Nat := h.findIdx fun v => h.all fun w => decide (v.1 ≤ w.1)

/-- clipper.cpp:4778: the edge gets to the height of `p`, and does not only start there. -/
def reaches (p pprev pnext : IPt) : Bool :=
  decide ((pnext.2 ≤ p.2 ∧ p.2 < pprev.2) ∨ (pprev.2 < p.2 ∧ p.2 ≤ pnext.2))

/-- clipper.cpp:4780: the abscissa of the edge at the height of `p`; the division of C++ drops the
fraction. -/
def cutX (p pprev pnext : IPt) : Int :=
  pnext.1 + ((pprev.1 - pnext.1) * (p.2 - pnext.2)).tdiv (pprev.2 - pnext.2)

/-- clipper.cpp:4785: `p` is on a horizontal edge. -/
def onLevel (p pprev pnext : IPt) : Bool :=
  decide ((pnext.2 = p.2 ∧ pprev.2 = p.2) ∧
    ((pnext.1 ≤ p.1 ∧ p.1 ≤ pprev.1) ∨ (pprev.1 ≤ p.1 ∧ p.1 ≤ pnext.1)))

/-- clipper.cpp:4775-4791: the loop over the edges. `best` has the position `p1` and `xnew`; it is `none` while
`p1 == result.end()`. -/
def bridgeScan (p : IPt) : Nat → Option (Nat × Int) → List (IPt × IPt) → Option (Nat × Int)
  | _, best, [] => best
  | i, best, (pprev, pnext) :: l =>
    if reaches p pprev pnext then
      let x := cutX p pprev pnext
      if (best.all fun b => decide (x > b.2)) && decide (x ≤ p.1) then bridgeScan p (i + 1) (some (i, x)) l
      else if onLevel p pprev pnext then some (i, p.1)
      else bridgeScan p (i + 1) best l
    else bridgeScan p (i + 1) best l

/-- `vector::insert` before position `i`. -/
def insertAt (i : Nat) (l r : List IPt) : List IPt := r.take i ++ l ++ r.drop i

/-- clipper.cpp:4793-4797: the insertions, all at the same position. -/
def insertHole (result h : List IPt) (k i : Nat) (pnew p1 : IPt) : List IPt :=
  let result := if pnew.1 ≠ p1.1 ∨ pnew.2 ≠ p1.2 then insertAt i [pnew] result else result
  let result := insertAt i (h.take (k + 1)) result
  let result := insertAt i (h.drop k) result
  insertAt i [pnew] result

/-- clipper.cpp:4771-4797: one hole. -/
def linkHole (result h : List IPt) : Py (List IPt) :=
  let k := leftIndex h
  match h[k]? with
  | none => .error .unmodelled
  | some p =>
    match bridgeScan p 0 none ((result.getLast?.toList ++ result).zip result) with
    | none => .error .unmodelled
    | some (i, xnew) =>
      match result[i]? with
      | none => .error .unmodelled
      | some p1 => .ok (insertHole result h k i (xnew, p.2) p1)

/-- clipper.cpp:4747-4801 `link_holes`. `sort` is `partial_sort_copy` with `path_compare`, which may leave paths with the
same smallest X in any order. -/
def linkHoles (sort : List (List IPt) → List (List IPt)) (contour : List IPt) (holes : List (List IPt)) :
    Py (List IPt) :=
  (sort holes).foldlM linkHole contour

/-- clipper.cpp:4755-4762: the size reserved for the result. -/
def linkRoom (contour : List IPt) (holes : List (List IPt)) : Nat :=
  contour.length + (holes.map fun h => h.length + 3).sum

/-- clipper.cpp:4815-4830: what is appended for a node that is not a hole. -/
def outerPath (sort : List (List IPt) → List (List IPt)) : PolyNode → Py (List IPt)
  | .mk c [] => .ok c
  | .mk c (n :: l) => linkHoles sort c ((n :: l).map PolyNode.contour)

/- clipper.cpp:4805-4834 `tree2paths`, 169-241 `GetFirst`, `GetNext`, `IsHole`: the nodes in depth-first order; the nodes at the
top are no holes, their children are, and so on. -/
mutual
/-- A node and what is inside of it. -/
def PolyNode.paths (sort : List (List IPt) → List (List IPt)) (hole : Bool) : PolyNode → Py (List (List IPt))
  | .mk c l => do
    let own ← if hole then .ok [] else do
      let q ← outerPath sort (.mk c l)
      .ok [q]
    let rest ← PolyNode.pathsList sort (!hole) l
    .ok (own ++ rest)

/-- The children of a node (or of the tree). -/
def PolyNode.pathsList (sort : List (List IPt) → List (List IPt)) (hole : Bool) : List PolyNode → Py (List (List IPt))
  | [] => .ok []
  | n :: l => do
    let a ← n.paths sort hole
    let b ← PolyNode.pathsList sort hole l
    .ok (a ++ b)
end

/-- clipper.cpp:4805-4834 `tree2paths`: the polygons for the children of the root. -/
def treePaths (sort : List (List IPt) → List (List IPt)) (tree : List PolyNode) : Py (List (List IPt)) :=
  PolyNode.pathsList sort false tree

/-- `Clipper::Execute` followed by `tree2paths` (clipper.cpp:4935-4939, 5216-5221). Where a pointer past the end is used, anything
could happen; here it is an empty list. -/
def treeEngine {K : Type} [IntCast K] (sort : List (List IPt) → List (List IPt))
    (execute : ClipOp → List (List IPt) → List (List IPt) → List PolyNode) : Engine K where
  clip op A B :=
    match treePaths sort (execute op A B) with
    | .ok l => l.map fun P => P.map fun v => ((v.1 : K), (v.2 : K))
    | .error _ => []

end Gdspy
