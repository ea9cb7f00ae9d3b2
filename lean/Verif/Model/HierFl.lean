import Verif.Model.Hier
import Verif.Model.Double

/-!
# Hierarchies in double precision

`Verif.Model.Hier` follows the queries on hierarchies with exact numbers. Here every operation of
the transformations of references is rounded. `fl` is the rounding; the cosine and sine of an
angle, as computed by numpy, are given by `t`.
-/

namespace Gdspy

variable {P : Type} (fl : ℚ → ℚ)

/-- `points * xrefl` with `xrefl = (1, -1)`. -/
def xreflPtFl (p : Pt ℚ) : Pt ℚ := (fl (p.1 * 1), fl (p.2 * (-1)))

/-- `points * ct + points[:, ::-1] * st` with `st = sin * _mpone`, `_mpone = (-1, 1)`. -/
def rotPtFl (c s : ℚ) (p : Pt ℚ) : Pt ℚ :=
  (fl (fl (p.1 * c) + fl (p.2 * fl (s * (-1)))), fl (fl (p.2 * c) + fl (p.1 * fl (s * 1))))

def scalePtFl (m : ℚ) (p : Pt ℚ) : Pt ℚ := (fl (p.1 * m), fl (p.2 * m))

def addPtFl (p q : Pt ℚ) : Pt ℚ := (fl (p.1 + q.1), fl (p.2 + q.2))

/-- library.py:1319-1333, 1398-1409: one vertex in `CellReference._transform_polygons` and
`CellReference.get_polygonsets`. -/
def refPtFl (t : Trig ℚ) (r : RefData ℚ) (p : Pt ℚ) : Pt ℚ :=
  let p := if r.xrefl = some true then xreflPtFl fl p else p
  let p := onSome r.magnification (scalePtFl fl) p
  let p := onSome r.rotation (fun a => rotPtFl fl (t.cos a) (t.sin a)) p
  onSome r.origin (fun o q => addPtFl fl q o) p

/-- library.py:1928-1943: one vertex in `CellArray._transform_polygons`, list form, and in
`CellArray.get_polygonsets`. -/
def arrPtFl (t : Trig ℚ) (r : RefData ℚ) (spc : Pt ℚ) (p : Pt ℚ) : Pt ℚ :=
  let p := match r.magnification with
    | some m => addPtFl fl (scalePtFl fl m p) spc
    | none => addPtFl fl p spc
  let p := if r.xrefl = some true then xreflPtFl fl p else p
  let p := onSome r.rotation (fun a => rotPtFl fl (t.cos a) (t.sin a)) p
  onSome r.origin (fun o q => addPtFl fl q o) p

/-- library.py:1902-1904 and 1925-1927: `spc = [spacing[0] * ii, spacing[1] * jj]`. -/
def latticeFl (cols rows : Nat) (spacing : Pt ℚ) : List (Pt ℚ) :=
  (List.range cols).flatMap fun (ii : Nat) => (List.range rows).map fun (jj : Nat) =>
    (fl (spacing.1 * (ii : ℚ)), fl (spacing.2 * (jj : ℚ)))

/-- library.py:1284-1334, 1878-1944: `_transform_polygons` on a list. -/
def transformPolysFl (t : Trig ℚ) (r : RefData ℚ) (l : List (Pgon ℚ)) : List (Pgon ℚ) :=
  match r.array with
  | none => l.map fun p => p.map (refPtFl fl t r)
  | some (cols, rows, spacing) =>
    (latticeFl fl cols rows spacing).flatMap fun spc => l.map fun p => p.map (arrPtFl fl t r spc)

mutual
/-- library.py:591-699 `Cell.get_polygons()`. -/
def HCell.flatPolysFl (ops : PathOps ℚ P) (t : Trig ℚ) : HCell ℚ P → List (Pgon ℚ)
  | .mk _ polys paths _ refs =>
    polys.flatMap PolySet.polygons ++ paths.flatMap ops.polys ++ HRefs.flatPolysFl ops t refs

def HRefs.flatPolysFl (ops : PathOps ℚ P) (t : Trig ℚ) : HRefs ℚ P → List (Pgon ℚ)
  | .nil => []
  | .cell r c rest => transformPolysFl fl t r (HCell.flatPolysFl ops t c) ++ HRefs.flatPolysFl ops t rest
  | .name _ _ rest => HRefs.flatPolysFl ops t rest
end

mutual
/-- library.py:701-725 `Cell.get_polygonsets()`, which `flatten` (library.py:797-854) puts in place of
the polygons. -/
def HCell.polysetsFl (t : Trig ℚ) : HCell ℚ P → List (PolySet ℚ)
  | .mk _ polys _ _ refs => polys ++ HRefs.polysetsFl t refs

/-- library.py:1370-1410, 1980-2028. -/
def HRefs.polysetsFl (t : Trig ℚ) : HRefs ℚ P → List (PolySet ℚ)
  | .nil => []
  | .cell r c rest =>
    (match r.array with
      | none => (HCell.polysetsFl t c).map (PolySet.mapPts (refPtFl fl t r))
      | some (cols, rows, spacing) => (latticeFl fl cols rows spacing).flatMap fun spc =>
          (HCell.polysetsFl t c).map (PolySet.mapPts (arrPtFl fl t r spc)))
    ++ HRefs.polysetsFl t rest
  | .name _ _ rest => HRefs.polysetsFl t rest
end

end Gdspy
