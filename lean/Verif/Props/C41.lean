import Verif.Spec.Compose
import Verif.Lemmas.HierSamples
import Verif.Lemmas.RealTrig

/-!
# C41: reference transformations compose
-/

set_option linter.unusedSectionVars false

namespace Gdspy

open Spec

variable {K P : Type} [Field K]

theorem rot_zero {t : Trig K} (h : t.cos 0 = 1 ∧ t.sin 0 = 0) (a : Option K) (p : Pt K) :
    onSome a (fun a => rotPt (t.cos a) (t.sin a)) p = rotPt (t.cos (a.getD 0)) (t.sin (a.getD 0)) p := by
  cases a with
  | none => simp [onSome, rotPt, h.1, h.2]
  | some a => rfl

theorem scale_one (m : Option K) (p : Pt K) : onSome m scalePt p = scalePt (m.getD 1) p := by
  cases m with
  | none => simp [onSome, scalePt]
  | some m => rfl

theorem shift_zero (o : Option (Pt K)) (p : Pt K) :
    onSome o (fun o q => addPt q o) p = addPt p (o.getD (0, 0)) := by
  cases o with
  | none => simp [onSome, addPt]
  | some o => rfl

/-- Sign of the reflection. -/
def sgn (b : Bool) : K := if b then -1 else 1

theorem mirror_sgn (r : RefData K) (p : Pt K) :
    (if r.xrefl = some true then xreflPt p else p) = (p.1, (sgn (isRefl r) : K) * p.2) := by
  unfold isRefl sgn
  by_cases h : r.xrefl = some true
  · simp [h, xreflPt]
  · simp [h]

/-- Normal form of a reference. -/
theorem refPt_norm {t : Trig K} (h : t.cos 0 = 1 ∧ t.sin 0 = 0) (r : RefData K) (p : Pt K) :
    refPt t r p = addPt (rotPt (t.cos (r.rotation.getD 0)) (t.sin (r.rotation.getD 0))
      (scalePt (r.magnification.getD 1) (p.1, (sgn (isRefl r) : K) * p.2))) (r.origin.getD (0, 0)) := by
  unfold refPt
  simp only
  rw [mirror_sgn, scale_one, rot_zero h, shift_zero]

theorem arrPt_norm {t : Trig K} (h : t.cos 0 = 1 ∧ t.sin 0 = 0) (r : RefData K) (spc p : Pt K) :
    arrPt t r spc p = addPt (rotPt (t.cos (r.rotation.getD 0)) (t.sin (r.rotation.getD 0))
      ((addPt (scalePt (r.magnification.getD 1) p) spc).1,
        (sgn (isRefl r) : K) * (addPt (scalePt (r.magnification.getD 1) p) spc).2))
      (r.origin.getD (0, 0)) := by
  unfold arrPt
  simp only
  rw [mirror_sgn, rot_zero h, shift_zero]
  cases r.magnification with
  | none => simp [scalePt]
  | some m => rfl

theorem sgn_xor (a b : Bool) : (sgn (xor a b) : K) = sgn a * sgn b := by
  cases a <;> cases b <;> simp [sgn]

theorem sgn_sq (a : Bool) : (sgn a : K) * sgn a = 1 := by
  cases a <;> simp [sgn]

theorem trig_sgn {t : Trig K} (ht : Spec.Trig.Laws t) (b : Bool) (a : K) :
    t.cos (sgn b * a) = t.cos a ∧ t.sin (sgn b * a) = sgn b * t.sin a := by
  cases b with
  | false => simp [sgn]
  | true =>
    have := ht.neg a
    simp [sgn, this.1, this.2]

/-- **C41.** A reference seen through another one acts on every point like the composed reference. -/
theorem compose_point {t : Trig K} (ht : Spec.Trig.Laws t) (r1 r2 : RefData K)
    (p : Pt K) : refPt t r1 (refPt t r2 p) = refPt t (composeRef t r1 r2) p := by
  rw [refPt_norm ht.zero, refPt_norm ht.zero, refPt_norm ht.zero]
  have hx : isRefl (composeRef t r1 r2) = xor (isRefl r1) (isRefl r2) := by
    show decide (some (xor (isRefl r1) (isRefl r2)) = some true) = _
    cases xor (isRefl r1) (isRefl r2) <;> rfl
  have hs : (if isRefl r1 then (-1 : K) else 1) = sgn (isRefl r1) := rfl
  rw [hx, sgn_xor]
  simp only [composeRef, hs, Option.getD_some]
  generalize r1.rotation.getD 0 = a1
  generalize r2.rotation.getD 0 = a2
  generalize r1.magnification.getD 1 = m1
  generalize r2.magnification.getD 1 = m2
  generalize r1.origin.getD (0, 0) = o1
  generalize r2.origin.getD (0, 0) = o2
  have h1 := (ht.add a1 (sgn (isRefl r1) * a2)).1
  have h2 := (ht.add a1 (sgn (isRefl r1) * a2)).2
  rw [(trig_sgn ht (isRefl r1) a2).1, (trig_sgn ht (isRefl r1) a2).2] at h1 h2
  rw [h1, h2]
  have hq := sgn_sq (K := K) (isRefl r1)
  generalize (sgn (isRefl r1) : K) = s1 at *
  generalize (sgn (isRefl r2) : K) = s2 at *
  simp only [addPt, rotPt, scalePt, Prod.mk.injEq]
  constructor
  · linear_combination (m1 * m2 * s2 * p.2 * t.cos a1 * t.sin a2) * hq
  · linear_combination (m1 * m2 * s2 * p.2 * t.sin a1 * t.sin a2) * hq

/-- The same for an array in the inner cell. -/
theorem compose_array_point {t : Trig K} (ht : Spec.Trig.Laws t) (r1 r2 : RefData K)
    (spc p : Pt K) :
    refPt t r1 (arrPt t r2 spc p) = arrPt t (composeRef t r1 r2)
      (r1.magnification.getD 1 * spc.1, r1.magnification.getD 1 * spc.2) p := by
  rw [refPt_norm ht.zero, arrPt_norm ht.zero, arrPt_norm ht.zero]
  have hx : isRefl (composeRef t r1 r2) = xor (isRefl r1) (isRefl r2) := by
    show decide (some (xor (isRefl r1) (isRefl r2)) = some true) = _
    cases xor (isRefl r1) (isRefl r2) <;> rfl
  have hs : (if isRefl r1 then (-1 : K) else 1) = sgn (isRefl r1) := rfl
  rw [hx, sgn_xor]
  simp only [composeRef, hs, Option.getD_some]
  generalize r1.rotation.getD 0 = a1
  generalize r2.rotation.getD 0 = a2
  generalize r1.magnification.getD 1 = m1
  generalize r2.magnification.getD 1 = m2
  generalize r1.origin.getD (0, 0) = o1
  generalize r2.origin.getD (0, 0) = o2
  have h1 := (ht.add a1 (sgn (isRefl r1) * a2)).1
  have h2 := (ht.add a1 (sgn (isRefl r1) * a2)).2
  rw [(trig_sgn ht (isRefl r1) a2).1, (trig_sgn ht (isRefl r1) a2).2] at h1 h2
  rw [h1, h2]
  have hq := sgn_sq (K := K) (isRefl r1)
  generalize (sgn (isRefl r1) : K) = s1 at *
  generalize (sgn (isRefl r2) : K) = s2 at *
  simp only [addPt, rotPt, scalePt, Prod.mk.injEq]
  constructor
  · linear_combination (m1 * (m2 * p.2 + spc.2) * s2 * t.cos a1 * t.sin a2) * hq
  · linear_combination (m1 * (m2 * p.2 + spc.2) * s2 * t.sin a1 * t.sin a2) * hq

/-- **C41.** A reference to a cell that contains only a reference or an array gives the same polygons,
in the same order, as one reference (array) with the composed attributes. -/
theorem C41_references_compose (t : Trig K) (ht : Spec.Trig.Laws t) (r1 r2 : RefData K)
    (h1 : r1.array = none) (l : List (Pgon K)) :
    transformPolys t r1 (transformPolys t r2 l) = transformPolys t (composeRef t r1 r2) l := by
  unfold transformPolys
  rw [h1]
  simp only
  cases h2 : r2.array with
  | none =>
    have : (composeRef t r1 r2).array = none := by simp [composeRef, h2]
    rw [this]
    simp only [List.map_map]
    refine List.map_congr_left ?_
    intro p _
    simp only [Function.comp, List.map_map]
    refine List.map_congr_left ?_
    intro q _
    exact compose_point ht r1 r2 q
  | some q =>
    obtain ⟨cols, rows, s⟩ := q
    have : (composeRef t r1 r2).array
        = some (cols, rows, (r1.magnification.getD 1 * s.1, r1.magnification.getD 1 * s.2)) := by
      simp [composeRef, h2]
    rw [this]
    simp only [List.map_flatMap, List.map_map]
    unfold lattice
    simp only [List.flatMap_assoc, List.flatMap_map]
    refine List.flatMap_congr ?_
    intro i _
    refine List.flatMap_congr ?_
    intro j _
    refine List.map_congr_left ?_
    intro p _
    simp only [Function.comp, List.map_map]
    refine List.map_congr_left ?_
    intro q _
    simp only [Function.comp]
    rw [compose_array_point ht]
    simp only [mul_assoc]

/-- **C41.** The same stated for `get_polygons()` of two nested cells. -/
theorem C41_nested_cells [LinearOrder K] (ops : PathOps K P) (t : Trig K) (ht : Spec.Trig.Laws t)
    (r1 r2 : RefData K) (h1 : r1.array = none) (n n' : Str) (c : HCell K P) :
    (HCell.mk n [] [] [] (.cell r1 (.mk n' [] [] [] (.cell r2 c .nil)) .nil)).flatPolys ops t
      = (HCell.mk n [] [] [] (.cell (composeRef t r1 r2) c .nil)).flatPolys ops t := by
  simp only [HCell.flatPolys, HRefs.flatPolys, List.flatMap_nil, List.nil_append, List.append_nil]
  exact C41_references_compose t ht r1 r2 h1 _

/-- The laws hold for the real cosine and sine of an angle in degrees. -/
example : Spec.Trig.Laws realTrig := realTrig_laws

/-- An outer reference with reflection, rotation, magnification and origin, and an inner array. -/
example (l : List (Pgon ℝ)) :
    transformPolys realTrig ⟨some (1, 2), some 30, some 3, some true, none⟩
      (transformPolys realTrig ⟨some (5, 7), some 45, some 2, some true, some (4, 5, (1, 1))⟩ l)
    = transformPolys realTrig (composeRef realTrig ⟨some (1, 2), some 30, some 3, some true, none⟩
        ⟨some (5, 7), some 45, some 2, some true, some (4, 5, (1, 1))⟩) l :=
  C41_references_compose realTrig realTrig_laws _ _ rfl l

end Gdspy
