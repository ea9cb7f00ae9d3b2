import Verif.Props.C42
import Verif.Props.C33
import Mathlib.Data.List.Zip

/-!
# C43: area is a geometric invariant
-/

set_option linter.unusedSectionVars false

namespace Gdspy

open Spec

variable {K : Type} [Field K]

/-- Cross product. -/
def cross (a b : Pt K) : K := a.1 * b.2 - b.1 * a.2

/-- Sum of the cross products along an open chain. -/
def chain : List (Pt K) → K
  | a :: b :: l => cross a b + chain (b :: l)
  | _ => 0

theorem fan_chain (p0 : Pt K) : ∀ (a : Pt K) (l : List (Pt K)),
    fan p0 (a :: l) = chain (a :: l) + cross p0 a + cross (l.getLastD a) p0
  | a, [] => by simp [fan, chain, cross]
  | a, b :: l => by
    rw [fan, fan_chain p0 b l, chain, List.getLastD_cons]
    simp only [cross]
    ring

theorem zip_chain : ∀ (a : Pt K) (l : List (Pt K)) (e : Pt K),
    (List.zipWith (fun a b : Pt K => a.1 * b.2 - b.1 * a.2) (a :: l) (l ++ [e])).sum
      = chain (a :: l) + cross (l.getLastD a) e
  | a, [], e => by simp [chain, cross]
  | a, b :: l, e => by
    rw [List.cons_append, List.zipWith_cons_cons, List.sum_cons, zip_chain b l e, chain,
      List.getLastD_cons]
    simp only [cross]
    ring

/-- The fan of the code computes the shoelace formula. -/
theorem fan_shoelace (p0 : Pt K) (l : List (Pt K)) : fan p0 l = shoelace (p0 :: l) := by
  unfold shoelace
  rw [List.rotate_cons_succ, List.rotate_zero, zip_chain]
  cases l with
  | nil => simp [fan, chain, cross]
  | cons a l =>
    rw [fan_chain, chain, List.getLastD_cons]
    ring

variable [LinearOrder K] [IsStrictOrderedRing K]

/-- **C43.** The area of a polygon is given by the shoelace formula. -/
theorem C43_shoelace (p : Pgon K) : polyArea p = |shoelace p| / 2 := by
  cases p with
  | nil => simp [polyArea, shoelace]
  | cons p0 l =>
    simp only [polyArea, fan_shoelace]
    ring

theorem shoelace_rotate (p : Pgon K) (n : Nat) : shoelace (p.rotate n) = shoelace p := by
  unfold shoelace
  rw [List.rotate_rotate, Nat.add_comm, ← List.rotate_rotate, ← List.zipWith_rotate_distrib _ _ _ _ (by simp)]
  exact (List.rotate_perm _ _).sum_eq

theorem shoelace_reverse (p : Pgon K) : shoelace p.reverse = - shoelace p := by
  have h : ∀ l m : List (Pt K),
      (List.zipWith (fun a b : Pt K => a.1 * b.2 - b.1 * a.2) l m).sum
        = - (List.zipWith (fun a b : Pt K => a.1 * b.2 - b.1 * a.2) m l).sum := by
    intro l
    induction l with
    | nil => intro m; simp
    | cons a l ih =>
      intro m
      cases m with
      | nil => simp
      | cons b m =>
        rw [List.zipWith_cons_cons, List.zipWith_cons_cons, List.sum_cons, List.sum_cons, ih m]
        ring
  obtain ⟨q, hq, hr⟩ : ∃ q : Pgon K, p.reverse.rotate 1 = q.reverse ∧ q.rotate 1 = p ∧ shoelace q = shoelace p := by
    refine ⟨p.rotate (p.length - 1 % p.length), List.rotate_reverse p 1, ?_, shoelace_rotate _ _⟩
    rw [List.rotate_rotate]
    rcases p with _ | ⟨a, _ | ⟨b, l⟩⟩
    · simp
    · simp
    · have : (a :: b :: l).length - 1 % (a :: b :: l).length + 1 = (a :: b :: l).length := by
        rw [Nat.mod_eq_of_lt (by simp)]
        simp
      rw [this, List.rotate_length]
  have hl : p.length = q.length := by rw [← hr.1, List.length_rotate]
  unfold shoelace at hr ⊢
  rw [hq, ← List.reverse_zipWith hl, List.sum_reverse, h, ← hr.2, hr.1]

/-- **C43.** The area does not depend on the starting vertex, nor on the direction. -/
theorem C43_start_direction (p : Pgon K) (n : Nat) :
    polyArea (p.rotate n) = polyArea p ∧ polyArea p.reverse = polyArea p := by
  constructor
  · rw [C43_shoelace, C43_shoelace, shoelace_rotate]
  · rw [C43_shoelace, C43_shoelace, shoelace_reverse, abs_neg]

theorem area_mapPts {f : Pt K → Pt K} {A : Aff K} (h : ∀ v, f v = A.app v) (ps : PolySet K) :
    PolySet.area { ps with polygons := ps.polygons.map (List.map f) } = |Aff.det A| * ps.area := by
  obtain rfl : f = A.app := funext h
  exact areas_app A ps.polygons

/-- **C43.** translate, rotate and mirror keep the area; scale multiplies it by the factors. -/
theorem C43_transformations (t : Trig K) (ht : ∀ a, t.cos a ^ 2 + t.sin a ^ 2 = 1) (ps : PolySet K) :
    (∀ dx dy, (ps.translate dx dy).area = ps.area) ∧
    (∀ a c, (ps.rotate t a c).area = ps.area) ∧
    (∀ a b, a ≠ b → (ps.mirror a b).area = ps.area) ∧
    (∀ sx sy c, (ps.scale sx sy c).area = |sx * sy.getD sx| * ps.area) := by
  refine ⟨?_, ?_, ?_, ?_⟩
  · intro dx dy
    unfold PolySet.translate
    rw [area_mapPts (A := Aff.shift (dx, dy)) fun v => by simp [Aff.app, Aff.shift]]
    simp [Aff.det, Aff.shift]
  · intro a c
    unfold PolySet.rotate
    rw [area_mapPts (A := (Aff.rotate (t.cos a) (t.sin a)).about c) fun v => by
      simp only [spinPt, Aff.app, Aff.about, Aff.comp, Aff.shift, Aff.rotate]
      ext <;> ring]
    have : Aff.det ((Aff.rotate (t.cos a) (t.sin a)).about c) = 1 := by
      simp only [Aff.det, Aff.about, Aff.comp, Aff.shift, Aff.rotate]
      linear_combination ht a
    rw [this]
    simp
  · intro a b hab
    obtain ⟨s, hs, hm⟩ := mirrorPt_eq hab
    unfold PolySet.mirror
    rw [area_mapPts (A := ⟨s * (b.1 - a.1) * (b.1 - a.1) - 1, s * (b.2 - a.2) * (b.1 - a.1),
      s * (b.1 - a.1) * (b.2 - a.2), s * (b.2 - a.2) * (b.2 - a.2) - 1,
      2 * a.1 - s * (a.1 * (b.1 - a.1) + a.2 * (b.2 - a.2)) * (b.1 - a.1),
      2 * a.2 - s * (a.1 * (b.1 - a.1) + a.2 * (b.2 - a.2)) * (b.2 - a.2)⟩) fun v => by
        rw [hm]
        simp only [Aff.app]
        ext <;> ring]
    have : ∀ u v : K, s * (u * u + v * v) = 2 →
        (s * u * u - 1) * (s * v * v - 1) - s * v * u * (s * u * v) = -1 := by
      intro u v h
      linear_combination -h
    simp only [Aff.det]
    rw [this _ _ hs]
    simp
  · intro sx sy c
    unfold PolySet.scale
    rw [area_mapPts (A := (⟨sx, 0, 0, sy.getD sx, 0, 0⟩ : Aff K).about c) fun v => by
      simp only [Aff.app, Aff.about, Aff.comp, Aff.shift]
      cases sy <;> simp only [scaleAbout, Option.getD_none, Option.getD_some] <;> ext <;> ring]
    congr 2
    simp only [Aff.det, Aff.about, Aff.comp, Aff.shift]
    ring

/-- **C43.** The area of a Rectangle is width times height, for any two opposite corners. -/
theorem C43_rectangle (p1 p2 : Pt K) (l d : Int) :
    (PolySet.rectangle p1 p2 l d).area = |p2.1 - p1.1| * |p2.2 - p1.2| := by
  simp only [PolySet.rectangle, PolySet.area, List.map_cons, List.map_nil, List.sum_cons, List.sum_nil,
    polyArea, fan, add_zero]
  rw [← abs_mul, show ((p1.1 - p2.1) * (p2.2 - p1.2) - (p1.2 - p2.2) * (p1.1 - p1.1) +
      ((p1.1 - p2.1) * (p2.2 - p1.2) - (p1.2 - p1.2) * (p2.1 - p1.1)))
      = (-2) * ((p2.1 - p1.1) * (p2.2 - p1.2)) by ring, abs_mul, abs_neg, abs_two]
  ring

/-- **C43.** The areas by layer and datatype add up to the area, each key once, and the entry of a key
is the area of the polygons with that key. -/
theorem C43_by_spec (ps : PolySet K) (h : Aligned ps) :
    (ps.areaDict.map Prod.snd).sum = ps.area ∧ (ps.areaDict.map Prod.fst).Nodup ∧
    ∀ l d, (ps.areaDict.lookup (l, d)).getD 0
      = ((((ps.polygons.zip (ps.layers.zip ps.datatypes)).filter fun q => q.2 = (l, d)).map
          fun q => polyArea q.1)).sum := by
  have hn : (ps.areaDict.map Prod.fst).Nodup := by
    rw [sets_areaDict]
    exact dictAddAll_nodup _ _ (by simp)
  refine ⟨?_, hn, ?_⟩
  · rw [sets_areaDict, dictAddAll_sum, List.map_map]
    have : (Prod.snd ∘ fun q : (Int × Int) × Pgon K => (q.1, polyArea q.2)) = polyArea ∘ Prod.snd := rfl
    rw [this, ← List.map_map, tagged_snd h]
    simp [PolySet.area]
  · intro l d
    rw [← sel_sum_lookup hn, sets_areaDict, dictAddAll_sel]
    have h0 : (sel (l, d) ([] : List ((Int × Int) × K))).sum = 0 := rfl
    rw [h0, zero_add, sel_map_val]
    unfold sel PolySet.tagged
    have hz : ∀ (a : List (Int × Int)) (b : List (Pgon K)), a.zip b = (b.zip a).map Prod.swap := by
      intro a b
      exact (List.zip_swap b a).symm
    rw [hz, List.filter_map, List.map_map, List.map_map]
    rfl

/-! ### Examples -/

/-- The area of a concave polygon, listed from two starting vertices and in both directions. -/
example : polyArea ([(0, 0), (4, 0), (4, 4), (2, 1)] : Pgon ℚ) = 6
    ∧ polyArea ([(4, 4), (2, 1), (0, 0), (4, 0)] : Pgon ℚ) = 6
    ∧ polyArea ([(2, 1), (4, 4), (4, 0), (0, 0)] : Pgon ℚ) = 6 := by decide +kernel

example : Aligned (⟨[[(0, 0), (3, 0), (0, 3)], [(1, 1), (2, 1), (2, 2)]], [2, 1], [0, 0]⟩ : PolySet ℚ) := by
  simp [Aligned]

end Gdspy
