import Verif.Lemmas.Snap
import Verif.Spec.ImportLib

/-!
Concrete elements for the examples beside the theorems. The grid is `1/1024`, the multiplier
`1024`.
-/

namespace Gdspy.Sample

open Spec

theorem onGrid (n : ℤ) (h : -2147483648 ≤ n ∧ n < 2147483648) :
    OnGrid 1024 (1 / 1024) ((n : ℚ) / 1024) :=
  ⟨n, by ring, by norm_num, h⟩

theorem onGrid2 (n k : ℤ) (h : -2147483648 ≤ n ∧ n < 2147483648)
    (h' : -2147483648 ≤ k ∧ k < 2147483648) :
    OnGrid2 1024 (1 / 1024) ((n : ℚ) / 1024, (k : ℚ) / 1024) :=
  ⟨onGrid n h, onGrid k h'⟩

theorem storable (n k : ℤ) (h : |n| < 2 ^ 53) (h1 : (16 : ℚ) ^ (-65 : ℤ) ≤ |n * (2 : ℚ) ^ k|)
    (h2 : |n * (2 : ℚ) ^ k| < (16 : ℚ) ^ (63 : ℤ)) : Storable (n * (2 : ℚ) ^ k) :=
  ⟨⟨n, k, h, rfl⟩, Or.inr ⟨h1, h2⟩⟩

def props : Properties := [(1, some "net1".toList), (127, some "x".toList)]

theorem props_good : GoodProps props := by
  refine ⟨by decide, ?_⟩
  intro p hp
  simp only [props, List.mem_cons, List.not_mem_nil, or_false] at hp
  rcases hp with rfl | rfl
  · exact ⟨by norm_num, _, rfl, by decide, by decide, by decide, by decide⟩
  · exact ⟨by norm_num, _, rfl, by decide, by decide, by decide, by decide⟩

def row (n : Nat) : List (ℚ × ℚ) :=
  (List.range n).map fun i : Nat => (((i : ℤ) : ℚ) / 1024, ((-3 : ℤ) : ℚ) / 1024)

theorem row_good (n : Nat) (h0 : 0 < n) (h1 : n < 100000) :
    row n ≠ [] ∧ ∀ q ∈ row n, OnGrid2 1024 (1 / 1024) q := by
  unfold row
  refine ⟨?_, ?_⟩
  · intro h
    rw [List.map_eq_nil_iff, List.range_eq_nil] at h
    omega
  · intro q hq
    obtain ⟨i, hi, rfl⟩ := List.mem_map.1 hq
    rw [List.mem_range] at hi
    exact onGrid2 _ _ (by omega) (by norm_num)

/-- A polygon set with a polygon of `n` vertices (two XY records for `n = 9000`) and a triangle. -/
def polygonSet (n : Nat) : PolygonSet :=
  ⟨[⟨row n, 3, -1⟩,
    ⟨[(((0 : ℤ) : ℚ) / 1024, ((0 : ℤ) : ℚ) / 1024), (((2048 : ℤ) : ℚ) / 1024, ((0 : ℤ) : ℚ) / 1024),
      (((0 : ℤ) : ℚ) / 1024, ((1 : ℤ) : ℚ) / 1024)], 0, 255⟩], props⟩

theorem polygonSet_good (n : Nat) (h0 : 0 < n) (h1 : n < 100000) :
    (polygonSet n).Good 1024 (1 / 1024) := by
  refine ⟨?_, ?_, props_good⟩
  · intro p hp
    simp only [polygonSet, List.mem_cons, List.not_mem_nil, or_false] at hp
    rcases hp with rfl | rfl
    · exact row_good n h0 h1
    · refine ⟨by simp, ?_⟩
      intro q hq
      simp only [List.mem_cons, List.not_mem_nil, or_false] at hq
      rcases hq with rfl | rfl | rfl <;> exact onGrid2 _ _ (by norm_num) (by norm_num)
  · intro p hp
    simp only [polygonSet, List.mem_cons, List.not_mem_nil, or_false] at hp
    rcases hp with rfl | rfl <;> exact ⟨⟨by norm_num, by norm_num⟩, ⟨by norm_num, by norm_num⟩⟩

/-- Two parallel paths, one with custom end extensions. -/
def path : GdsPath :=
  ⟨false, [⟨((100 : ℤ) : ℚ) / 1024, .ext (((-7 : ℤ) : ℚ) / 1024) (((0 : ℤ) : ℚ) / 1024), 1, 2,
      [(((0 : ℤ) : ℚ) / 1024, ((0 : ℤ) : ℚ) / 1024), (((5 : ℤ) : ℚ) / 1024, ((9 : ℤ) : ℚ) / 1024)]⟩,
    ⟨((1 : ℤ) : ℚ) / 1024, .round, 3, 4,
      [(((0 : ℤ) : ℚ) / 1024, ((0 : ℤ) : ℚ) / 1024), (((5 : ℤ) : ℚ) / 1024, ((9 : ℤ) : ℚ) / 1024)]⟩],
    props⟩

theorem path_good : path.Good 1024 (1 / 1024) := by
  have h : ∀ s ∈ path.subs, s = path.subs[0] ∨ s = path.subs[1] := by
    intro s hs
    simpa [path] using hs
  refine ⟨?_, ?_, ?_, ?_, props_good⟩
  · intro s hs
    rcases h s hs with rfl | rfl <;>
    · refine ⟨by simp [path], ?_⟩
      intro q hq
      simp only [path, List.getElem_cons_zero, List.getElem_cons_succ, List.mem_cons,
        List.not_mem_nil, or_false] at hq
      rcases hq with rfl | rfl <;> exact onGrid2 _ _ (by norm_num) (by norm_num)
  · intro s hs
    rcases h s hs with rfl | rfl <;> exact ⟨⟨by decide, by decide⟩, ⟨by decide, by decide⟩⟩
  · intro s hs
    rcases h s hs with rfl | rfl
    · exact ⟨100, ⟨by simp [path]; ring, by norm_num, by norm_num⟩, by simp [path]⟩
    · exact ⟨1, ⟨by simp [path], by norm_num, by norm_num⟩, by simp [path]⟩
  · intro s hs x y hxy
    rcases h s hs with rfl | rfl
    · simp only [path, List.getElem_cons_zero, Ends.ext.injEq] at hxy
      obtain ⟨rfl, rfl⟩ := hxy
      exact ⟨onGrid _ (by norm_num), onGrid _ (by norm_num)⟩
    · simp [path] at hxy

theorem storable_half : Storable (1 / 2) := by
  have := storable 1 (-1) (by norm_num) (by norm_num [abs_of_pos]) (by norm_num [abs_of_pos])
  norm_num at this ⊢
  exact this

theorem storable_90 : Storable 90 := by
  have := storable 90 0 (by norm_num) (by norm_num [abs_of_pos]) (by norm_num [abs_of_pos])
  norm_num at this ⊢
  exact this

def label : Label :=
  ⟨some "VDD".toList, (((-5 : ℤ) : ℚ) / 1024, ((77 : ℤ) : ℚ) / 1024), 6, some 90, none, true, 10, 20,
    props⟩

theorem label_good : label.Good 1024 (1 / 1024) where
  text := ⟨_, rfl, by decide, by decide, by decide, by decide⟩
  position := onGrid2 _ _ (by norm_num) (by norm_num)
  anchor := by unfold GoodAnchor; decide
  rotation := by
    intro v hv
    simp only [label, Option.some.injEq] at hv
    subst hv
    exact storable_90
  magnification := by intro v hv; simp [label] at hv
  words := ⟨⟨by decide, by decide⟩, ⟨by decide, by decide⟩⟩
  props := props_good

def ref : Ref :=
  ⟨.cell "SUB".toList, none, (((-5 : ℤ) : ℚ) / 1024, ((77 : ℤ) : ℚ) / 1024), none, some (1 / 2), false,
    []⟩

theorem noProps : GoodProps [] := ⟨by simp, by simp⟩

theorem ref_good (trig : ℚ → ℚ × ℚ) : ref.Good trig 1024 (1 / 1024) where
  target := ⟨by decide, by decide, by decide, by decide⟩
  origin := onGrid2 _ _ (by norm_num) (by norm_num)
  rotation := by intro v hv; simp [ref] at hv
  magnification := by
    intro v hv
    simp only [ref, Option.some.injEq] at hv
    subst hv
    exact storable_half
  array := by intro c r s h; simp [ref] at h
  props := noProps

/-- An array of 3 by 2 cells, reflected and rotated by a quarter turn. -/
def array : Ref :=
  ⟨.name "ELSEWHERE".toList, some (3, 2, (((10 : ℤ) : ℚ) / 1024, ((20 : ℤ) : ℚ) / 1024)),
    (((-5 : ℤ) : ℚ) / 1024, ((77 : ℤ) : ℚ) / 1024), some 90, none, true, props⟩

theorem array_good (trig : ℚ → ℚ × ℚ) (h90 : trig 90 = (0, 1)) : array.Good trig 1024 (1 / 1024) where
  target := ⟨by decide, by decide, by decide, by decide⟩
  origin := onGrid2 _ _ (by norm_num) (by norm_num)
  rotation := by
    intro v hv
    simp only [array, Option.some.injEq] at hv
    subst hv
    exact storable_90
  magnification := by intro v hv; simp [array] at hv
  array := by
    intro c r s h
    simp only [array, Option.some.injEq, Prod.mk.injEq] at h
    obtain ⟨rfl, rfl, rfl⟩ := h
    refine ⟨⟨by decide, by decide⟩, ⟨by decide, by decide⟩, by decide, by decide, ?_, ?_, ?_⟩
    · simp [trigOf, array, h90]
    · have := onGrid2 (-5) 107 (by norm_num) (by norm_num)
      simp only [cornersOf, trigOf, array, h90]
      norm_num at this ⊢
      exact this
    · have := onGrid2 35 77 (by norm_num) (by norm_num)
      simp only [cornersOf, trigOf, array, h90]
      norm_num at this ⊢
      exact this
  props := props_good

/-- Plain arguments for reading. -/
def args (u : Units) : ReadArgs := ⟨u, id, fun _ => none, fun _ => none, fun _ => none⟩

theorem args_plain (u : Units) : PlainArgs (args u) := ⟨rfl, fun _ => rfl, fun _ => rfl, fun _ => rfl⟩

end Gdspy.Sample
