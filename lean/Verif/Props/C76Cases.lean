import Verif.Props.C76
import Verif.Lemmas.RealNum
import Verif.Props.C59
import Mathlib.Data.Int.Interval
import Mathlib.Data.Finset.Prod

/-!
C76: a class `Clipper` as in `ExactUnion` exists; examples.
-/

set_option linter.unusedSectionVars false

namespace Gdspy

open Spec

variable {K : Type} [Field K] [LinearOrder K] [IsStrictOrderedRing K]

/-! ## An exact union -/

theorem edges_four {α : Type} (a b c d : α) : edges [a, b, c, d] = [(a, b), (b, c), (c, d), (d, a)] := rfl

theorem corners_four {α : Type} (a b c d : α) : corners [a, b, c, d] = [(d, a, b), (a, b, c), (b, c, d), (c, d, a)] := rfl

/-- The unit square with the given corner at the left and the top. -/
def cell (c : IPt) : List IPt := [(c.1, c.2 - 1), (c.1 + 1, c.2 - 1), (c.1 + 1, c.2), (c.1, c.2)]

theorem cell_rect (c : IPt) : Rectilinear (cell c) := by
  intro e he
  rw [cell, edges_four] at he
  simp only [List.mem_cons, List.not_mem_nil, or_false] at he
  rcases he with rfl | rfl | rfl | rfl <;> simp

theorem cell_outline (c : IPt) : Outline (cell c) := by
  refine ⟨cell_rect c, ?_, ?_, by simp [cell]⟩
  · intro e he
    rw [cell, edges_four] at he
    simp only [List.mem_cons, List.not_mem_nil, or_false] at he
    rcases he with rfl | rfl | rfl | rfl <;> rw [Ne, Prod.ext_iff] <;> simp only <;> omega
  · intro x hx
    rw [cell, corners_four] at hx
    simp only [List.mem_cons, List.not_mem_nil, or_false] at hx
    rcases hx with rfl | rfl | rfl | rfl <;> simp [turn]

section
variable [FloorRing K]

theorem cell_wind (c : IPt) (p : Pt K) : wind (ofGrid (cell c)) p = if ⌊p.1⌋ = c.1 ∧ ⌈p.2⌉ = c.2 then 1 else 0 := by
  have h := wind_trapezoid (c.1 : K) ((c.1 + 1 : Int) : K) ((c.1 + 1 : Int) : K) (c.1 : K) ((c.2 - 1 : Int) : K) (c.2 : K) (by push_cast; linarith) p
  rw [xAt_vertical, xAt_vertical] at h
  have e : ofGrid (K := K) (cell c) = [((c.1 : K), ((c.2 - 1 : Int) : K)), (((c.1 + 1 : Int) : K), ((c.2 - 1 : Int) : K)),
      (((c.1 + 1 : Int) : K), (c.2 : K)), ((c.1 : K), (c.2 : K))] := rfl
  rw [e, h]
  have h1 : (((c.2 - 1 : Int) : K) < p.2 ∧ p.2 ≤ c.2) ↔ ⌈p.2⌉ = c.2 := by rw [Int.ceil_eq_iff]; push_cast; rfl
  have h2 : ⌊p.1⌋ = c.1 ↔ (c.1 : K) ≤ p.1 ∧ p.1 < ((c.1 + 1 : Int) : K) := by rw [Int.floor_eq_iff]; push_cast; rfl
  by_cases hy : ⌈p.2⌉ = c.2
  · rw [if_pos (h1.2 hy)]
    by_cases ha : p.1 < c.1
    · rw [if_pos (by push_cast; linarith), if_pos ha, if_neg (fun hc => absurd (h2.1 hc.1).1 (not_le.2 ha))]; rfl
    · by_cases hb : p.1 < ((c.1 + 1 : Int) : K)
      · rw [if_pos hb, if_neg ha, if_pos ⟨h2.2 ⟨not_lt.1 ha, hb⟩, hy⟩]; rfl
      · rw [if_neg hb, if_neg ha, if_neg (fun hc => hb (h2.1 hc.1).2)]; rfl
  · rw [if_neg (fun hc => hy (h1.1 hc)), if_neg (fun hc => hy hc.2)]

/-- The winding number of a rectilinear polygon is the same at all points of a cell. -/
theorem wind_cell {P : List IPt} (h : Rectilinear P) (p : Pt K) : wind (ofGrid P) p = wind (ofGrid P) ((⌊p.1⌋ : K), (⌈p.2⌉ : K)) := by
  rw [wind_rect p h, wind_rect _ h]
  congr 1
  apply List.map_congr_left
  intro e _
  have h1 : ∀ x : Int, rightOf p x = rightOf ((⌊p.1⌋ : K), (⌈p.2⌉ : K)) x := by
    intro x
    unfold rightOf
    congr 1
    simp [Int.floor_lt]
  have h2 : ∀ y : Int, notBelow p y = notBelow ((⌊p.1⌋ : K), (⌈p.2⌉ : K)) y := by
    intro y
    unfold notBelow
    congr 1
    simp [Int.ceil_le]
  unfold rectWind
  rw [h1, h2, h2]

theorem total_cell {A : List (List IPt)} (h : ∀ P ∈ A, Rectilinear P) (p : Pt K) :
    total (A.map ofGrid) p = total (A.map ofGrid) ((⌊p.1⌋ : K), (⌈p.2⌉ : K)) := by
  induction A with
  | nil => rfl
  | cons P A ih =>
    rw [List.map_cons, total_cons, total_cons, wind_cell (h P (by simp)), ih fun Q hQ => h Q (List.mem_cons_of_mem _ hQ)]

/-- A box around all vertices. -/
def vertexBox (A : List (List IPt)) : IBox :=
  A.flatten.foldr (fun v b => ⟨min v.1 b.x0, max v.1 b.x1, min v.2 b.y0, max v.2 b.y1⟩) ⟨0, 0, 0, 0⟩

theorem vertexBox_spec (A : List (List IPt)) : (vertexBox A).x0 ≤ (vertexBox A).x1 ∧ (vertexBox A).y0 ≤ (vertexBox A).y1 ∧
    ∀ P ∈ A, ∀ v ∈ P, (vertexBox A).x0 ≤ v.1 ∧ v.1 ≤ (vertexBox A).x1 ∧ (vertexBox A).y0 ≤ v.2 ∧ v.2 ≤ (vertexBox A).y1 := by
  have key : ∀ l : List IPt, ∀ b, b = l.foldr (fun v b => (⟨min v.1 b.x0, max v.1 b.x1, min v.2 b.y0, max v.2 b.y1⟩ : IBox)) ⟨0, 0, 0, 0⟩ →
      b.x0 ≤ b.x1 ∧ b.y0 ≤ b.y1 ∧ ∀ v ∈ l, b.x0 ≤ v.1 ∧ v.1 ≤ b.x1 ∧ b.y0 ≤ v.2 ∧ v.2 ≤ b.y1 := by
    intro l
    induction l with
    | nil => rintro b rfl; simp
    | cons w l ih =>
      rintro b rfl
      obtain ⟨h1, h2, h3⟩ := ih _ rfl
      rw [List.foldr_cons]
      refine ⟨?_, ?_, ?_⟩
      · simp only; omega
      · simp only; omega
      · intro v hv
        rcases List.mem_cons.1 hv with rfl | hv
        · simp only; omega
        · have := h3 v hv
          simp only
          omega
  obtain ⟨h1, h2, h3⟩ := key A.flatten _ rfl
  exact ⟨h1, h2, fun P hP v hv => h3 v (List.mem_flatten.2 ⟨P, hP, hv⟩)⟩

theorem vertexBox_in {A : List (List IPt)} {P : List IPt} (hP : P ∈ A) {p : Pt K} (hw : wind (ofGrid P) p ≠ 0) :
    ((vertexBox A).x0 : K) ≤ p.1 ∧ p.1 < (vertexBox A).x1 ∧ ((vertexBox A).y0 : K) < p.2 ∧ p.2 ≤ (vertexBox A).y1 := by
  apply wind_in_box (P := ofGrid P) _ hw
  intro v hv
  obtain ⟨w, hw', rfl⟩ := List.mem_map.1 hv
  obtain ⟨h1, h2, h3, h4⟩ := (vertexBox_spec A).2.2 P hP w hw'
  simp only
  exact ⟨by exact_mod_cast h1, by exact_mod_cast h2, by exact_mod_cast h3, by exact_mod_cast h4⟩

/-- The cells with positive winding number. -/
noncomputable def fullCells (K : Type) [Field K] [LinearOrder K] (A : List (List IPt)) : List IPt :=
  (Finset.Ico (vertexBox A).x0 (vertexBox A).x1 ×ˢ Finset.Ioc (vertexBox A).y0 (vertexBox A).y1).toList.filter fun c =>
    decide (0 < total (A.map ofGrid) ((c.1 : K), (c.2 : K)))

theorem mem_fullCells {A : List (List IPt)} {c : IPt} : c ∈ fullCells K A ↔ 0 < total (A.map ofGrid) ((c.1 : K), (c.2 : K)) := by
  unfold fullCells
  rw [List.mem_filter, decide_eq_true_eq, Finset.mem_toList, Finset.mem_product, Finset.mem_Ico, Finset.mem_Ioc]
  constructor
  · exact fun h => h.2
  · intro h
    refine ⟨?_, h⟩
    obtain ⟨Q, hQ, hw⟩ := total_ne_zero _ _ h.ne'
    obtain ⟨P, hP, rfl⟩ := List.mem_map.1 hQ
    obtain ⟨h1, h2, h3, h4⟩ := vertexBox_in hP hw
    simp only at h1 h2 h3 h4
    exact ⟨⟨by exact_mod_cast h1, by exact_mod_cast h2⟩, by exact_mod_cast h3, by exact_mod_cast h4⟩

theorem fullCells_nodup (A : List (List IPt)) : (fullCells K A).Nodup := List.Nodup.filter _ (Finset.nodup_toList _)

/-- The contours. -/
noncomputable def cellNodes (K : Type) [Field K] [LinearOrder K] (A : List (List IPt)) : List PolyNode :=
  (fullCells K A).map fun c => .mk (cell c) []

theorem cellNodes_within {A : List (List IPt)} (h : ∀ P ∈ A, Rectilinear P) (p : Pt K) :
    (∃ n ∈ cellNodes K A, Within n p) ↔ 0 < total (A.map ofGrid) p := by
  unfold cellNodes Within
  simp only [List.mem_map, exists_exists_and_eq_and, PolyNode.contour, cell_wind, mem_fullCells]
  rw [total_cell h p]
  constructor
  · rintro ⟨c, h1, h2⟩
    have : ⌊p.1⌋ = c.1 ∧ ⌈p.2⌉ = c.2 := by by_contra hc; rw [if_neg hc] at h2; exact h2 rfl
    rw [this.1, this.2]
    exact h1
  · intro h1
    exact ⟨(⌊p.1⌋, ⌈p.2⌉), h1, by simp⟩

theorem cellNodes_sign (A : List (List IPt)) (p : Pt K) : ∀ n ∈ cellNodes K A, Within n p → wind (ofGrid n.contour) p = 1 := by
  intro n hn hw
  obtain ⟨c, _, rfl⟩ := List.mem_map.1 hn
  unfold Within at hw
  simp only [PolyNode.contour, cell_wind] at hw ⊢
  by_cases h : ⌊p.1⌋ = c.1 ∧ ⌈p.2⌉ = c.2
  · rw [if_pos h]
  · rw [if_neg h] at hw
    exact absurd rfl hw

theorem cellNodes_apart (A : List (List IPt)) : (cellNodes K A).Pairwise fun a b => ∀ p : Pt K, ¬ (Within a p ∧ Within b p) := by
  unfold cellNodes
  rw [List.pairwise_map]
  refine (fullCells_nodup (K := K) A).imp ?_
  rintro a b hab p ⟨h1, h2⟩
  unfold Within at h1 h2
  simp only [PolyNode.contour, cell_wind] at h1 h2
  have g1 : ⌊p.1⌋ = a.1 ∧ ⌈p.2⌉ = a.2 := by by_contra hc; rw [if_neg hc] at h1; exact h1 rfl
  have g2 : ⌊p.1⌋ = b.1 ∧ ⌈p.2⌉ = b.2 := by by_contra hc; rw [if_neg hc] at h2; exact h2 rfl
  exact hab (Prod.ext (g1.1.symm.trans g2.1) (g1.2.symm.trans g2.2))

theorem cellNodes_leaf (A : List (List IPt)) : ∀ n ∈ cellNodes K A, n.childs = [] := by
  intro n hn
  obtain ⟨c, _, rfl⟩ := List.mem_map.1 hn
  rfl

theorem leaf_outer {l : List PolyNode} (h : ∀ n ∈ l, n.childs = []) (n : PolyNode) : Outer l n ↔ n ∈ l := by
  rw [outer_iff]
  constructor
  · rintro ⟨m, hm, rfl | ⟨k, hk, -⟩⟩
    · exact hm
    · rw [h m hm] at hk
      simp at hk
  · exact fun hn => ⟨n, hn, Or.inl rfl⟩

theorem cellNodes_sound {A : List (List IPt)} (h : ∀ P ∈ A, Rectilinear P) : Sound K (cellNodes K A) ∧
    ∀ p : Pt K, Filled (cellNodes K A) p ↔ 0 < total (A.map ofGrid) p := by
  have hleaf := cellNodes_leaf (K := K) A
  have hnw : ∀ n ∈ cellNodes K A, ∀ p : Pt K, nodeWind n p = wind (ofGrid n.contour) p := by
    intro n hn p
    unfold nodeWind holesOf
    rw [hleaf n hn]
    simp [total]
  refine ⟨⟨?_, ?_, ?_⟩, fun p => ?_⟩
  · intro n hn
    rw [leaf_outer hleaf] at hn
    obtain ⟨c, hc, e⟩ := List.mem_map.1 hn
    refine ⟨((c.1 : K), (c.2 : K)), ?_⟩
    rw [hnw n hn, ← e]
    simp [PolyNode.contour, cell_wind]
  · intro n hn
    rw [leaf_outer hleaf] at hn
    unfold holesOf
    rw [hleaf n hn]
    obtain ⟨c, hc, rfl⟩ := List.mem_map.1 hn
    exact ⟨cell_rect c, by simp⟩
  · intro n hn
    rw [leaf_outer hleaf] at hn
    unfold holesOf
    rw [hleaf n hn]
    exact ⟨by simp, by simp, by simp⟩
  · rw [← cellNodes_within h]
    unfold Filled
    refine exists_congr fun n => ?_
    rw [leaf_outer hleaf]
    refine and_congr_right fun hn => ?_
    rw [hnw n hn]
    rfl

/-- Class `Clipper` in terms of cells. -/
noncomputable def cellEngine (K : Type) [Field K] [LinearOrder K] : UnionEngine where
  tree neg A := if neg then [.mk (A.getLastD []) (cellNodes K A.dropLast)] else cellNodes K A
  flat neg A := if neg then A.getLastD [] :: (fullCells K A.dropLast).map cell else (fullCells K A).map cell
  bounds := vertexBox

/-- The assumptions of the theorems on class `Clipper` can be met. -/
theorem exact_union_exists : ExactUnion K (cellEngine K) where
  bounds A := by
    obtain ⟨h1, h2, -⟩ := vertexBox_spec A
    refine ⟨h1, h2, fun P hP p hw => ?_⟩
    obtain ⟨g1, g2, g3, g4⟩ := vertexBox_in hP hw
    exact ⟨g1, g2.le, g3.le, g4⟩
  positive A h := cellNodes_sound h
  negative A b h hA := by
    have hpos : ∀ p : Pt K, (∃ n ∈ cellNodes K A, Within n p) → wind (ofGrid (clockwise b)) p = -1 := by
      intro p hn
      obtain ⟨Q, hQ, hw⟩ := total_ne_zero _ _ ((cellNodes_within h p).1 hn).ne'
      obtain ⟨P, hP, rfl⟩ := List.mem_map.1 hQ
      obtain ⟨g1, g2, g3, g4⟩ := hA.2.2 P hP p hw
      rw [clockwise_wind b hA.1 hA.2.1, if_pos ⟨by linarith, by linarith, by linarith, by linarith⟩]
    have hleaf := cellNodes_leaf (K := K) A
    have hnest : Nested K (-1) [.mk (clockwise b) (cellNodes K A)] := by
      have hout : ∀ n, Outer [.mk (clockwise b) (cellNodes K A)] n → n = .mk (clockwise b) (cellNodes K A) := by
        intro n hn
        obtain ⟨m, hm, h1 | ⟨k, hk, h1⟩⟩ := (outer_iff _ n).1 hn
        · rw [List.mem_singleton] at hm
          rw [h1, hm]
        · rw [List.mem_singleton] at hm
          subst hm
          rw [hleaf k hk] at h1
          obtain ⟨x, hx, -⟩ := (outer_iff _ n).1 h1
          simp at hx
      have hnode : ∀ n, Node [.mk (clockwise b) (cellNodes K A)] n → n = .mk (clockwise b) (cellNodes K A) ∨ n ∈ cellNodes K A := by
        intro n hn
        induction hn with
        | top hn => exact Or.inl (List.mem_singleton.1 hn)
        | child _ hm ih =>
          rcases ih with rfl | ih
          · exact Or.inr hm
          · rw [hleaf _ ih] at hm
            simp at hm
      refine ⟨?_, ?_, ?_, by simp⟩
      · intro n hn
        rw [hout n hn]
        refine ⟨fun p hp => ?_, fun m hm p hp => ?_⟩
        · unfold Within at hp
          simp only [PolyNode.contour] at hp ⊢
          rw [clockwise_wind b hA.1 hA.2.1] at hp ⊢
          split at hp
          · rename_i hc; rw [if_pos hc]
          · exact absurd rfl hp
        · rw [cellNodes_sign A p m hm hp]; rfl
      · intro n hn m hm p hp
        rcases hnode n hn with rfl | hn'
        · unfold Within
          simp only [PolyNode.contour]
          rw [hpos p ⟨m, hm, hp⟩]
          decide
        · rw [hleaf _ hn'] at hm
          simp at hm
      · intro n hn
        rcases hnode n hn with rfl | hn'
        · exact cellNodes_apart A
        · rw [hleaf _ hn']
          simp
    refine ⟨clockwise b, cellNodes K A, by simp [cellEngine], fun p => Iff.rfl, hnest, (cellNodes_sound h).1, fun p => ?_⟩
    rw [filled_iff]
    have hw := hnest.nodeWind_iff (by norm_num) (n := .mk (clockwise b) (cellNodes K A)) (by simp) p
    have h0 : ¬ ∃ k ∈ cellNodes K A, Filled k.childs p := by
      rintro ⟨k, hk, hf⟩
      rw [hleaf k hk] at hf
      obtain ⟨n, hn, -⟩ := hf
      obtain ⟨x, hx, -⟩ := (outer_iff _ n).1 hn
      simp at hx
    have e : (∃ m ∈ [PolyNode.mk (clockwise b) (cellNodes K A)], nodeWind m p ≠ 0 ∨ ∃ k ∈ m.childs, Filled k.childs p) ↔
        nodeWind (.mk (clockwise b) (cellNodes K A)) p ≠ 0 := by
      simp only [List.mem_singleton, exists_eq_left, PolyNode.childs]
      exact or_iff_left h0
    rw [e, hw, List.map_append, List.map_singleton, total_app, total_cons]
    have hz : total ([] : List (Pgon K)) p = 0 := rfl
    rw [hz]
    have hc := cellNodes_within h p
    have hcw := clockwise_wind b hA.1 hA.2.1 p
    have hc' : (∀ m ∈ (PolyNode.mk (clockwise b) (cellNodes K A)).childs, ¬ Within m p) ↔ ¬ 0 < total (A.map ofGrid) p := by
      rw [← hc]
      push Not
      rfl
    rw [hc']
    unfold Within
    simp only [PolyNode.contour]
    by_cases hin : (b.x0 : K) ≤ p.1 ∧ p.1 < b.x1 ∧ (b.y0 : K) < p.2 ∧ p.2 ≤ b.y1
    · rw [hcw, if_pos hin]
      constructor
      · rintro ⟨-, h⟩; omega
      · intro h; exact ⟨by decide, by omega⟩
    · rw [hcw, if_neg hin]
      have : total (A.map ofGrid) p = 0 := by
        by_contra hne
        obtain ⟨Q, hQ, hw⟩ := total_ne_zero _ _ hne
        obtain ⟨P, hP, rfl⟩ := List.mem_map.1 hQ
        obtain ⟨g1, g2, g3, g4⟩ := hA.2.2 P hP p hw
        exact hin ⟨by linarith, by linarith, by linarith, by linarith⟩
      rw [this]
      simp

end

end Gdspy
