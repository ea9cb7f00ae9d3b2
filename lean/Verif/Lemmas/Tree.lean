import Verif.Spec.Offset
import Verif.Props.C69

/-!
Trees of nested contours.
-/

set_option linter.unusedSectionVars false

namespace Gdspy

open Spec

variable {K : Type} [Field K] [LinearOrder K] [IsStrictOrderedRing K]

/-- The nodes that are no holes, from the top. -/
theorem outer_iff (l : List PolyNode) (n : PolyNode) : Outer l n ↔ ∃ m ∈ l, n = m ∨ ∃ h ∈ m.childs, Outer h.childs n := by
  constructor
  · intro h
    induction h with
    | top h => exact ⟨_, h, Or.inl rfl⟩
    | @inner n h m _ h1 h2 ih =>
      obtain ⟨k, hk, h3⟩ := ih
      refine ⟨k, hk, Or.inr ?_⟩
      rcases h3 with rfl | ⟨h', h4, h5⟩
      · exact ⟨h, h1, .top h2⟩
      · exact ⟨h', h4, .inner h5 h1 h2⟩
  · rintro ⟨m, hm, rfl | ⟨h, h1, h2⟩⟩
    · exact .top hm
    · induction h2 with
      | top h2 => exact .inner (.top hm) h1 h2
      | inner _ h3 h4 ih => exact .inner ih h3 h4

theorem node_iff (l : List PolyNode) (n : PolyNode) : Node l n ↔ ∃ m ∈ l, n = m ∨ Node m.childs n := by
  constructor
  · intro h
    induction h with
    | top h => exact ⟨_, h, Or.inl rfl⟩
    | child _ h1 ih =>
      obtain ⟨k, hk, h3⟩ := ih
      refine ⟨k, hk, Or.inr ?_⟩
      rcases h3 with rfl | h3
      · exact .top h1
      · exact .child h3 h1
  · rintro ⟨m, hm, rfl | h⟩
    · exact .top hm
    · induction h with
      | top h => exact .child (.top hm) h
      | child _ h1 ih => exact .child ih h1

theorem outer_node {l : List PolyNode} {n : PolyNode} (h : Outer l n) : Node l n := by
  induction h with
  | top h => exact .top h
  | inner _ h1 h2 ih => exact .child (.child ih h1) h2

/-- The holes of a nested tree, with what is in them, are a nested tree. -/
theorem Spec.Nested.childs {s : Int} {l : List PolyNode} (h : Nested K s l) {m : PolyNode} (hm : m ∈ l) : Nested K (-s) m.childs := by
  have up : ∀ n, Node m.childs n → Node l n := fun n hn => (node_iff l n).2 ⟨m, hm, Or.inr hn⟩
  refine ⟨?_, fun n hn => h.inside n (up n hn), fun n hn => h.siblings n (up n hn), h.siblings m (.top hm)⟩
  have key : ∀ n, Outer m.childs n → ∃ k, Outer l k ∧ n ∈ k.childs := by
    intro n hn
    induction hn with
    | top hn => exact ⟨m, .top hm, hn⟩
    | inner _ h1 h2 ih =>
      obtain ⟨k, h3, h4⟩ := ih
      exact ⟨_, .inner h3 h4 h1, h2⟩
  intro n hn
  obtain ⟨k, h1, h2⟩ := key n hn
  refine ⟨(h.sign k h1).2 n h2, fun x hx => ?_⟩
  rw [neg_neg]
  exact (h.sign x (.inner h1 h2 hx)).1

theorem Spec.Nested.in_top {s : Int} {l : List PolyNode} (h : Nested K s l) {m n : PolyNode} (hm : m ∈ l) (hn : Node m.childs n) (p : Pt K)
    (hp : Within n p) : Within m p := by
  induction hn with
  | top hn => exact h.inside m (.top hm) _ hn p hp
  | @child n k hk h1 ih => exact ih (h.inside n ((node_iff l n).2 ⟨m, hm, Or.inr hk⟩) _ h1 p hp)

theorem total_apart (s : Int) (l : List PolyNode) (p : Pt K) (hs : ∀ n ∈ l, Within n p → wind (ofGrid n.contour) p = s)
    (ha : l.Pairwise fun a b => ¬ (Within a p ∧ Within b p)) :
    total ((l.map PolyNode.contour).map ofGrid) p = s ∨ (total ((l.map PolyNode.contour).map ofGrid) p = 0 ∧ ∀ n ∈ l, ¬ Within n p) := by
  induction l with
  | nil => right; simp [total]
  | cons n l ih =>
    rw [List.pairwise_cons] at ha
    have e : total (((n :: l).map PolyNode.contour).map ofGrid) p = wind (ofGrid n.contour) p +
        total ((l.map PolyNode.contour).map ofGrid) p := by simp [total]
    rw [e]
    by_cases hn : Within n p
    · left
      have h0 : ∀ m ∈ l, ¬ Within m p := fun m hm hp => ha.1 m hm ⟨hn, hp⟩
      have : total ((l.map PolyNode.contour).map ofGrid) p = 0 := by
        unfold total
        apply List.sum_eq_zero
        intro x hx
        simp only [List.mem_map, exists_exists_and_eq_and] at hx
        obtain ⟨m, hm, rfl⟩ := hx
        by_contra h
        exact h0 m hm h
      rw [this, hs n (by simp) hn]; simp
    · have h1 : wind (ofGrid n.contour) p = 0 := by by_contra h; exact hn h
      rw [h1, zero_add]
      rcases ih (fun m hm => hs m (List.mem_cons_of_mem _ hm)) ha.2 with h2 | ⟨h2, h3⟩
      · exact Or.inl h2
      · refine Or.inr ⟨h2, ?_⟩
        intro m hm
        rcases List.mem_cons.1 hm with rfl | hm
        · exact hn
        · exact h3 m hm

/-- A node with its holes has the points inside of its contour and of none of the holes. -/
theorem Spec.Nested.nodeWind_iff {s : Int} (hs : s ≠ 0) {l : List PolyNode} (h : Nested K s l) {n : PolyNode} (hn : n ∈ l) (p : Pt K) :
    nodeWind n p ≠ 0 ↔ Within n p ∧ ∀ m ∈ n.childs, ¬ Within m p := by
  have h1 := h.sign n (.top hn)
  have h2 := total_apart (-s) n.childs p (fun m hm => h1.2 m hm p)
    ((h.siblings n (.top hn)).imp fun h => h p)
  unfold nodeWind holesOf
  by_cases hp : Within n p
  · rw [h1.1 p hp]
    rcases h2 with h2 | ⟨h2, h3⟩
    · rw [h2]
      simp only [add_neg_cancel, ne_eq, not_true_eq_false, false_iff, not_and, not_forall, not_not]
      intro _
      by_contra hc
      have : ∀ m ∈ n.childs, ¬ Within m p := fun m hm hw => hc ⟨m, hm, hw⟩
      have h0 : total ((n.childs.map PolyNode.contour).map ofGrid) p = 0 := by
        unfold total
        apply List.sum_eq_zero
        intro x hx
        simp only [List.mem_map, exists_exists_and_eq_and] at hx
        obtain ⟨m, hm, rfl⟩ := hx
        by_contra h
        exact this m hm h
      omega
    · rw [h2]; simp only [add_zero]; exact ⟨fun _ => ⟨hp, h3⟩, fun _ => hs⟩
  · have h4 : ∀ m ∈ n.childs, ¬ Within m p := fun m hm hw => hp (h.inside n (.top hn) m hm p hw)
    have h5 : wind (ofGrid n.contour) p = 0 := by by_contra h; exact hp h
    have h0 : total ((n.childs.map PolyNode.contour).map ofGrid) p = 0 := by
      unfold total
      apply List.sum_eq_zero
      intro x hx
      simp only [List.mem_map, exists_exists_and_eq_and] at hx
      obtain ⟨m, hm, rfl⟩ := hx
      by_contra h
      exact h4 m hm h
    rw [h5, h0]
    simp [hp]

theorem filled_iff (l : List PolyNode) (p : Pt K) :
    Filled l p ↔ ∃ m ∈ l, nodeWind m p ≠ 0 ∨ ∃ h ∈ m.childs, Filled h.childs p := by
  unfold Filled
  constructor
  · rintro ⟨n, h1, h2⟩
    obtain ⟨m, hm, rfl | ⟨h, h3, h4⟩⟩ := (outer_iff l n).1 h1
    · exact ⟨_, hm, Or.inl h2⟩
    · exact ⟨m, hm, Or.inr ⟨h, h3, n, h4, h2⟩⟩
  · rintro ⟨m, hm, h2 | ⟨h, h3, n, h4, h2⟩⟩
    · exact ⟨m, .top hm, h2⟩
    · exact ⟨n, (outer_iff l n).2 ⟨m, hm, Or.inr ⟨h, h3, h4⟩⟩, h2⟩

theorem node_within {s : Int} {l : List PolyNode} (h : Nested K s l) {n : PolyNode} (hn : Node l n) {p : Pt K}
    (hp : nodeWind n p ≠ 0) : Within n p := by
  by_contra hw
  apply hp
  have h5 : wind (ofGrid n.contour) p = 0 := by by_contra h; exact hw h
  unfold nodeWind holesOf
  rw [h5, zero_add]
  unfold total
  apply List.sum_eq_zero
  intro x hx
  simp only [List.mem_map, exists_exists_and_eq_and] at hx
  obtain ⟨m, hm, rfl⟩ := hx
  by_contra hc
  exact hw (h.inside n hn m hm p hc)

theorem filled_within {s : Int} {l : List PolyNode} (h : Nested K s l) {m : PolyNode} (hm : m ∈ l) {p : Pt K}
    (hp : Filled m.childs p) : Within m p := by
  obtain ⟨n, h1, h2⟩ := hp
  have h3 := outer_node h1
  exact h.in_top hm h3 p (node_within h ((node_iff l n).2 ⟨m, hm, Or.inr h3⟩) h2)

theorem pairwise_mem {α : Type} {R : α → α → Prop} {l : List α} (h : l.Pairwise R) {a b : α} (ha : a ∈ l) (hb : b ∈ l) :
    a = b ∨ R a b ∨ R b a := by
  induction l with
  | nil => simp at ha
  | cons x l ih =>
    rw [List.pairwise_cons] at h
    rcases List.mem_cons.1 ha with h1 | h1 <;> rcases List.mem_cons.1 hb with h2 | h2
    · exact Or.inl (h1.trans h2.symm)
    · exact Or.inr (Or.inl (h1 ▸ h.1 b h2))
    · exact Or.inr (Or.inr (h2 ▸ h.1 a h1))
    · exact ih h.2 h1 h2

theorem sizeOf_child {m k : PolyNode} (h : k ∈ m.childs) : sizeOf k < sizeOf m := by
  obtain ⟨c, l⟩ := m
  have := List.sizeOf_lt_of_mem (show k ∈ l from h)
  simp only [PolyNode.mk.sizeOf_spec]
  omega

/-- The holes of a contour, with what is in them, have the points inside of the contour that the contour with its holes has not. -/
theorem filled_childs (N : Nat) {s : Int} (hs : s ≠ 0) (l : List PolyNode) (h : Nested K s l) {m : PolyNode} (hm : m ∈ l)
    (hN : sizeOf m < N) (p : Pt K) :
    Filled m.childs p ↔ Within m p ∧ ¬ (nodeWind m p ≠ 0 ∨ ∃ h ∈ m.childs, Filled h.childs p) := by
  induction N generalizing s l m with
  | zero => omega
  | succ N ih =>
    have hc := h.childs hm
    by_cases hp : Within m p
    · have hw := h.nodeWind_iff hs hm p
      have only : ∀ k ∈ m.childs, (nodeWind k p ≠ 0 ∨ ∃ h ∈ k.childs, Filled h.childs p) → Within k p := by
        rintro k hk (h1 | ⟨g, h1, h2⟩)
        · exact node_within hc (.top hk) h1
        · exact hc.inside k (.top hk) g h1 p (filled_within (hc.childs hk) h1 h2)
      by_cases hk : ∃ k ∈ m.childs, Within k p
      · obtain ⟨k, hk, hkp⟩ := hk
        have uniq : ∀ j ∈ m.childs, Within j p → j = k := by
          intro j hj hjp
          by_contra hne
          have hsym : m.childs.Pairwise (fun a b => ¬ (Within a p ∧ Within b p)) := (h.siblings m (.top hm)).imp fun h => h p
          rcases pairwise_mem hsym hj hk with rfl | h1 | h1
          · exact hne rfl
          · exact h1 ⟨hjp, hkp⟩
          · exact h1 ⟨hkp, hjp⟩
        have h1 : Filled m.childs p ↔ (nodeWind k p ≠ 0 ∨ ∃ h ∈ k.childs, Filled h.childs p) := by
          rw [filled_iff]
          constructor
          · rintro ⟨j, hj, hx⟩
            rw [← uniq j hj (only j hj hx)]
            exact hx
          · exact fun hx => ⟨k, hk, hx⟩
        have h2 : (nodeWind m p ≠ 0 ∨ ∃ h ∈ m.childs, Filled h.childs p) ↔ Filled k.childs p := by
          constructor
          · rintro (h3 | ⟨j, hj, h3⟩)
            · exact absurd hkp ((hw.1 h3).2 k hk)
            · rw [← uniq j hj (filled_within hc hj h3)]
              exact h3
          · exact fun h3 => Or.inr ⟨k, hk, h3⟩
        have h3 := ih (neg_ne_zero.2 hs) m.childs hc hk (by have := sizeOf_child hk; omega)
        rw [h1, h2, h3]
        simp only [hp, hkp, true_and, not_not]
      · have hk' : ∀ k ∈ m.childs, ¬ Within k p := fun k h1 h2 => hk ⟨k, h1, h2⟩
        have h1 : ¬ Filled m.childs p := by
          rw [filled_iff]
          rintro ⟨k, h1, h2⟩
          exact hk' k h1 (only k h1 h2)
        simp only [h1, hp, true_and, false_iff, not_not]
        exact Or.inl (hw.2 ⟨hp, hk'⟩)
    · have : ¬ Filled m.childs p := fun hf => hp (filled_within h hm hf)
      simp [this, hp]

/-- If the frame is the only node at the top, what is in it has the points inside of the frame that are not filled. -/
theorem filled_frame {s : Int} (hs : s ≠ 0) {c : List IPt} {l : List PolyNode} (h : Nested K s [.mk c l]) (p : Pt K) :
    Filled l p ↔ wind (ofGrid c) p ≠ 0 ∧ ¬ Filled [.mk c l] p := by
  have := filled_childs _ hs [.mk c l] h (m := .mk c l) (by simp) (Nat.lt_succ_self _) p
  rw [filled_iff [PolyNode.mk c l] p]
  simpa [PolyNode.childs, Within, PolyNode.contour] using this

end Gdspy
