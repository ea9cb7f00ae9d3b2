import Mathlib.Tactic.LinearCombination
import Verif.Lemmas.Struct
import Verif.Props.C54

/-!
C52: `inside`. The specification of the point test is geometric: a point is in a polygon if it lies on the
outline, or if the half-line from it to the right crosses the outline an odd number of times.
-/

set_option linter.unusedSectionVars false

namespace Gdspy

open Gdspy.Spec

variable {K : Type} [Field K] [LinearOrder K] [IsStrictOrderedRing K]

/-- A point with integer coordinates. -/
def Spec.gpt (v : Int × Int) : Pt K := ((v.1 : K), (v.2 : K))

/-- `p` is on the outline of `P` or surrounded by it (even-odd rule). -/
def Spec.Inside (P : Pgon K) (p : Pt K) : Prop := OnOutline P p ∨ crossings P p % 2 = 1

/-! ### One edge -/

/-- Twice the signed area of the triangle from `P` over the edge. -/
def pipD (P A B : IPt) : Int := (A.1 - P.1) * (B.2 - P.2) - (B.1 - P.1) * (A.2 - P.2)

theorem xAt_pipD (P A B : IPt) (h : A.2 ≠ B.2) :
    xAt (gpt A : Pt K) (gpt B) (P.2 : K) - P.1 = (pipD P A B : K) / ((B.2 : K) - A.2) := by
  have : (B.2 : K) - A.2 ≠ 0 := by
    rw [sub_ne_zero]; exact_mod_cast h.symm
  unfold xAt pipD gpt
  push_cast
  field_simp
  ring

theorem crossUp_iff (P A B : IPt) :
    CrossUp (gpt P : Pt K) (gpt A) (gpt B) ↔ A.2 < P.2 ∧ P.2 ≤ B.2 ∧ 0 < pipD P A B := by
  unfold CrossUp
  have e1 : (gpt A : Pt K).2 < (gpt P : Pt K).2 ↔ A.2 < P.2 := by simp [gpt]
  have e2 : (gpt P : Pt K).2 ≤ (gpt B : Pt K).2 ↔ P.2 ≤ B.2 := by simp [gpt]
  rw [e1, e2]
  refine and_congr_right fun h1 => and_congr_right fun h2 => ?_
  have hp : (0 : K) < (B.2 : K) - A.2 := by
    rw [sub_pos]; exact_mod_cast h1.trans_le h2
  rw [← sub_pos]
  show 0 < xAt (gpt A : Pt K) (gpt B) (P.2 : K) - P.1 ↔ _
  rw [xAt_pipD P A B (h1.trans_le h2).ne, div_pos_iff_of_pos_right hp, Int.cast_pos]

theorem crossDown_iff (P A B : IPt) :
    CrossDown (gpt P : Pt K) (gpt A) (gpt B) ↔ B.2 < P.2 ∧ P.2 ≤ A.2 ∧ pipD P A B < 0 := by
  rw [crossDown_swap, crossUp_iff]
  have : pipD P B A = - pipD P A B := by unfold pipD; ring
  rw [this]
  constructor
  · rintro ⟨h1, h2, h3⟩; exact ⟨h1, h2, by omega⟩
  · rintro ⟨h1, h2, h3⟩; exact ⟨h1, h2, by omega⟩

theorem onSegment_iff (P A B : IPt) :
    OnSegment (gpt P : Pt K) (gpt A) (gpt B) ↔
      pipD P A B = 0 ∧ min A.1 B.1 ≤ P.1 ∧ P.1 ≤ max A.1 B.1 ∧ min A.2 B.2 ≤ P.2 ∧ P.2 ≤ max A.2 B.2 := by
  unfold OnSegment gpt
  simp only
  constructor
  · rintro ⟨s, h0, h1, hx, hy⟩
    have hd : ((pipD P A B : Int) : K) = 0 := by
      unfold pipD
      push_cast
      rw [hx, hy]
      ring
    have bound : ∀ a b c : Int, (c : K) = a + s * (b - a) → min a b ≤ c ∧ c ≤ max a b := by
      intro a b c hc
      have k1 : ((min a b : Int) : K) ≤ c := by
        rw [Int.cast_min, hc]
        rcases le_total (a : K) b with hab | hab
        · rw [min_eq_left hab]; nlinarith [mul_nonneg h0 (sub_nonneg.2 hab)]
        · rw [min_eq_right hab]; nlinarith [mul_nonneg (sub_nonneg.2 h1) (sub_nonneg.2 hab)]
      have k2 : (c : K) ≤ ((max a b : Int) : K) := by
        rw [Int.cast_max, hc]
        rcases le_total (a : K) b with hab | hab
        · rw [max_eq_right hab]; nlinarith [mul_nonneg (sub_nonneg.2 h1) (sub_nonneg.2 hab)]
        · rw [max_eq_left hab]; nlinarith [mul_nonneg h0 (sub_nonneg.2 hab)]
      exact ⟨by exact_mod_cast k1, by exact_mod_cast k2⟩
    exact ⟨by exact_mod_cast hd, (bound _ _ _ hx).1, (bound _ _ _ hx).2, (bound _ _ _ hy).1, (bound _ _ _ hy).2⟩
  · rintro ⟨hd, hx0, hx1, hy0, hy1⟩
    have hd' : ((A.1 : K) - P.1) * (B.2 - P.2) - (B.1 - P.1) * (A.2 - P.2) = 0 := by
      have : ((pipD P A B : Int) : K) = 0 := by rw [hd]; simp
      unfold pipD at this
      push_cast at this
      exact this
    have unit : ∀ a b c : Int, a ≠ b → min a b ≤ c → c ≤ max a b →
        0 ≤ ((c : K) - a) / (b - a) ∧ ((c : K) - a) / (b - a) ≤ 1 := by
      intro a b c hab h0 h1
      rcases lt_or_gt_of_ne hab with h | h
      · have p : (0 : K) < (b : K) - a := by rw [sub_pos]; exact_mod_cast h
        have q0 : (a : K) ≤ c := by exact_mod_cast (by omega : a ≤ c)
        have q1 : (c : K) ≤ b := by exact_mod_cast (by omega : c ≤ b)
        exact ⟨div_nonneg (sub_nonneg.2 q0) p.le, (div_le_one p).2 (by linarith)⟩
      · have p : (b : K) - a < 0 := by rw [sub_neg]; exact_mod_cast h
        have q0 : (c : K) ≤ a := by exact_mod_cast (by omega : c ≤ a)
        have q1 : (b : K) ≤ c := by exact_mod_cast (by omega : b ≤ c)
        exact ⟨div_nonneg_of_nonpos (sub_nonpos.2 q0) p.le, (div_le_one_of_neg p).2 (by linarith)⟩
    by_cases hy : A.2 = B.2
    · by_cases hx : A.1 = B.1
      · refine ⟨0, le_refl _, zero_le_one, ?_, ?_⟩
        · rw [show P.1 = A.1 by omega]; ring
        · rw [show P.2 = A.2 by omega]; ring
      · have hne : (B.1 : K) - A.1 ≠ 0 := by rw [sub_ne_zero]; exact_mod_cast (Ne.symm hx)
        refine ⟨((P.1 : K) - A.1) / (B.1 - A.1), (unit _ _ _ hx hx0 hx1).1, (unit _ _ _ hx hx0 hx1).2, ?_, ?_⟩
        · field_simp; ring
        · rw [show P.2 = A.2 by omega, show B.2 = A.2 by omega]; ring
    · have hne : (B.2 : K) - A.2 ≠ 0 := by rw [sub_ne_zero]; exact_mod_cast (Ne.symm hy)
      refine ⟨((P.2 : K) - A.2) / (B.2 - A.2), (unit _ _ _ hy hy0 hy1).1, (unit _ _ _ hy hy0 hy1).2, ?_, ?_⟩
      · field_simp
        linear_combination -hd'
      · field_simp; ring

/-- The answers of the loop body: on the edge, or crossed by the half-line, or neither. -/
theorem pipEdge_none (P A B : IPt) (h : pipEdge P A B = none) : OnSegment (gpt P : Pt K) (gpt A) (gpt B) := by
  rw [onSegment_iff]
  unfold pipEdge at h
  split at h
  · rename_i hc
    obtain ⟨h2, h1 | ⟨ha, hb⟩⟩ := hc
    · unfold pipD
      rw [h2, h1]
      refine ⟨by ring, ?_⟩
      omega
    · have hx : (B.1 > P.1 ↔ A.1 < P.1) := by simpa using hb
      unfold pipD
      rw [h2, ha]
      refine ⟨by ring, ?_⟩
      omega
  · split at h
    · rename_i hn hcr
      have hy : (A.2 < P.2 ∧ P.2 ≤ B.2) ∨ (B.2 < P.2 ∧ P.2 ≤ A.2) := by
        by_cases h1 : A.2 < P.2 <;> by_cases h2 : B.2 < P.2 <;> simp [h1, h2] at hcr <;> omega
      simp only at h
      have hd : pipD P A B = 0 ∧ (min A.1 B.1 ≤ P.1 ∧ P.1 ≤ max A.1 B.1) := by
        unfold pipD
        split at h
        · split at h
          · simp at h
          · split at h
            · rename_i hd; exact ⟨hd, by omega⟩
            · simp at h
        · split at h
          · split at h
            · rename_i hd; exact ⟨hd, by omega⟩
            · simp at h
          · simp at h
      refine ⟨hd.1, hd.2.1, hd.2.2, ?_⟩
      omega
    · simp at h

theorem pipEdge_next (P A : IPt) : pipEdge P A P = none := by
  simp [pipEdge]

theorem pipEdge_some (P A B : IPt) (t : Bool) (h : pipEdge P A B = some t) (hA : P ≠ A) :
    ¬ OnSegment (gpt P : Pt K) (gpt A) (gpt B) ∧
    (t = true ↔ CrossUp (gpt P : Pt K) (gpt A) (gpt B) ∨ CrossDown (gpt P : Pt K) (gpt A) (gpt B)) := by
  rw [onSegment_iff, crossUp_iff, crossDown_iff]
  have hA' : P.1 = A.1 → P.2 ≠ A.2 := fun h1 h2 => hA (Prod.ext h1 h2)
  unfold pipEdge at h
  split at h
  · simp at h
  · rename_i hc
    split at h
    · rename_i hcr
      have hy : (A.2 < P.2 ∧ P.2 ≤ B.2) ∨ (B.2 < P.2 ∧ P.2 ≤ A.2) := by
        by_cases h1 : A.2 < P.2 <;> by_cases h2 : B.2 < P.2 <;> simp [h1, h2] at hcr <;> omega
      simp only at h
      have key : ∀ s : Bool, t = s → (s = true ↔ A.2 < P.2 ∧ P.2 ≤ B.2 ∧ 0 < pipD P A B ∨
          B.2 < P.2 ∧ P.2 ≤ A.2 ∧ pipD P A B < 0) → pipD P A B ≠ 0 →
          ¬ (pipD P A B = 0 ∧ min A.1 B.1 ≤ P.1 ∧ P.1 ≤ max A.1 B.1 ∧ min A.2 B.2 ≤ P.2 ∧ P.2 ≤ max A.2 B.2) ∧
          (t = true ↔ A.2 < P.2 ∧ P.2 ≤ B.2 ∧ 0 < pipD P A B ∨ B.2 < P.2 ∧ P.2 ≤ A.2 ∧ pipD P A B < 0) := by
        intro s hs h1 h2
        exact ⟨fun q => h2 q.1, by rw [hs]; exact h1⟩
      have dlogic : ∀ d : Int, d = pipD P A B → ¬ d = 0 →
          (decide (decide (d > 0) = decide (B.2 > A.2)) = true ↔ A.2 < P.2 ∧ P.2 ≤ B.2 ∧ 0 < pipD P A B ∨
            B.2 < P.2 ∧ P.2 ≤ A.2 ∧ pipD P A B < 0) := by
        intro d hd h0
        rw [← hd]
        by_cases h1 : d > 0 <;> by_cases h2 : B.2 > A.2 <;> simp [h1, h2] <;> omega
      split at h
      · rename_i h1
        split at h
        · rename_i h2
          have hD : (A.2 < P.2 → P.2 ≤ B.2 → 0 < pipD P A B) ∧ (B.2 < P.2 → P.2 ≤ A.2 → pipD P A B < 0) := by
            constructor
            · intro g1 g2
              have := mul_nonneg (sub_nonneg.2 h1) (sub_nonneg.2 g2)
              have := mul_pos (sub_pos.2 h2) (sub_pos.2 g1)
              unfold pipD
              linarith
            · intro g1 g2
              unfold pipD
              rcases eq_or_lt_of_le h1 with g | g
              · have g3 : P.2 < A.2 := lt_of_le_of_ne g2 (hA' g)
                have := mul_pos (sub_pos.2 h2) (sub_pos.2 g3)
                have e0 : A.1 - P.1 = 0 := by omega
                rw [e0]; linarith
              · have := mul_pos (sub_pos.2 g) (sub_pos.2 g1)
                have := mul_nonneg (sub_nonneg.2 h2.le) (sub_nonneg.2 g2)
                linarith
          rcases hy with g | g
          · have := hD.1 g.1 g.2
            exact key true (by simpa using h.symm) (by simp [g, this]) this.ne'
          · have := hD.2 g.1 g.2
            exact key true (by simpa using h.symm) (by simp [g, this]) this.ne
        · split at h
          · simp at h
          · rename_i hd
            exact key _ (Option.some.inj h).symm (dlogic _ rfl hd) hd
      · rename_i h1
        split at h
        · split at h
          · simp at h
          · rename_i hd
            exact key _ (Option.some.inj h).symm (dlogic _ rfl hd) hd
        · rename_i h2
          have h1' : A.1 < P.1 := not_le.1 h1
          have h2' : B.1 ≤ P.1 := not_lt.1 h2
          have ht : t = false := by simpa using h.symm
          rcases hy with g | g
          · have k1 := mul_nonneg (sub_nonneg.2 h1'.le) (sub_nonneg.2 g.2)
            have k2 := mul_nonneg (sub_nonneg.2 h2') (sub_nonneg.2 g.1.le)
            have hle : pipD P A B ≤ 0 := by unfold pipD; linarith
            refine ⟨?_, by rw [ht]; simp; omega⟩
            rintro ⟨q0, q1, q2, q3, q4⟩
            rcases eq_or_lt_of_le h2' with hb | hb
            · have hby : P.2 < B.2 := by
                refine lt_of_le_of_ne g.2 ?_
                intro hh
                exact hc ⟨hh.symm, Or.inl hb⟩
              have := mul_pos (sub_pos.2 h1') (sub_pos.2 hby)
              unfold pipD at q0
              linarith
            · have := mul_pos (sub_pos.2 hb) (sub_pos.2 g.1)
              unfold pipD at q0
              linarith
          · have k1 := mul_pos (sub_pos.2 h1') (sub_pos.2 g.1)
            have k2 := mul_nonneg (sub_nonneg.2 h2') (sub_nonneg.2 g.2)
            have hlt : 0 < pipD P A B := by unfold pipD; linarith
            exact ⟨fun q => hlt.ne' q.1, by rw [ht]; simp; omega⟩
    · rename_i hcr
      have hy : (A.2 < P.2 ∧ B.2 < P.2) ∨ (P.2 ≤ A.2 ∧ P.2 ≤ B.2) := by
        by_cases h1 : A.2 < P.2 <;> by_cases h2 : B.2 < P.2 <;> simp [h1, h2] at hcr <;> omega
      have ht : t = false := by simpa using h.symm
      refine ⟨?_, by rw [ht]; simp; omega⟩
      rintro ⟨q0, q1, q2, q3, q4⟩
      have hy2 : A.2 = P.2 ∨ B.2 = P.2 := by omega
      by_cases hB : B.2 = P.2
      · apply hc
        refine ⟨hB, ?_⟩
        by_cases hbx : B.1 = P.1
        · exact Or.inl hbx
        · right
          by_cases hA2 : A.2 = P.2
          · refine ⟨hA2, ?_⟩
            have hA1 : P.1 ≠ A.1 := fun h => hA' h hA2.symm
            by_cases g1 : B.1 > P.1 <;> by_cases g2 : A.1 < P.1 <;> simp [g1, g2] <;> omega
          · exfalso
            unfold pipD at q0
            rw [hB, sub_self, mul_zero, zero_sub, neg_eq_zero] at q0
            rcases mul_eq_zero.1 q0 with q | q
            · exact hbx (by omega)
            · exact hA2 (by omega)
      · have hA2 : A.2 = P.2 := by omega
        unfold pipD at q0
        rw [hA2, sub_self, mul_zero, sub_zero] at q0
        rcases mul_eq_zero.1 q0 with q | q
        · exact hA' (by omega) hA2.symm
        · exact hB (by omega)

/-! ### The loop -/

theorem pipLoop_none (P first : IPt) (r : Int) (ip : IPt) (l : List IPt)
    (h : ∃ e ∈ List.zip (ip :: l) (l ++ [first]), pipEdge P e.1 e.2 = none) :
    pipLoop P first r ip l = -1 := by
  induction l generalizing r ip with
  | nil =>
    obtain ⟨e, he, hn⟩ := h
    simp only [List.nil_append, List.zip_cons_cons, List.zip_nil_right, List.mem_singleton] at he
    subst he
    unfold pipLoop
    simp only at hn
    rw [hn]
  | cons v l ih =>
    obtain ⟨e, he, hn⟩ := h
    rw [List.cons_append, List.zip_cons_cons, List.mem_cons] at he
    unfold pipLoop
    rcases he with rfl | he
    · simp only at hn
      rw [hn]
    · cases hv : pipEdge P ip v with
      | none => rfl
      | some t => exact ih _ _ ⟨e, he, hn⟩

theorem pipLoop_some (P first : IPt) (r : Int) (ip : IPt) (l : List IPt) (hr : r = 0 ∨ r = 1)
    (h : ∀ e ∈ List.zip (ip :: l) (l ++ [first]), pipEdge P e.1 e.2 ≠ none) :
    pipLoop P first r ip l =
      (r + ((List.zip (ip :: l) (l ++ [first])).countP fun e => pipEdge P e.1 e.2 == some true : Nat)) % 2 := by
  induction l generalizing r ip with
  | nil =>
    have h0 := h (ip, first) (by simp)
    unfold pipLoop
    rw [List.nil_append, List.zip_cons_cons, List.zip_nil_right, List.countP_cons]
    cases hv : pipEdge P ip first with
    | none => exact absurd hv h0
    | some t =>
      rcases hr with rfl | rfl <;> cases t <;> simp
  | cons v l ih =>
    have h0 := h (ip, v) (by simp)
    unfold pipLoop
    rw [List.cons_append, List.zip_cons_cons, List.countP_cons]
    cases hv : pipEdge P ip v with
    | none => exact absurd hv h0
    | some t =>
      simp only
      rw [ih _ _ (by rcases hr with rfl | rfl <;> cases t <;> simp)
        (fun e he => h e (by rw [List.cons_append, List.zip_cons_cons]; exact List.mem_cons_of_mem _ he))]
      rcases hr with rfl | rfl <;> cases t <;> simp <;> omega

theorem onOutline_grid (path : List IPt) (P : IPt) :
    OnOutline (ofGrid path : Pgon K) (gpt P) ↔ ∃ e ∈ edges path, OnSegment (gpt P : Pt K) (gpt e.1) (gpt e.2) := by
  unfold OnOutline
  have : (ofGrid path : Pgon K) = path.map gpt := rfl
  rw [this, edges_map]
  simp only [List.mem_map]
  constructor
  · rintro ⟨e, ⟨e', h1, rfl⟩, h2⟩; exact ⟨e', h1, h2⟩
  · rintro ⟨e', h1, h2⟩; exact ⟨_, ⟨e', h1, rfl⟩, h2⟩

theorem exists_edge_to {α : Type} (l : List α) (v : α) (h : v ∈ l) : ∃ a, (a, v) ∈ edges l := by
  have h' : v ∈ l.rotate 1 := List.mem_rotate.2 h
  obtain ⟨i, hi, rfl⟩ := List.getElem_of_mem h'
  refine ⟨l[i]'(by simpa using hi), ?_⟩
  unfold edges
  rw [List.mem_iff_getElem]
  exact ⟨i, by simpa using hi, by simp⟩

/-- The return value of `PointInPolygon` for a polygon of at least three vertices. -/
theorem pip_spec (path : List IPt) (P : IPt) (h3 : 3 ≤ path.length) :
    (OnOutline (ofGrid path : Pgon K) (gpt P) → pointInPolygon P path = -1) ∧
    (¬ OnOutline (ofGrid path : Pgon K) (gpt P) →
      pointInPolygon P path = (crossings (ofGrid path : Pgon K) (gpt P) : Int) % 2) := by
  cases path with
  | nil => simp at h3
  | cons v r =>
    have hpip : pointInPolygon P (v :: r) = pipLoop P v 0 v r := by
      unfold pointInPolygon
      rw [if_neg (by omega)]
    rw [hpip, onOutline_grid]
    constructor
    · rintro ⟨e, he, hs⟩
      by_cases hn : pipEdge P e.1 e.2 = none
      · exact pipLoop_none _ _ _ _ _ ⟨e, by rwa [← edges_cons], hn⟩
      · obtain ⟨t, ht⟩ := Option.ne_none_iff_exists'.1 hn
        by_cases hA : P = e.1
        · obtain ⟨a, ha⟩ := exists_edge_to _ _ (mem_edges he).1
          refine pipLoop_none _ _ _ _ _ ⟨(a, e.1), by rwa [← edges_cons], ?_⟩
          rw [hA]
          exact pipEdge_next _ _
        · exact absurd hs (pipEdge_some (K := K) _ _ _ t ht hA).1
    · intro hno
      have hall : ∀ e ∈ edges (v :: r), pipEdge P e.1 e.2 ≠ none := by
        intro e he hn
        exact hno ⟨e, he, pipEdge_none _ _ _ hn⟩
      rw [pipLoop_some _ _ _ _ _ (Or.inl rfl) (by rw [← edges_cons]; exact hall), ← edges_cons, zero_add]
      congr 2
      unfold crossings
      have : (ofGrid (v :: r) : Pgon K) = (v :: r).map gpt := rfl
      rw [this, edges_map, List.countP_map]
      apply List.countP_congr
      intro e he
      obtain ⟨t, ht⟩ := Option.ne_none_iff_exists'.1 (hall e he)
      have hA : P ≠ e.1 := by
        intro hA
        obtain ⟨a, ha⟩ := exists_edge_to _ _ (mem_edges he).1
        apply hall _ ha
        rw [hA]
        exact pipEdge_next _ _
      rw [ht]
      simp only [Function.comp, Prod.map_fst, Prod.map_snd, Bool.or_eq_true, decide_eq_true_eq]
      rw [← (pipEdge_some (K := K) _ _ _ t ht hA).2]
      simp

/-- **C52**: the point test of the code is the geometric one, on the outline included. -/
theorem C52_point_in_polygon (path : List IPt) (P : IPt) (h3 : 3 ≤ path.length) :
    pointInPolygon P path ≠ 0 ↔ Inside (ofGrid path : Pgon K) (gpt P) := by
  obtain ⟨h1, h2⟩ := pip_spec (K := K) path P h3
  unfold Inside
  by_cases h : OnOutline (ofGrid path : Pgon K) (gpt P)
  · rw [h1 h]; simp [h]
  · rw [h2 h]
    simp only [h, false_or]
    omega

/-- **C52**: its three answers tell the outline, the inside and the outside apart. -/
theorem C52_answers (path : List IPt) (P : IPt) (h3 : 3 ≤ path.length) :
    (pointInPolygon P path = -1 ↔ OnOutline (ofGrid path : Pgon K) (gpt P)) ∧
    (pointInPolygon P path = 1 ↔ ¬ OnOutline (ofGrid path : Pgon K) (gpt P) ∧
      crossings (ofGrid path : Pgon K) (gpt P) % 2 = 1) := by
  obtain ⟨h1, h2⟩ := pip_spec (K := K) path P h3
  by_cases h : OnOutline (ofGrid path : Pgon K) (gpt P)
  · rw [h1 h]; simp [h]
  · rw [h2 h]
    refine ⟨⟨fun q => by omega, fun q => absurd q h⟩, ?_⟩
    simp only [h, not_false_eq_true, true_and]
    omega

/-! ### Direction and bounding boxes do not matter -/

theorem onSegment_swap (p a b : Pt K) : OnSegment p a b → OnSegment p b a := by
  rintro ⟨s, h0, h1, hx, hy⟩
  exact ⟨1 - s, by linarith, by linarith, by rw [hx]; ring, by rw [hy]; ring⟩

theorem inside_reverse (P : Pgon K) (p : Pt K) : Inside P.reverse p ↔ Inside P p := by
  have h1 : OnOutline P.reverse p ↔ OnOutline P p := by
    unfold OnOutline
    constructor
    · rintro ⟨e, he, hs⟩
      have := (edges_reverse_perm P).mem_iff.1 he
      obtain ⟨e', h', rfl⟩ := List.mem_map.1 this
      exact ⟨e', h', onSegment_swap _ _ _ hs⟩
    · rintro ⟨e, he, hs⟩
      exact ⟨e.swap, (edges_reverse_perm P).mem_iff.2 (List.mem_map_of_mem he), onSegment_swap _ _ _ hs⟩
  have h2 : crossings P.reverse p = crossings P p := by
    unfold crossings
    rw [(edges_reverse_perm P).countP_eq, List.countP_map]
    apply List.countP_congr
    intro e _
    simp only [Function.comp, Prod.fst_swap, Prod.snd_swap, Bool.or_eq_true, decide_eq_true_eq,
      crossDown_swap]
    exact or_comm
  unfold Inside
  rw [h1, h2]

theorem grow_spec (b : IBox) (v : IPt) :
    b.grow v = ⟨min b.x0 v.1, max b.x1 v.1, min b.y0 v.2, max b.y1 v.2⟩ := by
  unfold IBox.grow
  congr 1
  · split <;> omega
  · split <;> omega
  · split <;> omega
  · split <;> omega

theorem foldl_grow (l : List IPt) (b : IBox) :
    (l.foldl IBox.grow b).x0 ≤ b.x0 ∧ b.x1 ≤ (l.foldl IBox.grow b).x1 ∧
    (l.foldl IBox.grow b).y0 ≤ b.y0 ∧ b.y1 ≤ (l.foldl IBox.grow b).y1 ∧
    ∀ v ∈ l, (l.foldl IBox.grow b).has v = true := by
  induction l generalizing b with
  | nil => simp
  | cons a l ih =>
    obtain ⟨h1, h2, h3, h4, h5⟩ := ih (b.grow a)
    rw [List.foldl_cons]
    rw [grow_spec] at h1 h2 h3 h4 h5 ⊢
    simp only at h1 h2 h3 h4
    refine ⟨by omega, by omega, by omega, by omega, ?_⟩
    intro v hv
    rcases List.mem_cons.1 hv with rfl | hv
    · simp only [IBox.has, Bool.and_eq_true, decide_eq_true_eq]
      omega
    · exact h5 v hv

/-- The box of a path contains its vertices. -/
theorem boundingBox_has (path : List IPt) (b : IBox) (h : boundingBox path = .ok b) :
    ∀ v ∈ path, b.has v = true := by
  cases path with
  | nil => simp
  | cons a l =>
    unfold boundingBox at h
    cases h
    exact (foldl_grow (a :: l) _).2.2.2.2

theorem boundingBox_ok (path : List IPt) (h : path ≠ []) : ∃ b, boundingBox path = .ok b := by
  cases path with
  | nil => exact absurd rfl h
  | cons a l => exact ⟨_, rfl⟩

/-- A point that the test accepts lies in the bounding box. -/
theorem pip_in_box (path : List IPt) (b : IBox) (hb : ∀ v ∈ path, b.has v = true) (P : IPt)
    (h : pointInPolygon P path ≠ 0) : b.has P = true := by
  have h3 : 3 ≤ path.length := by
    by_contra hc
    apply h
    unfold pointInPolygon
    rw [if_pos (by omega)]
  have hb' : ∀ v ∈ (ofGrid path : Pgon ℚ), (b.x0 : ℚ) ≤ v.1 ∧ v.1 ≤ b.x1 ∧ (b.y0 : ℚ) ≤ v.2 ∧ v.2 ≤ b.y1 := by
    intro v hv
    obtain ⟨w, hw, rfl⟩ := List.mem_map.1 hv
    have := hb w hw
    simp only [IBox.has, Bool.and_eq_true, decide_eq_true_eq] at this
    simp only [Int.cast_le]
    omega
  have hq : (b.x0 : ℚ) ≤ P.1 ∧ (P.1 : ℚ) ≤ b.x1 ∧ (b.y0 : ℚ) ≤ P.2 ∧ (P.2 : ℚ) ≤ b.y1 := by
    rcases (C52_point_in_polygon (K := ℚ) path P h3).1 h with ho | ho
    · obtain ⟨e, he, s, h0, h1, hx, hy⟩ := ho
      have k1 := hb' _ (mem_edges he).1
      have k2 := hb' _ (mem_edges he).2
      simp only [gpt] at hx hy
      rw [hx, hy]
      have g := sub_nonneg.2 h1
      refine ⟨?_, ?_, ?_, ?_⟩
      · nlinarith [mul_nonneg h0 (sub_nonneg.2 k2.1), mul_nonneg g (sub_nonneg.2 k1.1)]
      · nlinarith [mul_nonneg h0 (sub_nonneg.2 k2.2.1), mul_nonneg g (sub_nonneg.2 k1.2.1)]
      · nlinarith [mul_nonneg h0 (sub_nonneg.2 k2.2.2.1), mul_nonneg g (sub_nonneg.2 k1.2.2.1)]
      · nlinarith [mul_nonneg h0 (sub_nonneg.2 k2.2.2.2), mul_nonneg g (sub_nonneg.2 k1.2.2.2)]
    · have hw : wind (ofGrid path : Pgon ℚ) (gpt P) ≠ 0 := by
        intro hw
        have := wind_parity (ofGrid path : Pgon ℚ) (gpt P)
        rw [hw] at this
        omega
      have := wind_in_box hb' hw
      exact ⟨this.1, this.2.1.le, this.2.2.1.le, this.2.2.2⟩
  simp only [Int.cast_le] at hq
  simp only [IBox.has, Bool.and_eq_true, decide_eq_true_eq]
  omega

/-! ### `inside` -/

section Op

variable [FloorRing K]

/-- The point, on the grid, is inside of one of the polygons, on the grid. -/
def Spec.InsideSome (scaling : K) (polys : List (Pgon K)) (v : Pt K) : Prop :=
  ∃ P ∈ polys, 3 ≤ P.length ∧ Inside (ofGrid (P.map (gridPt scaling)) : Pgon K) (gpt (gridPt scaling v))

theorem parsePolygon_length (scaling : K) (check : Bool) (P : Pgon K) :
    (parsePolygon scaling check P).length = P.length := by
  unfold parsePolygon orientPath
  simp only
  split
  · split <;> simp
  · simp

theorem pip_parse (scaling : K) (P : Pgon K) (p : IPt) :
    pointInPolygon p (parsePolygon scaling true P) ≠ 0 ↔
      3 ≤ P.length ∧ Inside (ofGrid (P.map (gridPt scaling)) : Pgon K) (gpt p) := by
  by_cases h3 : 3 ≤ P.length
  · rw [C52_point_in_polygon (K := K) _ _ (by rwa [parsePolygon_length])]
    simp only [h3, true_and]
    rcases (C54_oriented scaling P).1 with h | h <;> rw [h]
    rw [ofGrid_reverse, inside_reverse]
  · have : pointInPolygon p (parsePolygon scaling true P) = 0 := by
      unfold pointInPolygon
      rw [if_pos (by rw [parsePolygon_length]; omega)]
    simp [this, h3]

/-- Every entry is a path with a box around it. -/
def Boxed (polys : List (List IPt × IBox)) : Prop := ∀ q ∈ polys, ∀ v ∈ q.1, q.2.has v = true

theorem withBoxes_spec (polys : List (List IPt)) (h : ∀ P ∈ polys, P ≠ []) :
    ∃ l, withBoxes polys = .ok l ∧ l.map Prod.fst = polys ∧ Boxed l := by
  unfold withBoxes
  induction polys with
  | nil => exact ⟨[], rfl, rfl, by simp [Boxed]⟩
  | cons P r ih =>
    obtain ⟨l, h1, h2, h3⟩ := ih fun Q hQ => h Q (List.mem_cons_of_mem _ hQ)
    obtain ⟨b, hb⟩ := boundingBox_ok P (h P List.mem_cons_self)
    refine ⟨(P, b) :: l, ?_, by simp [h2], ?_⟩
    · rw [List.mapM_cons, hb]
      simp only [py_bind_ok]
      rw [h1]
      rfl
    · intro q hq
      rcases List.mem_cons.1 hq with rfl | hq
      · exact boundingBox_has P b hb
      · exact h3 q hq

theorem inSome_iff (polys : List (List IPt × IBox)) (h : Boxed polys) (p : IPt) :
    inSome polys p = true ↔ ∃ P ∈ polys.map Prod.fst, pointInPolygon p P ≠ 0 := by
  unfold inSome
  rw [List.any_eq_true]
  constructor
  · rintro ⟨q, hq, hc⟩
    simp only [Bool.and_eq_true, decide_eq_true_eq] at hc
    exact ⟨q.1, List.mem_map_of_mem hq, hc.2⟩
  · rintro ⟨P, hP, hc⟩
    obtain ⟨q, hq, rfl⟩ := List.mem_map.1 hP
    refine ⟨q, hq, ?_⟩
    simp only [Bool.and_eq_true, decide_eq_true_eq]
    exact ⟨pip_in_box q.1 q.2 (h q hq) p hc, hc⟩

theorem join_spec (a b : IBox) :
    a.join b = ⟨min a.x0 b.x0, max a.x1 b.x1, min a.y0 b.y0, max a.y1 b.y1⟩ := by
  unfold IBox.join
  congr 1
  · split <;> omega
  · split <;> omega
  · split <;> omega
  · split <;> omega

theorem foldl_join (l : List (List IPt × IBox)) (b : IBox) (p : IPt)
    (h : b.has p = true ∨ ∃ q ∈ l, q.2.has p = true) :
    (l.foldl (fun b x => b.join x.2) b).has p = true := by
  induction l generalizing b with
  | nil => simpa using h
  | cons q l ih =>
    rw [List.foldl_cons]
    apply ih
    have hj : b.has p = true ∨ q.2.has p = true → (b.join q.2).has p = true := by
      rw [join_spec]
      simp only [IBox.has, Bool.and_eq_true, decide_eq_true_eq]
      omega
    rcases h with h | ⟨q', hq', h⟩
    · exact Or.inl (hj (Or.inl h))
    · rcases List.mem_cons.1 hq' with rfl | hq'
      · exact Or.inl (hj (Or.inr h))
      · exact Or.inr ⟨q', hq', h⟩

theorem allBox_ok (polys : List (List IPt × IBox)) (h : polys ≠ []) : ∃ b, allBox polys = .ok b := by
  cases polys with
  | nil => exact absurd rfl h
  | cons q l => exact ⟨_, rfl⟩

theorem allBox_has (polys : List (List IPt × IBox)) (b : IBox) (h : allBox polys = .ok b) (p : IPt)
    (hp : ∃ q ∈ polys, q.2.has p = true) : b.has p = true := by
  cases polys with
  | nil => simp at hp
  | cons q l =>
    unfold allBox at h
    cases h
    apply foldl_join
    obtain ⟨q', hq', h⟩ := hp
    rcases List.mem_cons.1 hq' with rfl | hq'
    · exact Or.inl h
    · exact Or.inr ⟨q', hq', h⟩

/-- The first filter changes nothing. -/
theorem filter_inSome (polys : List (List IPt × IBox)) (b : IBox) (h : allBox polys = .ok b) (p : IPt) :
    (b.has p && inSome polys p) = inSome polys p := by
  cases hs : inSome polys p with
  | false => simp
  | true =>
    unfold inSome at hs
    rw [List.any_eq_true] at hs
    obtain ⟨q, hq, hc⟩ := hs
    rw [Bool.and_eq_true] at hc
    rw [allBox_has polys b h p ⟨q, hq, hc.1⟩]
    rfl

theorem insideAny_spec (polys : List (List IPt × IBox)) (g : List IPt) (hg : g ≠ []) :
    insideAny polys g = .ok (g.any (inSome polys)) := by
  obtain ⟨gb, hgb⟩ := boundingBox_ok g hg
  unfold insideAny
  rw [hgb]
  simp only [Except.ok.injEq]
  rw [Bool.eq_iff_iff, List.any_eq_true, List.any_eq_true]
  constructor
  · rintro ⟨q, hq, h⟩
    rw [Bool.and_eq_true, List.any_eq_true] at h
    obtain ⟨-, p, hp, h⟩ := h
    exact ⟨p, hp, List.any_eq_true.2 ⟨q, hq, h⟩⟩
  · rintro ⟨p, hp, h⟩
    obtain ⟨q, hq, h⟩ := List.any_eq_true.1 h
    refine ⟨q, hq, ?_⟩
    rw [Bool.and_eq_true, List.any_eq_true]
    refine ⟨?_, p, hp, h⟩
    have h1 := boundingBox_has g gb hgb p hp
    rw [Bool.and_eq_true] at h
    have h2 := h.1
    simp only [IBox.has, IBox.meets, Bool.and_eq_true, decide_eq_true_eq] at h1 h2 ⊢
    omega

theorem mapM_parse (scaling : K) (check : Bool) (polys : List (Pgon K)) :
    (polys.map Gathered.poly).mapM (Gathered.parse scaling check) =
      .ok (polys.map (parsePolygon scaling check)) := by
  induction polys with
  | nil => rfl
  | cons P r ih =>
    rw [List.map_cons, List.mapM_cons, ih]
    rfl

theorem inSome_spec (scaling : K) (polys : List (Pgon K)) (l : List (List IPt × IBox)) (hb : Boxed l)
    (hl : l.map Prod.fst = polys.map (parsePolygon scaling true)) (v : Pt K) :
    inSome l (gridPt scaling v) = true ↔ InsideSome scaling polys v := by
  rw [inSome_iff l hb, hl]
  unfold InsideSome
  constructor
  · rintro ⟨P, hP, h⟩
    obtain ⟨Q, hQ, rfl⟩ := List.mem_map.1 hP
    exact ⟨Q, hQ, (pip_parse scaling Q _).1 h⟩
  · rintro ⟨Q, hQ, h⟩
    exact ⟨_, List.mem_map_of_mem hQ, (pip_parse scaling Q _).2 h⟩

theorem parse_ne_nil (scaling : K) (polys : List (Pgon K)) (h : ∀ P ∈ polys, P ≠ []) :
    ∀ P ∈ polys.map (parsePolygon scaling true), P ≠ [] := by
  intro P hP
  obtain ⟨Q, hQ, rfl⟩ := List.mem_map.1 hP
  rw [← List.length_pos_iff, parsePolygon_length, List.length_pos_iff]
  exact h Q hQ

theorem forall₂_map {α β : Type} (R : α → β → Prop) (f : α → β) (l : List α) (h : ∀ a ∈ l, R a (f a)) :
    List.Forall₂ R l (l.map f) := by
  induction l with
  | nil => exact .nil
  | cons a l ih =>
    exact .cons (h a List.mem_cons_self) (ih fun b hb => h b (List.mem_cons_of_mem _ hb))

/-- **C52**: `inside` with a list of points answers for each of them, in order, whether it is inside of
(or on the outline of) one of the polygons. -/
theorem C52_points (points : List (Pt K)) (polygons : Operand K) (polys : List (Pgon K)) (any : Bool)
    (precision : K) (hp : precision ≠ 0) (h0 : points ≠ [])
    (hg : gatherPolys polygons = .ok (polys.map Gathered.poly)) (h1 : polys ≠ []) (h2 : ∀ P ∈ polys, P ≠ []) :
    ∃ r, insideOp (.points points) polygons any precision = .ok r ∧
      List.Forall₂ (fun v b => b = true ↔ InsideSome (1 / precision) polys v) points r := by
  obtain ⟨l, hl1, hl2, hl3⟩ := withBoxes_spec _ (parse_ne_nil (1 / precision) polys h2)
  have hlne : l ≠ [] := by
    rintro rfl
    simp at hl2
    exact h1 hl2
  obtain ⟨b, hb⟩ := allBox_ok l hlne
  refine ⟨points.map fun v => inSome l (gridPt (1 / precision) v), ?_,
    forall₂_map _ _ _ fun v _ => inSome_spec _ polys l hl3 hl2 v⟩
  unfold insideOp
  rw [hg]
  simp only [py_bind_ok]
  obtain ⟨v, r, rfl⟩ := List.exists_cons_of_ne_nil h0
  rw [if_neg hp, mapM_parse]
  simp only [py_bind_ok]
  unfold clipperInside
  rw [hl1]
  simp only [py_bind_ok, if_true]
  rw [hb]
  simp only [py_bind_ok, filter_inSome l b hb]
  rw [show parsePolygon (1 / precision) false (v :: r) = (v :: r).map (gridPt (1 / precision)) from rfl,
    List.map_map]
  rfl

/-- **C52**: with groups of points and 'any', the answer for a group is whether one of its points is inside
of one of the polygons; with 'all', whether every point is. -/
theorem C52_groups (groups : List (List (Pt K))) (polygons : Operand K) (polys : List (Pgon K)) (any : Bool)
    (precision : K) (hp : precision ≠ 0) (h0 : groups ≠ []) (h00 : ∀ g ∈ groups, g ≠ [])
    (hg : gatherPolys polygons = .ok (polys.map Gathered.poly)) (h1 : polys ≠ []) (h2 : ∀ P ∈ polys, P ≠ []) :
    ∃ r, insideOp (.groups groups) polygons any precision = .ok r ∧
      List.Forall₂ (fun g b => b = true ↔
        if any then ∃ v ∈ g, InsideSome (1 / precision) polys v
        else ∀ v ∈ g, InsideSome (1 / precision) polys v) groups r := by
  obtain ⟨l, hl1, hl2, hl3⟩ := withBoxes_spec _ (parse_ne_nil (1 / precision) polys h2)
  have hlne : l ≠ [] := by
    rintro rfl
    simp at hl2
    exact h1 hl2
  obtain ⟨b, hb⟩ := allBox_ok l hlne
  have hspec := inSome_spec (1 / precision) polys l hl3 hl2
  have hop : insideOp (.groups groups) polygons any precision =
      clipperInside (groups.map (parsePolygon (1 / precision) false))
        (polys.map (parsePolygon (1 / precision) true)) (if any then 1 else -1) := by
    unfold insideOp
    rw [hg]
    simp only [py_bind_ok]
    split
    · rename_i h; cases h
    · rename_i h; cases h; exact absurd rfl h0
    · rename_i h; cases h; exact absurd rfl (h00 [] List.mem_cons_self)
    · rename_i h; cases h
    · rename_i h hq
      cases hq
      rw [if_neg hp, mapM_parse]
      rfl
  rw [hop]
  unfold clipperInside
  rw [hl1]
  simp only [py_bind_ok]
  cases any with
  | true =>
    refine ⟨groups.map fun g => (g.map (gridPt (1 / precision))).any (inSome l), ?_, ?_⟩
    · rw [if_neg (by decide), if_pos (by decide)]
      clear h0 hop
      induction groups with
      | nil => rfl
      | cons g r ih =>
        rw [List.map_cons, List.mapM_cons, insideAny_spec, ih fun g hg => h00 g (List.mem_cons_of_mem _ hg)]
        · rfl
        · show g.map (gridPt (1 / precision)) ≠ []
          simpa using h00 g List.mem_cons_self
    · apply forall₂_map
      intro g _
      rw [List.any_map, List.any_eq_true]
      simp only [Function.comp, hspec, if_true]
  | false =>
    refine ⟨groups.map fun g => (g.map (gridPt (1 / precision))).all (inSome l), ?_, ?_⟩
    · simp only [Bool.false_eq_true, if_false, show ¬ ((-1 : Int) = 0) by decide, show ¬ ((-1 : Int) > 0) by decide]
      rw [hb]
      simp only [py_bind_ok, filter_inSome l b hb, List.map_map]
      rfl
    · apply forall₂_map
      intro g _
      rw [List.all_map, List.all_eq_true]
      simp only [Function.comp, hspec, Bool.false_eq_true, if_false]

/-- **C52**, errors: no points, or an empty first group, raise IndexError. -/
theorem C52_no_points (polygons : Operand K) (polys : List (Gathered K)) (any : Bool) (precision : K)
    (hg : gatherPolys polygons = .ok polys) (r : List (List (Pt K))) :
    insideOp (.points []) polygons any precision = .error .indexError ∧
    insideOp (.groups []) polygons any precision = .error .indexError ∧
    insideOp (.groups ([] :: r)) polygons any precision = .error .indexError := by
  unfold insideOp
  rw [hg]
  exact ⟨rfl, rfl, rfl⟩

end Op

/-- **C52**: a rectangle contains the points between its corners, borders included. -/
theorem C52_rectangle (x0 x1 y0 y1 : Int) (hx : x0 < x1) (hy : y0 < y1) (P : IPt) :
    pointInPolygon P [(x0, y0), (x1, y0), (x1, y1), (x0, y1)] ≠ 0 ↔
      x0 ≤ P.1 ∧ P.1 ≤ x1 ∧ y0 ≤ P.2 ∧ P.2 ≤ y1 := by
  constructor
  · intro h
    have := pip_in_box _ ⟨x0, x1, y0, y1⟩ (by
      intro v hv
      simp only [List.mem_cons, List.not_mem_nil, or_false] at hv
      simp only [IBox.has, Bool.and_eq_true, decide_eq_true_eq]
      rcases hv with rfl | rfl | rfl | rfl <;> simp only <;> omega) P h
    simp only [IBox.has, Bool.and_eq_true, decide_eq_true_eq] at this
    omega
  · rintro ⟨h1, h2, h3, h4⟩
    rw [C52_point_in_polygon (K := ℚ) _ _ (by simp)]
    by_cases hb : (P.1 < x1 ∧ y0 < P.2)
    · right
      have hw : wind (ofGrid [(x0, y0), (x1, y0), (x1, y1), (x0, y1)] : Pgon ℚ) (gpt P) = 1 := by
        have hy' : (y0 : ℚ) < y1 := by exact_mod_cast hy
        have g0 : ¬ ((P.1 : ℚ) < x0) := by exact_mod_cast (by omega : ¬ P.1 < x0)
        have g1 : (P.1 : ℚ) < x1 := by exact_mod_cast hb.1
        have g2 : (y0 : ℚ) < P.2 := by exact_mod_cast hb.2
        have g3 : (P.2 : ℚ) ≤ y1 := by exact_mod_cast h4
        show wind [((x0 : ℚ), (y0 : ℚ)), (x1, y0), (x1, y1), (x0, y1)] (gpt P) = 1
        rw [wind_trapezoid _ _ _ _ _ _ hy', xAt_vertical, xAt_vertical]
        simp [gpt, g0, g1, g2, g3]
      have := wind_parity (ofGrid [(x0, y0), (x1, y0), (x1, y1), (x0, y1)] : Pgon ℚ) (gpt P)
      rw [hw] at this
      omega
    · left
      rw [onOutline_grid]
      by_cases hb1 : P.1 < x1
      · refine ⟨((x0, y0), (x1, y0)), by simp [edges, List.rotate_cons_succ], ?_⟩
        rw [onSegment_iff]
        have : P.2 = y0 := by omega
        refine ⟨by simp only [pipD, this]; ring, ?_⟩
        simp only
        omega
      · refine ⟨((x1, y0), (x1, y1)), by simp [edges, List.rotate_cons_succ], ?_⟩
        rw [onSegment_iff]
        have : P.1 = x1 := by omega
        refine ⟨by simp only [pipD, this]; ring, ?_⟩
        simp only
        omega

/-! ### Concrete cases, and two limits -/

/-- An L-shaped polygon: inside, on a vertex, on an edge, in the notch, outside. -/
example : ([(1, 1), (4, 2), (1, 4), (3, 3), (-1, 2)] : List IPt).map
    (fun p => pointInPolygon p [(0, 0), (4, 0), (4, 2), (2, 2), (2, 4), (0, 4)]) = [1, -1, -1, 0, 0] := by
  decide

example : insideOp (K := ℚ) (.groups [[(1, 1), (9, 9)], [(1, 1), (2, 1)]])
    (.list [.verts [(0, 0), (4, 0), (4, 4), (0, 4)], .verts [(5, 5), (6, 5), (6, 6)]]) true (1 / 1000) =
      .ok [true, true] ∧
    insideOp (K := ℚ) (.groups [[(1, 1), (9, 9)], [(1, 1), (2, 1)]])
    (.list [.verts [(0, 0), (4, 0), (4, 4), (0, 4)], .verts [(5, 5), (6, 5), (6, 6)]]) false (1 / 1000) =
      .ok [false, true] := by
  decide +kernel

/-- **C52**, limit: the test is even-odd while the boolean operations use the winding number: a point around
which a polygon winds twice is not inside. -/
theorem C52_twice_around :
    let P : List IPt := [(0, 0), (6, 0), (6, 6), (0, 6), (0, 0), (6, 0), (6, 6), (0, 6)]
    wind (ofGrid P : Pgon ℚ) (3, 3) = 2 ∧ pointInPolygon (3, 3) P = 0 := by
  decide +kernel

/-- **C52**, limit: polygons with fewer than three vertices contain nothing, not even their vertices. -/
theorem C52_degenerate (P : List IPt) (h : P.length < 3) (p : IPt) : pointInPolygon p P = 0 := by
  unfold pointInPolygon
  rw [if_pos h]

end Gdspy
