import Verif.Lemmas.OffsetModel
import Verif.Props.C51

/-!
What `AddPath` and `FixOrientations` do to outlines.
-/

set_option linter.unusedSectionVars false

namespace Gdspy

open Spec

variable {K : Type} [Field K] [LinearOrder K] [IsStrictOrderedRing K]

/-! ## AddPath -/

theorem dropRepeats_self (v : IPt) (m : List IPt) (h : ∀ e ∈ pathEdges v m, e.1 ≠ e.2) : dropRepeats (v :: m) = v :: m := by
  induction m generalizing v with
  | nil => unfold dropRepeats; rfl
  | cons q r ih =>
    unfold dropRepeats
    rw [if_pos (h (v, q) (by simp [pathEdges])), ih q fun e he => h e (by rw [pathEdges]; exact List.mem_cons_of_mem _ he)]

theorem offsetPath_distinct {P : List IPt} (hd : ∀ e ∈ edges P, e.1 ≠ e.2) (h3 : 3 ≤ P.length) : offsetPath P = some P := by
  obtain ⟨v, l, z, rfl⟩ : ∃ v l z, P = v :: (l ++ [z]) := by
    cases P with
    | nil => simp at h3
    | cons v m =>
      rcases List.eq_nil_or_concat m with rfl | ⟨l, z, rfl⟩
      · simp at h3
      · exact ⟨v, l, z, by rw [List.concat_eq_append]⟩
  rw [edges_path, List.append_assoc, List.singleton_append, pathEdges_append] at hd
  have hz : z ≠ v := hd (z, v) (by simp [pathEdges])
  have h1 : dropClosing (v :: (l ++ [z])) = v :: (l ++ [z]) := by
    change v :: ((l ++ [z]).reverse.dropWhile fun q => decide (v = q)).reverse = _
    rw [List.reverse_append, List.reverse_singleton, List.singleton_append, List.dropWhile_cons_of_neg (by simpa using hz.symm)]
    simp
  unfold offsetPath
  simp only [h1]
  rw [dropRepeats_self v _ fun e he => hd e (List.mem_append_left _ he), if_neg (by omega)]

theorem offsetPath_self {P : List IPt} (h : Outline P) : offsetPath P = some P := offsetPath_distinct h.distinct h.three

theorem offsetPaths_self {L : List (List IPt)} (h : ∀ P ∈ L, Outline P) : offsetPaths L = L := by
  unfold offsetPaths
  induction L with
  | nil => rfl
  | cons P L ih =>
    rw [List.filterMap_cons, offsetPath_self (h P (by simp)), ih fun Q hQ => h Q (List.mem_cons_of_mem _ hQ)]

section Clean
variable {M : Type} [AddCommGroup M]

theorem dropRepeats_path (f : IPt × IPt → M) (h0 : ∀ v, f (v, v) = 0) (n : Nat) (v z : IPt) (m : List IPt) (hn : m.length ≤ n) :
    ∃ m', dropRepeats (v :: m) = v :: m' ∧ pathSum f v (m' ++ [z]) = pathSum f v (m ++ [z]) ∧
      ∀ e ∈ pathEdges v (m' ++ [z]), e ∈ pathEdges v (m ++ [z]) := by
  induction n generalizing v m with
  | zero =>
    have : m = [] := List.length_eq_zero_iff.1 (by omega)
    subst this
    exact ⟨[], by unfold dropRepeats; rfl, rfl, fun _ h => h⟩
  | succ n ih =>
    cases m with
    | nil => exact ⟨[], by unfold dropRepeats; rfl, rfl, fun _ h => h⟩
    | cons q r =>
      have hl : r.length ≤ n := by simpa using hn
      unfold dropRepeats
      by_cases hq : v = q
      · subst hq
        obtain ⟨m', h1, h2, h3⟩ := ih v r hl
        refine ⟨m', by simpa using h1, ?_, ?_⟩
        · rw [h2]; simp [pathSum, h0]
        · intro e he
          exact List.mem_cons_of_mem _ (h3 e he)
      · obtain ⟨m', h1, h2, h3⟩ := ih q r hl
        refine ⟨q :: m', by rw [if_pos hq, h1], ?_, ?_⟩
        · simp only [List.cons_append, pathSum, h2]
        · intro e he
          simp only [List.cons_append, pathEdges, List.mem_cons] at he ⊢
          exact he.imp id (h3 e)

theorem dropClosing_path (f : IPt × IPt → M) (h0 : ∀ v, f (v, v) = 0) (v : IPt) (r : List IPt) :
    ∃ r', dropClosing (v :: r) = v :: r' ∧ pathSum f v (r' ++ [v]) = pathSum f v (r ++ [v]) ∧
      ∀ e ∈ pathEdges v (r' ++ [v]), e ∈ pathEdges v (r ++ [v]) := by
  unfold dropClosing
  refine ⟨_, rfl, ?_⟩
  induction r using List.reverseRecOn with
  | nil => simp
  | append_singleton r z ih =>
    rw [List.reverse_append, List.reverse_singleton, List.singleton_append]
    by_cases hz : v = z
    · subst hz
      rw [List.dropWhile_cons_of_pos (by simp)]
      refine ⟨?_, ?_⟩
      · rw [ih.1, List.append_assoc, List.singleton_append, pathSum_append f v r v [v]]
        simp [pathSum, h0]
      · intro e he
        rw [List.append_assoc, List.singleton_append, pathEdges_append]
        exact List.mem_append_left _ (ih.2 e he)
    · rw [List.dropWhile_cons_of_neg (by simpa using hz)]
      simp

/-- `AddPath` does not change sums over the edges, and adds no edges; what it drops has a sum of zero. -/
theorem offsetPath_sum (f : IPt × IPt → M) (h0 : ∀ v, f (v, v) = 0) (hs : ∀ e, f e.swap = - f e) (P : List IPt) :
    match offsetPath P with
    | some Q => ((edges Q).map f).sum = ((edges P).map f).sum ∧ ∀ e ∈ edges Q, e ∈ edges P
    | none => ((edges P).map f).sum = 0 := by
  cases P with
  | nil =>
    have : offsetPath [] = none := by unfold offsetPath dropClosing dropRepeats; rfl
    rw [this]; simp [edges]
  | cons v r =>
    obtain ⟨r1, h1, h2, h3⟩ := dropClosing_path f h0 v r
    obtain ⟨r2, h4, h5, h6⟩ := dropRepeats_path f h0 r1.length v v r1 le_rfl
    have hsum : ((edges (v :: r2)).map f).sum = ((edges (v :: r)).map f).sum := by
      rw [sum_edges_cons, sum_edges_cons, h5, h2]
    unfold offsetPath
    simp only [h1, h4]
    by_cases hl : (v :: r2).length < 3
    · rw [if_pos hl]
      simp only []
      rw [← hsum]
      match r2, hl with
      | [], _ => rw [sum_edges_cons]; simp [pathSum, h0]
      | [w], _ =>
        rw [sum_edges_cons]
        have := hs (v, w)
        simp only [Prod.swap_prod_mk] at this
        simp [pathSum, this]
      | _ :: _ :: _, hl => exact absurd hl (by simp)
    · rw [if_neg hl]
      refine ⟨hsum, ?_⟩
      intro e he
      rw [edges_path] at he ⊢
      exact h3 e (h6 e he)

end Clean

theorem offsetPath_wind (P : List IPt) (p : Pt K) : match offsetPath P with
    | some Q => wind (ofGrid Q) p = wind (ofGrid P) p
    | none => wind (ofGrid P) p = 0 := by
  have := offsetPath_sum (fun e => edgeWind p ((gp e.1 : Pt K), gp e.2)) (fun v => edgeWind_self p _)
    (fun e => edgeWind_swap p (gp e.1, gp e.2)) P
  simp only [wind_eq_sum]
  cases h : offsetPath P with
  | none => rw [h] at this; exact this
  | some Q => rw [h] at this; exact this.1

theorem offsetPath_shoelace {P Q : List IPt} (h : offsetPath P = some Q) : shoelace (ofGrid Q : Pgon K) = shoelace (ofGrid P) := by
  have := offsetPath_sum (fun e : IPt × IPt => ((e.1.1 : K) * e.2.2 - (e.2.1 : K) * e.1.2)) (fun v => by ring)
    (fun e => by simp only [Prod.fst_swap, Prod.snd_swap]; ring) P
  rw [h] at this
  simp only [shoelace_eq_sum]
  exact this.1

theorem offsetPath_rect {P Q : List IPt} (h : offsetPath P = some Q) (hP : Rectilinear P) : Rectilinear Q := by
  have := offsetPath_sum (fun _ : IPt × IPt => (0 : Int)) (fun _ => rfl) (fun _ => rfl) P
  rw [h] at this
  exact fun e he => hP e (this.2 e he)

theorem offsetPaths_total (L : List (List IPt)) (p : Pt K) : total ((offsetPaths L).map ofGrid) p = total (L.map ofGrid) p := by
  unfold offsetPaths
  induction L with
  | nil => rfl
  | cons P L ih =>
    have h := offsetPath_wind P p
    have e : ∀ (Q : List IPt) (M : List (List IPt)), total ((Q :: M).map ofGrid) p = wind (ofGrid Q) p + total (M.map ofGrid) p := by
      intro Q M; simp [total]
    rw [List.filterMap_cons]
    cases hq : offsetPath P with
    | none => rw [hq] at h; simp only [] at h ⊢; rw [ih, e, h, zero_add]
    | some Q => rw [hq] at h; simp only [] at h ⊢; rw [e, e, ih, h]

/-! ## FixOrientations -/

theorem clipArea_eq {P : List IPt} (h : 3 ≤ P.length) : ((clipArea P : Int) : K) = shoelace (ofGrid P) := by
  obtain ⟨s, hs, he⟩ := pairs_edges P
  unfold clipArea
  rw [if_neg (by omega), he, shoelace_eq_sum, ← sum_edges_rotated _ hs]
  have key : ∀ (f : IPt → Int), ((edges s).map fun e => f e.2 - f e.1).sum = 0 := by
    intro f
    cases s with
    | nil => simp [edges]
    | cons v l =>
      rw [sum_edges_cons]
      have : ∀ (a : IPt) (l : List IPt) (b : IPt), pathSum (fun e : IPt × IPt => f e.2 - f e.1) a (l ++ [b]) = f b - f a := by
        intro a l b
        induction l generalizing a with
        | nil => simp [pathSum]
        | cons c l ih => simp only [List.cons_append, pathSum, ih]; ring
      rw [this]; ring
  have h2 := key fun v => v.1 * v.2
  have : (((edges s).map fun e => ((e.1.1 : K) * e.2.2 - (e.2.1 : K) * e.1.2)).sum) =
      ((((edges s).map fun e => (e.1.1 * e.2.2 - e.2.1 * e.1.2 : Int)).sum : Int) : K) := by
    generalize edges s = E
    induction E with
    | nil => simp
    | cons e E ih => simp only [List.map_cons, List.sum_cons, ih]; push_cast; rfl
  rw [this, Int.cast_inj]
  have h3 : ((edges s).map fun e => (e.1.1 + e.2.1) * (e.1.2 - e.2.2)).sum =
      -((edges s).map fun e => (e.1.1 * e.2.2 - e.2.1 * e.1.2 : Int)).sum - ((edges s).map fun e => e.2.1 * e.2.2 - e.1.1 * e.1.2).sum := by
    generalize edges s = E
    induction E with
    | nil => rfl
    | cons e E ih => simp only [List.map_cons, List.sum_cons, ih]; ring
  rw [h3, h2]
  ring

theorem foldl_pick {α : Type} (r : α → α → Bool) (l : List α) (a : α) :
    (l.foldl (fun a b => if r b a then b else a) a) ∈ a :: l := by
  induction l generalizing a with
  | nil => simp
  | cons b l ih =>
    rw [List.foldl_cons]
    have := ih (if r b a then b else a)
    rcases List.mem_cons.1 this with h | h
    · rw [h]
      split <;> simp
    · exact List.mem_cons_of_mem _ (List.mem_cons_of_mem _ h)

theorem lowestPath_mem {L : List (List IPt)} {P : List IPt} (h : lowestPath L = some P) : P ∈ L := by
  cases L with
  | nil => simp [lowestPath] at h
  | cons Q L =>
    simp only [lowestPath, Option.some.injEq] at h
    rw [← h]
    exact foldl_pick _ L Q

theorem foldl_best {α : Type} (r : α → α → Bool) (f : α → Int) (h1 : ∀ a b, r b a = true → f a ≤ f b) (h2 : ∀ a b, r b a = false → f b ≤ f a)
    (l : List α) (a : α) : ∀ x ∈ a :: l, f x ≤ f (l.foldl (fun a b => if r b a then b else a) a) := by
  induction l generalizing a with
  | nil => simp
  | cons b l ih =>
    intro x hx
    rw [List.foldl_cons]
    have := ih (if r b a then b else a)
    have h3 := this _ List.mem_cons_self
    rcases List.mem_cons.1 hx with rfl | hx
    · refine le_trans ?_ h3
      split
      · rename_i h; exact h1 _ _ h
      · exact le_rfl
    · rcases List.mem_cons.1 hx with rfl | hx
      · refine le_trans ?_ h3
        split
        · exact le_rfl
        · rename_i h; exact h2 _ _ (by simpa using h)
      · exact this x (List.mem_cons_of_mem _ hx)

theorem isLower_spec {a b : IPt} : (isLower b a = true → a.2 ≤ b.2) ∧ (isLower b a = false → b.2 ≤ a.2) := by
  unfold isLower
  simp only [decide_eq_true_eq, decide_eq_false_iff_not]
  constructor
  · rintro (h | h) <;> omega
  · intro h; omega

theorem lowestPoint_spec {P : List IPt} (h : P ≠ []) : lowestPoint P ∈ P ∧ ∀ v ∈ P, v.2 ≤ (lowestPoint P).2 := by
  cases P with
  | nil => exact absurd rfl h
  | cons v l =>
    refine ⟨foldl_pick _ l v, ?_⟩
    exact foldl_best isLower (fun v => v.2) (fun a b => (isLower_spec).1) (fun a b => (isLower_spec).2) l v

theorem lowestPath_spec {L : List (List IPt)} {P : List IPt} (h : lowestPath L = some P) (hne : ∀ Q ∈ L, Q ≠ []) :
    ∃ v ∈ P, ∀ Q ∈ L, ∀ w ∈ Q, w.2 ≤ v.2 := by
  have hP := lowestPath_mem h
  have h1 := lowestPoint_spec (hne P hP)
  refine ⟨_, h1.1, fun Q hQ w hw => ?_⟩
  refine le_trans ((lowestPoint_spec (hne Q hQ)).2 w hw) ?_
  cases L with
  | nil => simp at hQ
  | cons R L =>
    simp only [lowestPath, Option.some.injEq] at h
    rw [← h]
    exact foldl_best (fun b a => isLower (lowestPoint b) (lowestPoint a)) (fun Q => (lowestPoint Q).2) (fun a b => (isLower_spec).1)
      (fun a b => (isLower_spec).2) L R Q hQ

theorem fixOrientations_self {L : List (List IPt)} (h : ∀ P, lowestPath L = some P → 3 ≤ P.length ∧ 0 ≤ shoelace (ofGrid P : Pgon K)) :
    fixOrientations L = L := by
  unfold fixOrientations
  cases hl : lowestPath L with
  | none => rfl
  | some P =>
    obtain ⟨h1, h2⟩ := h P hl
    simp only []
    rw [if_pos]
    rw [← clipArea_eq h1] at h2
    exact_mod_cast h2

end Gdspy
