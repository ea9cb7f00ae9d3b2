import Mathlib.Tactic.Linarith
import Mathlib.Tactic.FieldSimp
import Mathlib.Tactic.Ring
import Mathlib.Tactic.LinearCombination
import Mathlib.Data.Int.Cast.Lemmas
import Mathlib.Data.Rat.Cast.Order
import Verif.Spec.Holes
import Verif.Lemmas.Region

/-!
Lemmas on joined outlines.
-/

namespace Gdspy

open Spec

set_option linter.unusedSectionVars false

/-! ## Sums over the edges -/

section Sums
variable {α M : Type} [AddCommGroup M]

/-- The sum over the edges of an open path. -/
def pathSum (f : α × α → M) : α → List α → M
  | _, [] => 0
  | a, b :: l => f (a, b) + pathSum f b l

theorem pathSum_append (f : α × α → M) (a : α) (l : List α) (b : α) (m : List α) :
    pathSum f a (l ++ b :: m) = pathSum f a (l ++ [b]) + pathSum f b m := by
  induction l generalizing a with
  | nil => simp [pathSum]
  | cons c l ih => simp only [List.cons_append, pathSum, ih]; abel

theorem sum_zip_path (f : α × α → M) (a : α) (l : List α) (b : α) :
    (((a :: l).zip (l ++ [b])).map f).sum = pathSum f a (l ++ [b]) := by
  induction l generalizing a with
  | nil => simp [pathSum]
  | cons c l ih =>
    have := ih c
    simp only [List.cons_append, List.zip_cons_cons, List.map_cons, List.sum_cons, pathSum] at this ⊢
    rw [this]

theorem sum_edges_cons (f : α × α → M) (a : α) (l : List α) :
    ((edges (a :: l)).map f).sum = pathSum f a (l ++ [a]) := by
  rw [edges_cons, sum_zip_path]

theorem sum_edges_rotated (f : α × α → M) {l m : List α} (h : l.IsRotated m) :
    ((edges l).map f).sum = ((edges m).map f).sum := by
  obtain ⟨n, rfl⟩ := h
  rw [edges_rotate]
  exact (((List.rotate_perm _ n).map f).sum_eq).symm

/-- The sum over the edges of a joined outline, for a function that changes sign when the edge is reversed. -/
theorem sum_edges_joined (f : α × α → M) (hf : ∀ e, f e.swap = - f e) (h0 : ∀ v, f (v, v) = 0) [DecidableEq α]
    (a b c p : α) (ms hs : List α) :
    ((edges (b :: (ms ++ a :: c :: p :: (hs ++ p :: if c = b then [] else [c])))).map f).sum =
      ((edges (b :: (ms ++ [a]))).map f).sum + ((edges (p :: hs)).map f).sum + ((edges [a, c, b]).map f).sum := by
  have e1 : f (p, c) = - f (c, p) := hf (c, p)
  have e2 : f (b, a) = - f (a, b) := hf (a, b)
  have t : ((edges [a, c, b]).map f).sum = f (a, c) + (f (c, b) + f (b, a)) := by
    rw [sum_edges_cons]; simp [pathSum]
  have r : ((edges (b :: (ms ++ [a]))).map f).sum = pathSum f b (ms ++ [a]) + f (a, b) := by
    rw [sum_edges_cons, List.append_assoc, List.singleton_append, pathSum_append]; simp [pathSum]
  rw [t, r, sum_edges_cons f p, sum_edges_cons f b]
  by_cases hc : c = b
  · subst hc
    rw [if_pos rfl]
    simp only [List.append_assoc, List.cons_append, List.nil_append]
    rw [pathSum_append]
    simp only [pathSum]
    rw [pathSum_append f p hs p]
    simp only [pathSum]
    rw [e1, e2, h0]
    abel
  · rw [if_neg hc]
    simp only [List.append_assoc, List.cons_append, List.nil_append]
    rw [pathSum_append]
    simp only [pathSum]
    rw [pathSum_append f p hs p]
    simp only [pathSum]
    rw [e1, e2]
    abel

end Sums

section
variable {K : Type} [Field K] [LinearOrder K] [IsStrictOrderedRing K]

theorem edgeWind_self (q v : Pt K) : edgeWind q (v, v) = 0 := by
  have := edgeWind_swap q (v, v)
  simp only [Prod.swap_prod_mk] at this
  omega

theorem gp_inj {u v : IPt} (h : (gp u : Pt K) = gp v) : u = v := by
  obtain ⟨h1, h2⟩ := Prod.mk.inj h
  exact Prod.ext (by exact_mod_cast h1) (by exact_mod_cast h2)

theorem ofGrid_gp (P : List IPt) : (ofGrid P : Pgon K) = P.map gp := rfl

theorem wind_eq_sum (P : List IPt) (q : Pt K) :
    wind (ofGrid P) q = ((edges P).map fun e => edgeWind q (gp e.1, gp e.2)).sum := by
  unfold wind
  rw [ofGrid_gp, edges_map, List.map_map]; rfl

theorem shoelace_eq_sum (P : List IPt) : shoelace (ofGrid P : Pgon K) =
    ((edges P).map fun e => ((e.1.1 : K) * e.2.2 - (e.2.1 : K) * e.1.2)).sum := by
  rw [shoelace_edges, ofGrid_gp, edges_map, List.map_map]; rfl

theorem joined_wind {r h out : List IPt} {a b c p : IPt} (hj : Joined r h out a b c p) (q : Pt K) :
    wind (ofGrid out) q = wind (ofGrid r) q + wind (ofGrid h) q + wind (ofGrid [a, c, b]) q := by
  obtain ⟨ms, hs, h1, h2, h3⟩ := hj
  simp only [wind_eq_sum]
  rw [← sum_edges_rotated _ h1, ← sum_edges_rotated _ h2, ← sum_edges_rotated _ h3]
  apply sum_edges_joined
  · intro e; exact edgeWind_swap q (gp e.1, gp e.2)
  · intro v; exact edgeWind_self q _

theorem joined_shoelace {r h out : List IPt} {a b c p : IPt} (hj : Joined r h out a b c p) :
    shoelace (ofGrid out : Pgon K) = shoelace (ofGrid r) + shoelace (ofGrid h) + shoelace (ofGrid [a, c, b]) := by
  obtain ⟨ms, hs, h1, h2, h3⟩ := hj
  simp only [shoelace_eq_sum]
  rw [← sum_edges_rotated _ h1, ← sum_edges_rotated _ h2, ← sum_edges_rotated _ h3]
  apply sum_edges_joined
  · intro e; simp only [Prod.fst_swap, Prod.snd_swap]; ring
  · intro v; simp only; ring

end

/-! ## The search for the edge -/

theorem reaches_iff {p u v : IPt} : reaches p u v = true ↔
    (v.2 ≤ p.2 ∧ p.2 < u.2) ∨ (u.2 < p.2 ∧ p.2 ≤ v.2) := by simp [reaches]

/-- The branch for horizontal edges is never taken. -/
theorem reaches_not_onLevel {p u v : IPt} (h : reaches p u v = true) : onLevel p u v = false := by
  rw [reaches_iff] at h
  simp only [onLevel, decide_eq_false_iff_not]
  rintro ⟨⟨h1, h2⟩, -⟩
  omega

theorem bridgeScan_none {p : IPt} {l : List (IPt × IPt)} {i : Nat} {best : Option (Nat × Int)}
    (h : bridgeScan p i best l = none) :
    best = none ∧ ∀ e ∈ l, reaches p e.1 e.2 = true → p.1 < cutX p e.1 e.2 := by
  induction l generalizing i best with
  | nil => exact ⟨h, by simp⟩
  | cons e l ih =>
    obtain ⟨u, v⟩ := e
    simp only [bridgeScan] at h
    split at h
    · rename_i hr
      split at h
      · exact absurd (ih h).1 (by simp)
      · rename_i hx
        rw [reaches_not_onLevel hr] at h
        simp only [Bool.false_eq_true, if_false] at h
        obtain ⟨h1, h2⟩ := ih h
        refine ⟨h1, fun e he => ?_⟩
        rcases List.mem_cons.1 he with rfl | he
        · intro _
          subst h1
          simpa using hx
        · exact h2 e he
    · rename_i hr
      obtain ⟨h1, h2⟩ := ih h
      refine ⟨h1, fun e he => ?_⟩
      rcases List.mem_cons.1 he with rfl | he
      · intro c; exact absurd c hr
      · exact h2 e he

theorem bridgeScan_some {p : IPt} {l : List (IPt × IPt)} {i : Nat} {best : Option (Nat × Int)} {j : Nat} {x : Int}
    (h : bridgeScan p i best l = some (j, x)) :
    (best = some (j, x) ∨ ∃ k e, l[k]? = some e ∧ j = i + k ∧ reaches p e.1 e.2 = true ∧ x = cutX p e.1 e.2 ∧ x ≤ p.1) ∧
    (∀ b ∈ best, b.2 ≤ x) ∧ ∀ e ∈ l, reaches p e.1 e.2 = true → cutX p e.1 e.2 ≤ x ∨ p.1 < cutX p e.1 e.2 := by
  induction l generalizing i best with
  | nil => exact ⟨Or.inl h, by intro b hb; simp only [bridgeScan] at h; subst h; cases hb; exact le_refl _, by simp⟩
  | cons e l ih =>
    obtain ⟨u, v⟩ := e
    simp only [bridgeScan] at h
    split at h
    · rename_i hr
      split at h
      · rename_i hx
        rw [Bool.and_eq_true, decide_eq_true_iff] at hx
        obtain ⟨h1, h2, h3⟩ := ih h
        have hle := h2 _ rfl
        refine ⟨Or.inr ?_, ?_, fun e he => ?_⟩
        · rcases h1 with h1 | ⟨k, e, hk, rfl, hre, hxe, hxp⟩
          · cases h1
            exact ⟨0, (u, v), rfl, rfl, hr, rfl, hx.2⟩
          · exact ⟨k + 1, e, hk, by omega, hre, hxe, hxp⟩
        · intro b hb
          cases hb
          have := hx.1
          simp only [Option.all_some, decide_eq_true_iff] at this
          simp only at hle
          omega
        · rcases List.mem_cons.1 he with rfl | he
          · intro _; exact Or.inl hle
          · exact h3 e he
      · rename_i hx
        rw [reaches_not_onLevel hr] at h
        simp only [Bool.false_eq_true, if_false] at h
        obtain ⟨h1, h2, h3⟩ := ih h
        refine ⟨?_, h2, fun e he => ?_⟩
        · rcases h1 with h1 | ⟨k, e, hk, rfl, hre, hxe, hxp⟩
          · exact Or.inl h1
          · exact Or.inr ⟨k + 1, e, hk, by omega, hre, hxe, hxp⟩
        · rcases List.mem_cons.1 he with rfl | he
          · intro _
            by_cases hp : cutX p u v ≤ p.1
            · left
              cases best with
              | none => exact absurd (by simp [hp]) hx
              | some b =>
                have := h2 b rfl
                simp only [Option.all_some, hp, decide_true, Bool.and_true, decide_eq_true_eq, gt_iff_lt, not_lt] at hx
                simp only
                omega
            · right; simpa using hp
          · exact h3 e he
    · rename_i hr
      obtain ⟨h1, h2, h3⟩ := ih h
      refine ⟨?_, h2, fun e he => ?_⟩
      · rcases h1 with h1 | ⟨k, e, hk, rfl, hre, hxe, hxp⟩
        · exact Or.inl h1
        · exact Or.inr ⟨k + 1, e, hk, by omega, hre, hxe, hxp⟩
      · rcases List.mem_cons.1 he with rfl | he
        · intro c; exact absurd c hr
        · exact h3 e he

theorem leftIndex_spec {h : List IPt} (hh : h ≠ []) : ∃ p, h[leftIndex h]? = some p ∧ ∀ v ∈ h, p.1 ≤ v.1 := by
  have hex : ∃ v ∈ h, ∀ w ∈ h, v.1 ≤ w.1 := by
    induction h with
    | nil => exact absurd rfl hh
    | cons a l ih =>
      by_cases hl : l = []
      · subst hl; exact ⟨a, by simp, by simp⟩
      · obtain ⟨v, hv, hm⟩ := ih hl
        by_cases hc : a.1 ≤ v.1
        · refine ⟨a, by simp, ?_⟩
          intro w hw
          rcases List.mem_cons.1 hw with rfl | hw
          · exact le_refl _
          · exact le_trans hc (hm w hw)
        · refine ⟨v, List.mem_cons_of_mem _ hv, ?_⟩
          intro w hw
          rcases List.mem_cons.1 hw with rfl | hw
          · omega
          · exact hm w hw
  obtain ⟨v, hv, hm⟩ := hex
  have hlt : leftIndex h < h.length := by
    apply List.findIdx_lt_length_of_exists
    exact ⟨v, hv, by simpa using fun a b hab => hm (a, b) hab⟩
  refine ⟨h[leftIndex h], List.getElem?_eq_getElem hlt, ?_⟩
  have := List.findIdx_getElem (w := hlt)
  simp only [List.all_eq_true, decide_eq_true_eq] at this
  exact this

/-- The pairs of the loop are the edges. -/
theorem pairs_edges (r : List IPt) : ∃ s : List IPt, s.IsRotated r ∧
    (r.getLast?.toList ++ r).zip r = edges s := by
  rcases List.eq_nil_or_concat r with rfl | ⟨l, z, rfl⟩
  · exact ⟨[], List.IsRotated.refl _, rfl⟩
  · refine ⟨z :: l, ?_, ?_⟩
    · have : l.concat z = l ++ [z] := by simp
      rw [this]
      exact ⟨1, by simp⟩
    · rw [edges_cons]
      simp only [List.concat_eq_append, List.getLast?_append, List.getLast?_singleton, Option.some_or, Option.toList_some,
        List.singleton_append]
      have : z :: (l ++ [z]) = (z :: l) ++ [z] := rfl
      rw [this]
      have h2 := List.zip_append (l₁ := z :: l) (r₁ := [z]) (l₂ := l ++ [z]) (r₂ := []) (by simp)
      rw [List.append_nil] at h2
      rw [h2]; simp

theorem mem_pairs {r : List IPt} {e : IPt × IPt} :
    e ∈ (r.getLast?.toList ++ r).zip r ↔ e ∈ edges r := by
  obtain ⟨s, ⟨n, rfl⟩, hs⟩ := pairs_edges r
  rw [hs, edges_rotate]
  exact List.mem_rotate.symm

/-- The pair at a position of the loop. -/
theorem pairs_get {r : List IPt} {i : Nat} {u v : IPt}
    (h : ((r.getLast?.toList ++ r).zip r)[i]? = some (u, v)) (hne : u ≠ v) :
    ∃ ms, r.drop i ++ r.take i = v :: (ms ++ [u]) ∧ r[i]? = some v := by
  rw [List.getElem?_zip_eq_some] at h
  obtain ⟨h1, h2⟩ := h
  have hi : i < r.length := (List.getElem?_eq_some_iff.1 h2).1
  have hd : r.drop i = v :: r.drop (i + 1) := by
    rw [List.drop_eq_getElem_cons hi]
    rw [List.getElem?_eq_getElem hi] at h2
    rw [Option.some.inj h2]
  have hr : r ≠ [] := by rintro rfl; simp at hi
  rw [List.getLast?_eq_some_getLast hr] at h1
  simp only [Option.toList_some, List.singleton_append] at h1
  cases i with
  | zero =>
    simp only [List.getElem?_cons_zero, Option.some.injEq] at h1
    rw [List.drop_zero, List.take_zero, List.append_nil] at *
    have hcons : r = v :: r.drop 1 := by simpa using hd
    rcases List.eq_nil_or_concat (r.drop 1) with h0 | ⟨l, z, hz⟩
    · rw [h0] at hcons
      have : r.getLast hr = v := by simp [hcons]
      exact absurd (h1.symm.trans this) hne
    · rw [List.concat_eq_append] at hz
      refine ⟨l, ?_, h2⟩
      have : r.getLast hr = z := by
        have : r = v :: l ++ [z] := by rw [hcons, hz]; rfl
        simp [this]
      rw [hcons, hz, ← h1, this]
  | succ i =>
    simp only [List.getElem?_cons_succ] at h1
    refine ⟨r.drop (i + 1 + 1) ++ r.take i, ?_, h2⟩
    have ht : r.take (i + 1) = r.take i ++ [u] := by
      rw [List.take_add_one, h1]; rfl
    rw [hd, ht]
    simp

theorem insertHole_eq {r h : List IPt} {k i : Nat} {c v : IPt} (hi : i ≤ r.length) :
    insertHole r h k i c v = r.take i ++ c :: (h.drop k ++ (h.take (k + 1) ++
      ((if c = v then [] else [c]) ++ r.drop i))) := by
  have key : ∀ l m : List IPt, insertAt i l (r.take i ++ m) = r.take i ++ (l ++ m) := by
    intro l m
    unfold insertAt
    have ht : (r.take i ++ m).take i = r.take i := by
      rw [List.take_append_of_le_length (by rw [List.length_take]; omega)]
      simp
    have hd : (r.take i ++ m).drop i = m := by
      have : i = (r.take i).length := by rw [List.length_take]; omega
      conv_lhs => rw [this]
      simp
    rw [ht, hd]; simp
  have h0 : (if c.1 ≠ v.1 ∨ c.2 ≠ v.2 then insertAt i [c] r else r) =
      r.take i ++ ((if c = v then [] else [c]) ++ r.drop i) := by
    by_cases hc : c = v
    · subst hc; simp
    · have : c.1 ≠ v.1 ∨ c.2 ≠ v.2 := by
        by_contra hh
        push Not at hh
        exact hc (Prod.ext hh.1 hh.2)
      rw [if_pos this, if_neg hc]
      unfold insertAt; simp
  unfold insertHole
  simp only
  rw [h0, key, key, key]
  simp

section Cut
variable {K : Type} [Field K] [LinearOrder K] [IsStrictOrderedRing K]

theorem tdiv_near (a b : Int) (hb : b ≠ 0) : |((a.tdiv b : Int) : K) - (a : K) / b| < 1 := by
  have h := Int.mul_tdiv_add_tmod a b
  have hK : (b : K) * ((a.tdiv b : Int) : K) + ((a.tmod b : Int) : K) = a := by exact_mod_cast h
  have hb' : (b : K) ≠ 0 := by exact_mod_cast hb
  have he : ((a.tdiv b : Int) : K) - (a : K) / b = - (((a.tmod b : Int) : K) / b) := by
    field_simp; linear_combination hK
  rw [he, abs_neg, abs_div, div_lt_one (abs_pos.2 hb')]
  have : |a.tmod b| < |b| := by
    have h2 := Int.natAbs_tmod a b
    have : (a.tmod b).natAbs < b.natAbs := by
      rw [h2]; exact Nat.mod_lt _ (by omega)
    rw [Int.abs_eq_natAbs, Int.abs_eq_natAbs]
    exact_mod_cast this
  exact_mod_cast this

theorem cutX_near (p u v : IPt) (h : u.2 ≠ v.2) :
    |((cutX p u v : Int) : K) - xAt (gp u) (gp v) (p.2 : K)| < 1 := by
  have hne : u.2 - v.2 ≠ 0 := sub_ne_zero.2 h
  have hK : ((u.2 : K) - v.2) ≠ 0 := by exact_mod_cast hne
  have hK' : ((v.2 : K) - u.2) ≠ 0 := by intro c; apply hK; linear_combination -c
  have := tdiv_near (K := K) ((u.1 - v.1) * (p.2 - v.2)) (u.2 - v.2) hne
  have he : ((cutX p u v : Int) : K) - xAt (gp u) (gp v) (p.2 : K) =
      ((((u.1 - v.1) * (p.2 - v.2)).tdiv (u.2 - v.2) : Int) : K) -
        (((u.1 - v.1) * (p.2 - v.2) : Int) : K) / ((u.2 - v.2 : Int) : K) := by
    unfold cutX xAt gp
    push_cast
    have : (v.1 : K) - (u.1 + ((p.2 : K) - u.2) * (v.1 - u.1) / (v.2 - u.2)) =
        - (((u.1 : K) - v.1) * (p.2 - v.2) / (u.2 - v.2)) := by
      field_simp
      ring
    linear_combination this
  rw [he]; exact this

/-- Where the exact abscissa is at most that of a grid point, so is the computed one. -/
theorem cutX_le (p u v : IPt) (h : u.2 ≠ v.2) (hx : xAt (gp u) (gp v) (p.2 : K) ≤ (p.1 : K)) : cutX p u v ≤ p.1 := by
  have := cutX_near (K := K) p u v h
  rw [abs_lt] at this
  have : ((cutX p u v : Int) : K) < ((p.1 + 1 : Int) : K) := by push_cast; linarith [this.2]
  have : cutX p u v < p.1 + 1 := by exact_mod_cast this
  omega

end Cut

theorem linkHole_joined {r h out : List IPt} (hl : linkHole r h = .ok out) :
    ∃ a b c p, Joined r h out a b c p ∧ Bridge r h a b c p ∧ (a, b) ∈ edges r ∧ p ∈ h ∧ c.1 = cutX p a b := by
  unfold linkHole at hl
  simp only at hl
  split at hl
  · exact absurd hl (by simp)
  rename_i p hp
  split at hl
  · exact absurd hl (by simp)
  rename_i i xnew hs
  split at hl
  · exact absurd hl (by simp)
  rename_i b hb
  obtain ⟨h1, -, h3⟩ := bridgeScan_some hs
  rcases h1 with h1 | ⟨k, ⟨a, b'⟩, hk, hik, hr, hx, hxp⟩
  · exact absurd h1 (by simp)
  simp only at hr hx
  rw [Nat.zero_add] at hik
  subst hik
  have hr' := reaches_iff.1 hr
  have hne2 : a.2 ≠ b'.2 := by omega
  have hne : a ≠ b' := fun c => hne2 (by rw [c])
  obtain ⟨ms, hrot, hb'⟩ := pairs_get hk hne
  rw [hb'] at hb
  cases hb
  have hi : i < r.length := (List.getElem?_eq_some_iff.1 hb').1
  have hh : h ≠ [] := by rintro rfl; simp at hp
  obtain ⟨p', hp', hleft⟩ := leftIndex_spec hh
  rw [hp] at hp'
  cases hp'
  have hkl : leftIndex h < h.length := (List.getElem?_eq_some_iff.1 hp).1
  have hpe : h[leftIndex h] = p := by rw [List.getElem?_eq_getElem hkl] at hp; exact Option.some.inj hp
  refine ⟨a, b, (xnew, p.2), p, ⟨ms, h.drop (leftIndex h + 1) ++ h.take (leftIndex h), ?_, ?_, ?_⟩, ?_, ?_, ?_, ?_⟩
  · rw [← hrot]
    exact List.IsRotated.symm ⟨i, by rw [List.rotate_eq_drop_append_take (le_of_lt hi)]⟩
  · refine List.IsRotated.symm ⟨leftIndex h, ?_⟩
    rw [List.rotate_eq_drop_append_take (le_of_lt hkl), List.drop_eq_getElem_cons hkl, hpe]; rfl
  · cases hl
    rw [insertHole_eq (le_of_lt hi)]
    have ht : h.take (leftIndex h + 1) = h.take (leftIndex h) ++ [p] := by rw [List.take_add_one, hp]; rfl
    have hd : h.drop (leftIndex h) = p :: h.drop (leftIndex h + 1) := by rw [List.drop_eq_getElem_cons hkl, hpe]
    have hg := List.isRotated_append (l := r.drop i) (l' := r.take i ++ (xnew, p.2) :: (h.drop (leftIndex h) ++
      (h.take (leftIndex h + 1) ++ (if (xnew, p.2) = b then [] else [(xnew, p.2)]))))
    rw [← List.append_assoc, hrot] at hg
    rw [ht, hd] at hg ⊢
    simpa using hg
  · refine ⟨hleft, rfl, hxp, ⟨by simpa using hr', ?_⟩, ?_⟩
    · have := cutX_near (K := ℚ) p a b hne2
      rw [← hx] at this
      exact this
    · intro e he hc
      have hre : reaches p e.1 e.2 = true := reaches_iff.2 (by omega)
      have hn : e.1.2 ≠ e.2.2 := by omega
      have hnear := abs_lt.1 (cutX_near (K := ℚ) p e.1 e.2 hn)
      rcases h3 e (mem_pairs.2 he) hre with h | h
      · left
        have : ((cutX p e.1 e.2 : Int) : ℚ) ≤ ((xnew : Int) : ℚ) := by exact_mod_cast h
        simp only
        linarith [hnear.1]
      · right
        have : (((p.1 + 1 : Int)) : ℚ) ≤ ((cutX p e.1 e.2 : Int) : ℚ) := by exact_mod_cast h
        push_cast at this
        linarith [hnear.2]
  · exact mem_pairs.1 (List.mem_of_getElem? hk)
  · exact List.mem_of_getElem? hp
  · exact hx

/-! ## Slivers -/

section Slivers
variable {K : Type} [Field K] [LinearOrder K] [IsStrictOrderedRing K]

theorem wind_tri (a c b q : Pt K) :
    wind [a, c, b] q = edgeWind q (a, c) + edgeWind q (c, b) + edgeWind q (b, a) := by
  unfold wind
  rw [edges_cons]; simp [add_assoc]

/-- The points that a triangle with an upward edge covers are between the edge and a line that is no farther from it than the
third vertex. -/
theorem wind_tri_up (a c b q : Pt K) (hab : a.2 < b.2) (h1 : a.2 ≤ c.2) (h2 : c.2 ≤ b.2) (hw : wind [a, c, b] q ≠ 0) :
    a.2 < q.2 ∧ q.2 ≤ b.2 ∧ ∃ s : K, 0 ≤ s ∧ s ≤ 1 ∧
      ((xAt a b q.2 ≤ q.1 ∧ q.1 < xAt a b q.2 + s * (c.1 - xAt a b c.2)) ∨
        (xAt a b q.2 + s * (c.1 - xAt a b c.2) ≤ q.1 ∧ q.1 < xAt a b q.2)) := by
  rw [wind_tri] at hw
  have hin : a.2 < q.2 ∧ q.2 ≤ b.2 := by
    by_contra hc
    apply hw
    rw [edgeWind_none, edgeWind_none, edgeWind_none]
    · rfl
    all_goals (rintro ⟨c1, c2⟩; apply hc; constructor <;> linarith)
  refine ⟨hin.1, hin.2, ?_⟩
  have hba : edgeWind q (b, a) = if q.1 < xAt a b q.2 then -1 else 0 := by
    rw [edgeWind_down _ _ _ ⟨hin.1, hin.2⟩, xAt_swap b a _ (ne_of_gt hab)]
  have d1 : b.2 - a.2 ≠ 0 := by intro h; linarith
  by_cases hy : q.2 ≤ c.2
  · have hac : edgeWind q (a, c) = if q.1 < xAt a c q.2 then 1 else 0 := edgeWind_up _ _ _ ⟨hin.1, hy⟩
    have hcb : edgeWind q (c, b) = 0 := edgeWind_none _ _ _ (by rintro ⟨c1, -⟩; linarith) (by rintro ⟨c1, -⟩; linarith [hin.2])
    have d2 : c.2 - a.2 ≠ 0 := by intro h; linarith [hin.1]
    have hx : xAt a c q.2 = xAt a b q.2 + (q.2 - a.2) / (c.2 - a.2) * (c.1 - xAt a b c.2) := by
      unfold xAt; field_simp; ring
    refine ⟨(q.2 - a.2) / (c.2 - a.2), div_nonneg (by linarith [hin.1]) (by linarith),
      (div_le_one (by linarith [hin.1])).2 (by linarith), ?_⟩
    rw [← hx]
    rw [hac, hcb, hba] at hw
    by_cases t1 : q.1 < xAt a c q.2 <;> by_cases t2 : q.1 < xAt a b q.2
    · simp [t1, t2] at hw
    · exact Or.inl ⟨not_lt.1 t2, t1⟩
    · exact Or.inr ⟨not_lt.1 t1, t2⟩
    · simp [t1, t2] at hw
  · rw [not_le] at hy
    have hcb : edgeWind q (c, b) = if q.1 < xAt c b q.2 then 1 else 0 := edgeWind_up _ _ _ ⟨hy, hin.2⟩
    have hac : edgeWind q (a, c) = 0 := edgeWind_none _ _ _ (by rintro ⟨-, c1⟩; linarith) (by rintro ⟨-, c1⟩; linarith [hin.1])
    have d2 : b.2 - c.2 ≠ 0 := by intro h; linarith [hin.2]
    have hx : xAt c b q.2 = xAt a b q.2 + (b.2 - q.2) / (b.2 - c.2) * (c.1 - xAt a b c.2) := by
      unfold xAt; field_simp; ring
    refine ⟨(b.2 - q.2) / (b.2 - c.2), div_nonneg (by linarith [hin.2]) (by linarith),
      (div_le_one (by linarith [hin.2])).2 (by linarith), ?_⟩
    rw [← hx]
    rw [hac, hcb, hba] at hw
    by_cases t1 : q.1 < xAt c b q.2 <;> by_cases t2 : q.1 < xAt a b q.2
    · simp [t1, t2] at hw
    · exact Or.inl ⟨not_lt.1 t2, t1⟩
    · exact Or.inr ⟨not_lt.1 t1, t2⟩
    · simp [t1, t2] at hw

theorem wind_tri_swap (a c b q : Pt K) : wind [b, c, a] q = - wind [a, c, b] q := by
  rw [← wind_reverse]; rfl

/-- The same for an edge in any direction. -/
theorem wind_tri_any (a c b q : Pt K) (hc : (b.2 ≤ c.2 ∧ c.2 < a.2) ∨ (a.2 < c.2 ∧ c.2 ≤ b.2)) (hw : wind [a, c, b] q ≠ 0) :
    ((a.2 < q.2 ∧ q.2 ≤ b.2) ∨ (b.2 < q.2 ∧ q.2 ≤ a.2)) ∧ ∃ s : K, 0 ≤ s ∧ s ≤ 1 ∧
      ((xAt a b q.2 ≤ q.1 ∧ q.1 < xAt a b q.2 + s * (c.1 - xAt a b c.2)) ∨
        (xAt a b q.2 + s * (c.1 - xAt a b c.2) ≤ q.1 ∧ q.1 < xAt a b q.2)) := by
  rcases hc with hc | hc
  · have hw' : wind [b, c, a] q ≠ 0 := by rw [wind_tri_swap]; simpa using hw
    have hlt : b.2 < a.2 := lt_of_le_of_lt hc.1 hc.2
    obtain ⟨h1, h2, s, h3, h4, h5⟩ := wind_tri_up b c a q hlt hc.1 (le_of_lt hc.2) hw'
    rw [xAt_swap b a _ (ne_of_lt hlt), xAt_swap b a _ (ne_of_lt hlt)] at h5
    exact ⟨Or.inr ⟨h1, h2⟩, s, h3, h4, h5⟩
  · obtain ⟨h1, h2, s, h3, h4, h5⟩ := wind_tri_up a c b q (lt_of_lt_of_le hc.1 hc.2) (le_of_lt hc.1) hc.2 hw
    exact ⟨Or.inl ⟨h1, h2⟩, s, h3, h4, h5⟩

theorem xAt_gp_cast (a b : IPt) (y : Int) : ((xAt (gp a) (gp b) (y : ℚ) : ℚ) : K) = xAt (gp a) (gp b) (y : K) := by
  unfold xAt gp; push_cast; rfl

theorem sliver_offset {a b c : IPt} (h : Sliver a b c) : |(c.1 : K) - xAt (gp a) (gp b) (c.2 : K)| < 1 := by
  have := h.near
  rw [← xAt_gp_cast]
  exact_mod_cast this

theorem sliver_height {a b c : IPt} (h : Sliver a b c) : ((gp b : Pt K).2 ≤ (gp c : Pt K).2 ∧ (gp c : Pt K).2 < (gp a : Pt K).2) ∨
    ((gp a : Pt K).2 < (gp c : Pt K).2 ∧ (gp c : Pt K).2 ≤ (gp b : Pt K).2) := by
  have := h.height
  unfold gp
  simp only
  exact_mod_cast this

/-- A sliver covers only points less than a grid unit from the edge. -/
theorem sliver_thin {a b c : IPt} (h : Sliver a b c) (q : Pt K) (hw : wind (ofGrid [a, c, b]) q ≠ 0) :
    (((a.2 : K) < q.2 ∧ q.2 ≤ b.2) ∨ ((b.2 : K) < q.2 ∧ q.2 ≤ a.2)) ∧ |q.1 - xAt (gp a) (gp b) q.2| < 1 := by
  obtain ⟨h1, s, h2, h3, h4⟩ := wind_tri_any (gp a) (gp c) (gp b) q (sliver_height h) hw
  refine ⟨h1, ?_⟩
  have h5 := abs_lt.1 (sliver_offset (K := K) h)
  set δ : K := (c.1 : K) - xAt (gp a) (gp b) (c.2 : K) with hδ
  have e : (gp c : Pt K).1 - xAt (gp a) (gp b) (gp c : Pt K).2 = δ := rfl
  rw [e] at h4
  have b1 : s * δ < 1 := by nlinarith [h5.1, h5.2]
  have b2 : -1 < s * δ := by nlinarith [h5.1, h5.2]
  rw [abs_lt]
  rcases h4 with h4 | h4 <;> constructor <;> linarith [h4.1, h4.2]

/-- A point on the edge makes no difference. -/
theorem sliver_flat {a b c : IPt} (h : Sliver a b c) (hc : (c.1 : K) = xAt (gp a) (gp b) (c.2 : K)) (q : Pt K) :
    wind (ofGrid [a, c, b]) q = 0 := by
  by_contra hw
  obtain ⟨h1, s, h2, h3, h4⟩ := wind_tri_any (gp a) (gp c) (gp b) q (sliver_height h) hw
  have e : (gp c : Pt K).1 - xAt (gp a) (gp b) (gp c : Pt K).2 = 0 := sub_eq_zero.2 hc
  rw [e] at h4
  rcases h4 with h4 | h4 <;> linarith [h4.1, h4.2]

/-- Twice the area of a sliver is its width times the height of the edge. -/
theorem sliver_area (a b c : IPt) (h : a.2 ≠ b.2) : shoelace (ofGrid [a, c, b] : Pgon K) =
    ((b.2 : K) - a.2) * (c.1 - xAt (gp a) (gp b) (c.2 : K)) := by
  have d : ((b.2 : K) - a.2) ≠ 0 := by
    have : (b.2 - a.2 : Int) ≠ 0 := by omega
    exact_mod_cast this
  rw [shoelace_eq_sum, edges_cons]
  unfold xAt gp
  simp
  field_simp
  ring

end Slivers

/-! ## The edges of joined outlines -/

section Edges
variable {α : Type}

/-- The edges of an open path. -/
def pathEdges : α → List α → List (α × α)
  | _, [] => []
  | a, b :: l => (a, b) :: pathEdges b l

theorem pathEdges_append (a : α) (l : List α) (b : α) (m : List α) :
    pathEdges a (l ++ b :: m) = pathEdges a (l ++ [b]) ++ pathEdges b m := by
  induction l generalizing a with
  | nil => simp [pathEdges]
  | cons c l ih => simp only [List.cons_append, pathEdges, ih]

theorem edges_path (a : α) (l : List α) : edges (a :: l) = pathEdges a (l ++ [a]) := by
  have : ∀ (a : α) (l : List α) (b : α), (a :: l).zip (l ++ [b]) = pathEdges a (l ++ [b]) := by
    intro a l b
    induction l generalizing a with
    | nil => simp [pathEdges]
    | cons c l ih =>
      have := ih c
      simp only [List.cons_append, List.zip_cons_cons, pathEdges] at this ⊢
      rw [this]
  rw [edges_cons, this]

theorem mem_edges_rotated {l m : List α} (h : l.IsRotated m) {e : α × α} : e ∈ edges l ↔ e ∈ edges m := by
  obtain ⟨n, rfl⟩ := h
  rw [edges_rotate, List.mem_rotate]

end Edges

theorem joined_mem_edges {r h out : List IPt} {a b c p : IPt} (hj : Joined r h out a b c p) {e : IPt × IPt} (he : e ∈ edges out) :
    e ∈ edges r ∨ e ∈ edges h ∨ e = (a, c) ∨ e = (c, b) ∨ e = (c, p) ∨ e = (p, c) := by
  obtain ⟨ms, hs, h1, h2, h3⟩ := hj
  rw [← mem_edges_rotated h3, edges_path] at he
  rw [← mem_edges_rotated h1, ← mem_edges_rotated h2, edges_path, edges_path, List.append_assoc, List.singleton_append,
    pathEdges_append]
  by_cases hc : c = b
  · subst hc
    rw [if_pos rfl] at he
    simp only [List.append_assoc, List.cons_append, List.nil_append] at he
    rw [pathEdges_append] at he
    simp only [pathEdges] at he
    rw [pathEdges_append p hs p] at he
    simp only [pathEdges, List.mem_append, List.mem_cons, List.not_mem_nil, or_false] at he ⊢
    tauto
  · rw [if_neg hc] at he
    simp only [List.append_assoc, List.cons_append, List.nil_append] at he
    rw [pathEdges_append] at he
    simp only [pathEdges] at he
    rw [pathEdges_append p hs p] at he
    simp only [pathEdges, List.mem_append, List.mem_cons, List.not_mem_nil, or_false] at he ⊢
    tauto

/-! ## Rectilinear outlines -/

theorem cutX_vertical {p u v : IPt} (h : u.1 = v.1) : cutX p u v = v.1 := by
  unfold cutX; rw [h]; simp

theorem rectilinear_foot {r : List IPt} {a b c : IPt} (hr : Rectilinear r) (hab : (a, b) ∈ edges r) (hs : Sliver a b c) : a.1 = b.1 := by
  rcases hr _ hab with h | h
  · exact h
  · have := hs.height
    simp only at h
    omega

theorem joined_rectilinear {r h out : List IPt} {a b c p : IPt} (hj : Joined r h out a b c p) (hr : Rectilinear r)
    (hh : Rectilinear h) (ha : c.1 = a.1) (hb : c.1 = b.1) (hp : c.2 = p.2) : Rectilinear out := by
  intro e he
  rcases joined_mem_edges hj he with h | h | rfl | rfl | rfl | rfl
  · exact hr e h
  · exact hh e h
  · exact Or.inl ha.symm
  · exact Or.inl hb
  · exact Or.inr hp
  · exact Or.inr hp.symm

section Found
variable {K : Type} [Field K] [LinearOrder K] [IsStrictOrderedRing K]

/-- A closed outline that has a vertex with a property and one without it enters the vertices with it somewhere. -/
theorem exists_entry {α : Type} (P : α → Prop) {l : List α} {e : α × α} (he : e ∈ edges l) (h1 : P e.1) (h2 : ¬ P e.2) :
    ∃ d ∈ edges l, ¬ P d.1 ∧ P d.2 := by
  classical
  by_contra hc
  push Not at hc
  have ht := edges_telescope (fun v => if P v then (1 : Int) else 0) l
  have hle : ∀ x ∈ (edges l).map (fun e => (if P e.2 then (1 : Int) else 0) - if P e.1 then 1 else 0), x ≤ 0 := by
    intro x hx
    obtain ⟨d, hd, rfl⟩ := List.mem_map.1 hx
    by_cases h3 : P d.1 <;> by_cases h4 : P d.2 <;> simp [h3, h4]
    exact absurd h4 (hc d hd h3)
  have key : ∀ L : List Int, (∀ x ∈ L, x ≤ 0) → ∀ y ∈ L, L.sum ≤ y := by
    intro L
    induction L with
    | nil => simp
    | cons x L ih =>
      intro hL y hy
      have hs : L.sum ≤ 0 := by
        rcases L with _ | ⟨z, L⟩
        · simp
        · exact le_trans (ih (fun x hx => hL x (List.mem_cons_of_mem _ hx)) z (by simp)) (hL z (by simp))
      rw [List.sum_cons]
      rcases List.mem_cons.1 hy with rfl | hy
      · omega
      · have := ih (fun x hx => hL x (List.mem_cons_of_mem _ hx)) y hy
        have := hL x (by simp)
        omega
  have := key _ hle _ (List.mem_map.2 ⟨e, he, rfl⟩)
  rw [ht] at this
  simp [h1, h2] at this

/-- Where the winding number is not zero there is an edge at the left. -/
theorem exists_left (P : Pgon K) (p : Pt K) (hw : wind P p ≠ 0) : ∃ e ∈ edges P,
    ((e.1.2 < p.2 ∧ p.2 ≤ e.2.2) ∨ (e.2.2 < p.2 ∧ p.2 ≤ e.1.2)) ∧ xAt e.1 e.2 p.2 ≤ p.1 := by
  by_contra hc
  push Not at hc
  apply hw
  rw [← line_crossings P p.2]
  unfold wind
  congr 1
  apply List.map_congr_left
  intro e he
  by_cases h1 : e.1.2 < p.2 ∧ p.2 ≤ e.2.2
  · rw [if_pos h1, edgeWind_up _ _ _ h1, if_pos (hc e he (Or.inl h1))]
  · rw [if_neg h1]
    by_cases h2 : e.2.2 < p.2 ∧ p.2 ≤ e.1.2
    · rw [if_pos h2, edgeWind_down _ _ _ h2, if_pos (hc e he (Or.inr h2))]
    · rw [if_neg h2, edgeWind_none _ _ _ h1 h2]

theorem onSegment_level {p u v : IPt} (h1 : u.2 = p.2) (h2 : v.2 = p.2) (h3 : v.1 ≤ p.1) (h4 : p.1 < u.1) :
    OnSegment (gp p : Pt K) (gp u) (gp v) := by
  have d : (0 : K) < (u.1 : K) - v.1 := by
    have : (v.1 : K) < (u.1 : K) := by exact_mod_cast lt_of_le_of_lt h3 h4
    linarith
  have h3' : (v.1 : K) ≤ p.1 := by exact_mod_cast h3
  have h4' : (p.1 : K) < u.1 := by exact_mod_cast h4
  refine ⟨((u.1 : K) - p.1) / (u.1 - v.1), div_nonneg (by linarith) (by linarith), (div_le_one d).2 (by linarith), ?_, ?_⟩
  · unfold gp; simp only; field_simp; ring
  · unfold gp; simp only; rw [h1, h2]; ring

/-- The search finds an edge for a point inside. -/
theorem bridgeScan_found {r : List IPt} {p : IPt} (hw : wind (ofGrid r : Pgon K) (gp p) ≠ 0)
    (ho : ¬ OnOutline (ofGrid r : Pgon K) (gp p)) :
    ∃ i x, bridgeScan p 0 none ((r.getLast?.toList ++ r).zip r) = some (i, x) := by
  cases hs : bridgeScan p 0 none ((r.getLast?.toList ++ r).zip r) with
  | some b => exact ⟨b.1, b.2, rfl⟩
  | none =>
    exfalso
    have hn : ∀ e ∈ edges r, reaches p e.1 e.2 = true → p.1 < cutX p e.1 e.2 :=
      fun e he => (bridgeScan_none hs).2 e (mem_pairs.2 he)
    obtain ⟨e', he', hl, hx⟩ := exists_left _ _ hw
    rw [ofGrid_gp, edges_map] at he'
    obtain ⟨⟨a, b⟩, he, rfl⟩ := List.mem_map.1 he'
    simp only [Prod.map_apply] at hl hx
    have hl' : (a.2 < p.2 ∧ p.2 ≤ b.2) ∨ (b.2 < p.2 ∧ p.2 ≤ a.2) := by
      unfold gp at hl
      simp only at hl
      exact_mod_cast hl
    by_cases hr : reaches p a b = true
    · have hne : a.2 ≠ b.2 := by rw [reaches_iff] at hr; omega
      have h1 := hn _ he hr
      have h2 := cutX_le (K := K) p a b hne hx
      simp only at h1
      omega
    · -- the edge starts at the height of `p`
      have hr' : a.2 = p.2 ∧ b.2 < p.2 := by
        have : ¬ _ := fun h => hr (reaches_iff.2 h)
        omega
      have hax : a.1 ≤ p.1 := by
        have : xAt (gp a : Pt K) (gp b) (gp p : Pt K).2 = (a.1 : K) := by
          unfold xAt gp; simp only; rw [hr'.1]; simp
        rw [this] at hx
        unfold gp at hx
        simp only at hx
        exact_mod_cast hx
      obtain ⟨⟨u, v⟩, hd, h3, h4⟩ := exists_entry (fun v : IPt => v.2 = p.2 ∧ v.1 ≤ p.1) he ⟨hr'.1, hax⟩
        (by simp only; omega)
      simp only at h3 h4
      by_cases hu : u.2 = p.2
      · have hu1 : p.1 < u.1 := by
          by_contra hcc
          exact h3 ⟨hu, by omega⟩
        apply ho
        refine ⟨(gp u, gp v), ?_, onSegment_level hu h4.1 h4.2 hu1⟩
        rw [ofGrid_gp, edges_map]
        exact List.mem_map.2 ⟨(u, v), hd, rfl⟩
      · have hre : reaches p u v = true := reaches_iff.2 (by omega)
        have h5 := hn _ hd hre
        have h6 : cutX p u v = v.1 := by
          unfold cutX; rw [h4.1]; simp
        simp only at h5
        omega

theorem linkHole_ok {r h : List IPt} (hh : h ≠ []) (hi : ∀ p ∈ h, (∀ v ∈ h, p.1 ≤ v.1) →
    wind (ofGrid r : Pgon K) (gp p) ≠ 0 ∧ ¬ OnOutline (ofGrid r : Pgon K) (gp p)) :
    ∃ out, linkHole r h = .ok out := by
  obtain ⟨p, hp, hleft⟩ := leftIndex_spec hh
  obtain ⟨h1, h2⟩ := hi p (List.mem_of_getElem? hp) hleft
  obtain ⟨i, x, hs⟩ := bridgeScan_found h1 h2
  have hb : ∃ b, r[i]? = some b := by
    obtain ⟨h3, -, -⟩ := bridgeScan_some hs
    rcases h3 with h3 | ⟨k, e, hk, hik, -⟩
    · exact absurd h3 (by simp)
    · rw [Nat.zero_add] at hik
      subst hik
      obtain ⟨u, v⟩ := e
      rw [List.getElem?_zip_eq_some] at hk
      exact ⟨v, hk.2⟩
  obtain ⟨b, hb⟩ := hb
  exact ⟨insertHole r h (leftIndex h) i (x, p.2) b, by unfold linkHole; simp only [hp, hs, hb]⟩

/-- A point that is on the outline after a hole has been joined was on it, or is on the outline of the hole or the bridge. -/
theorem onSegment_sub {q a b c : Pt K} (hb : OnSegment c a b) (h : OnSegment q a c ∨ OnSegment q c b) : OnSegment q a b := by
  obtain ⟨s, s0, s1, hs1, hs2⟩ := hb
  rcases h with ⟨t, t0, t1, ht1, ht2⟩ | ⟨t, t0, t1, ht1, ht2⟩
  · exact ⟨t * s, mul_nonneg t0 s0, by nlinarith, by rw [ht1, hs1]; ring, by rw [ht2, hs2]; ring⟩
  · exact ⟨s + t * (1 - s), by nlinarith, by nlinarith, by rw [ht1, hs1]; ring, by rw [ht2, hs2]; ring⟩

theorem foot_onSegment {a b c : IPt} (hs : Sliver a b c) (ha : c.1 = a.1) (hb : c.1 = b.1) :
    OnSegment (gp c : Pt K) (gp a) (gp b) := by
  have hh := sliver_height (K := K) hs
  unfold gp at hh
  simp only at hh
  have d : ((b.2 : K) - a.2) ≠ 0 := by
    intro h; rcases hh with h' | h' <;> linarith [h'.1, h'.2]
  refine ⟨((c.2 : K) - a.2) / (b.2 - a.2), ?_, ?_, ?_, ?_⟩
  · rcases hh with h' | h'
    · exact div_nonneg_of_nonpos (by linarith [h'.2]) (by linarith [h'.1, h'.2])
    · exact div_nonneg (by linarith [h'.1]) (by linarith [h'.1, h'.2])
  · rcases hh with h' | h'
    · rw [div_le_one_of_neg (by linarith [h'.1, h'.2])]; linarith [h'.1]
    · rw [div_le_one (by linarith [h'.1, h'.2])]; linarith [h'.2]
  · unfold gp; simp only; rw [← ha, ← hb]; ring
  · unfold gp; simp only; field_simp; ring

theorem joined_onOutline {r h out : List IPt} {a b c p : IPt} (hj : Joined r h out a b c p) (hab : (a, b) ∈ edges r)
    (hs : Sliver a b c) (ha : c.1 = a.1) (hb : c.1 = b.1) (hl : c.2 = p.2) (hcp : c.1 ≤ p.1) {q : Pt K}
    (hq : OnOutline (ofGrid out) q) :
    OnOutline (ofGrid r) q ∨ OnOutline (ofGrid h) q ∨ (q.2 = (p.2 : K) ∧ (c.1 : K) ≤ q.1 ∧ q.1 ≤ (p.1 : K)) := by
  obtain ⟨e', he', hon⟩ := hq
  rw [ofGrid_gp, edges_map] at he'
  obtain ⟨e, he, rfl⟩ := List.mem_map.1 he'
  simp only [Prod.map_fst, Prod.map_snd] at hon
  have lift : ∀ {P : List IPt} {e : IPt × IPt}, e ∈ edges P → OnSegment q (gp e.1) (gp e.2) → OnOutline (ofGrid P) q := by
    intro P e he hon
    refine ⟨(gp e.1, gp e.2), ?_, hon⟩
    rw [ofGrid_gp, edges_map]
    exact List.mem_map.2 ⟨e, he, rfl⟩
  have hcp' : (c.1 : K) ≤ p.1 := by exact_mod_cast hcp
  have hl' : (c.2 : K) = p.2 := by exact_mod_cast hl
  rcases joined_mem_edges hj he with h | h | rfl | rfl | rfl | rfl
  · exact Or.inl (lift h hon)
  · exact Or.inr (Or.inl (lift h hon))
  · exact Or.inl (lift hab (onSegment_sub (foot_onSegment hs ha hb) (Or.inl hon)))
  · exact Or.inl (lift hab (onSegment_sub (foot_onSegment hs ha hb) (Or.inr hon)))
  · right; right
    obtain ⟨s, s0, s1, hs1, hs2⟩ := hon
    unfold gp at hs1 hs2
    simp only at hs1 hs2
    refine ⟨by rw [hs2, hl']; ring, ?_, ?_⟩ <;> rw [hs1] <;> nlinarith
  · right; right
    obtain ⟨s, s0, s1, hs1, hs2⟩ := hon
    unfold gp at hs1 hs2
    simp only at hs1 hs2
    refine ⟨by rw [hs2, hl']; ring, ?_, ?_⟩ <;> rw [hs1] <;> nlinarith

theorem vertex_onOutline {P : List IPt} {p : IPt} (hp : p ∈ P) : OnOutline (ofGrid P : Pgon K) (gp p) := by
  have h := List.map_fst_zip (l₁ := P) (l₂ := P.rotate 1) (by simp)
  rw [← h] at hp
  obtain ⟨e, he, rfl⟩ := List.mem_map.1 hp
  refine ⟨(gp e.1, gp e.2), ?_, 0, le_refl _, zero_le_one, by ring, by ring⟩
  rw [ofGrid_gp, edges_map]
  exact List.mem_map.2 ⟨e, he, rfl⟩

end Found

end Gdspy
