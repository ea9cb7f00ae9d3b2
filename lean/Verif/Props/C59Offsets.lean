import Verif.Props.C59

/-!
# C59: the offsets of parallel paths

With several widths and a number as offset the number is the distance of neighbouring paths, and the paths are
arranged symmetrically around the spine (path.py:313-329).
-/

set_option linter.unusedSectionVars false

namespace Gdspy

open Spec

variable {K : Type} [Field K]

/-- The offsets of `n` paths at distance `o`: neighbours differ by `o`, and the offset of each path is opposite to that
of the path counted from the other end. -/
structure Spec.Centred (n : Nat) (o : K) (l : List K) : Prop where
  count : l.length = n
  step : ∀ (i : Nat) (x y : K), l[i]? = some x → l[i + 1]? = some y → y - x = o
  opposite : ∀ (i j : Nat) (x y : K), l[i]? = some x → l[j]? = some y → i + j + 1 = n → x + y = 0

/-- In characteristic zero there is only one such list. -/
theorem centred_unique [CharZero K] {n : Nat} {o : K} {l l' : List K} (h : Centred n o l) (h' : Centred n o l') :
    l = l' := by
  have key : ∀ {l : List K}, Centred n o l → ∀ (i : Nat) (x : K), l[i]? = some x → 2 * x = (2 * (i : K) - ((n : K) - 1)) * o := by
    intro l h
    have up : ∀ (i : Nat) (x y : K), l[0]? = some x → l[i]? = some y → y = x + i * o := by
      intro i
      induction i with
      | zero => intro x y h1 h2; rw [h1] at h2; cases h2; simp
      | succ i ih =>
        intro x y h1 h2
        have hi : i < l.length := by
          have := (List.getElem?_eq_some_iff.1 h2).1; omega
        have h3 := ih x l[i] h1 (List.getElem?_eq_getElem hi)
        have h4 := h.step i l[i] y (List.getElem?_eq_getElem hi) h2
        push_cast
        linear_combination h4 + h3
    intro i x hx
    have hi : i < l.length := (List.getElem?_eq_some_iff.1 hx).1
    have hn := h.count
    have h0 : 0 < l.length := by omega
    have e0 := List.getElem?_eq_getElem h0
    have el := List.getElem?_eq_getElem (l := l) (i := n - 1) (by omega)
    have a := up i _ x e0 hx
    have b := up (n - 1) _ _ e0 el
    have c := h.opposite 0 (n - 1) _ _ e0 el (by omega)
    have hc : ((n - 1 : Nat) : K) = (n : K) - 1 := by
      rw [Nat.cast_sub (by omega)]; simp
    rw [hc] at b
    linear_combination 2 * a + c - b
  apply List.ext_getElem (h.count.trans h'.count.symm)
  intro i h1 h2
  have a := key h i _ (List.getElem?_eq_getElem h1)
  have b := key h' i _ (List.getElem?_eq_getElem h2)
  exact mul_left_cancel₀ two_ne_zero (a.trans b.symm)

/-- **C59.** A number as offset with several widths: as many paths as widths, side by side at that distance and centred on
the spine, at every point. -/
theorem C59_offsets_centred [CharZero K] {pts : List (Pt K)} {ws : List K} {o : K} {corners : CycArg (FlexCorner K)}
    {ends : CycArg (FlexEnd K)} {radius : CycArg (Option K)} {tol prec : K} {mp : Nat} {gp wt : Bool}
    {layer datatype : CycArg Int} {f : Flex K}
    (h : Flex.new (.list pts) (.list ws) (.one o) corners ends radius tol prec mp gp wt layer datatype = .ok f) :
    f.n = ws.length ∧ f.offsets.length = pts.length ∧ f.widths.length = pts.length ∧
      (∀ r ∈ f.widths, r = ws) ∧ ∀ r ∈ f.offsets, Centred ws.length o r := by
  have hs : f.n = ws.length ∧ f.widths = List.replicate pts.length ws ∧
      f.offsets = List.replicate pts.length (flexRows (.list ws) (.one o)).2.2 := by
    unfold Flex.new at h
    simp only [flexRows] at h
    cases h1 : ends.spread ws.length with
    | error e => rw [h1] at h; cases h
    | ok a =>
    cases h2 : corners.spread ws.length with
    | error e => rw [h1, h2] at h; cases h
    | ok b =>
    cases h3 : radius.spread ws.length with
    | error e => rw [h1, h2, h3] at h; cases h
    | ok c =>
    cases h4 : layer.spread ws.length with
    | error e => rw [h1, h2, h3, h4] at h; cases h
    | ok d =>
    cases h5 : datatype.spread ws.length with
    | error e => rw [h1, h2, h3, h4, h5] at h; cases h
    | ok e =>
      rw [h1, h2, h3, h4, h5] at h
      cases h
      exact ⟨rfl, rfl, rfl⟩
  obtain ⟨e1, e2, e3⟩ := hs
  refine ⟨e1, by rw [e3]; simp, by rw [e2]; simp, fun r hr => by rw [e2] at hr; exact List.eq_of_mem_replicate hr,
    fun r hr => ?_⟩
  rw [e3] at hr
  rw [List.eq_of_mem_replicate hr]
  have get : ∀ (i : Nat) (x : K), (flexRows (.list ws) (.one o)).2.2[i]? = some x →
      i < ws.length ∧ x = ((i : K) - ((ws.length : K) - 1) / 2) * o := by
    intro i x hx
    simp only [flexRows, List.getElem?_map] at hx
    by_cases hi : i < ws.length
    · rw [List.getElem?_range hi] at hx
      simp at hx
      exact ⟨hi, hx.symm⟩
    · rw [List.getElem?_eq_none (by simpa using hi)] at hx
      cases hx
  refine ⟨by simp [flexRows], ?_, ?_⟩
  · intro i x y hx hy
    rw [(get i x hx).2, (get _ y hy).2]
    push_cast
    ring
  · intro i j x y hx hy hij
    rw [(get i x hx).2, (get j y hy).2, ← hij]
    push_cast
    field_simp
    ring

example : Centred 3 (5 : ℚ) [-5, 0, 5] ∧ ∃ f : Flex ℚ, sampleFlex = .ok f := by
  refine ⟨⟨rfl, ?_, ?_⟩, _, rfl⟩
  · intro i x y hx hy
    match i with
    | 0 => simp at hx hy; subst hx hy; norm_num
    | 1 => simp at hx hy; subst hx hy; norm_num
    | k + 2 => simp at hy
  · intro i j x y hx hy hij
    match i, j with
    | 0, 2 => simp at hx hy; subst hx hy; norm_num
    | 1, 1 => simp at hx hy; subst hx hy; norm_num
    | 2, 0 => simp at hx hy; subst hx hy; norm_num
    | 0, 0 => omega
    | 0, 1 => omega
    | 1, 0 => omega
    | 0, k + 3 => omega
    | 1, k + 2 => omega
    | 2, k + 1 => omega
    | k + 3, _ => omega

end Gdspy
