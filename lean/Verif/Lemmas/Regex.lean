import Verif.Spec.Viewer

/-!
# Regular expressions: the matcher agrees with the language
-/

namespace Gdspy

/-- The strings that an expression matches. -/
inductive Re.Lang : Re → Str → Prop
  | chr {p : Char → Bool} {c : Char} : p c = true → Lang (.chr p) [c]
  | seq {a b : Re} {s t : Str} : Lang a s → Lang b t → Lang (.seq a b) (s ++ t)
  | left {a b : Re} {s : Str} : Lang a s → Lang (.alt a b) s
  | right {a b : Re} {s : Str} : Lang b s → Lang (.alt a b) s
  | eps : Lang .eps []
  | nil {a : Re} : Lang (.star a) []
  | more {a : Re} {s t : Str} : s ≠ [] → Lang a s → Lang (.star a) t → Lang (.star a) (s ++ t)

theorem Re.stars_sound {a : Re} (ha : ∀ s t, t ∈ a.run s → ∃ p, s = p ++ t ∧ Re.Lang a p) :
    ∀ (n : Nat) (s t : Str), t ∈ Re.stars a.run n s → ∃ p, s = p ++ t ∧ Re.Lang (.star a) p := by
  intro n
  induction n with
  | zero =>
    intro s t h
    simp only [Re.stars, List.mem_singleton] at h
    exact ⟨[], by simp [h], .nil⟩
  | succ n ih =>
    intro s t h
    simp only [Re.stars, List.mem_append, List.mem_flatMap, List.mem_filter, List.mem_singleton,
      decide_eq_true_eq] at h
    rcases h with ⟨r, ⟨hr, hlt⟩, ht⟩ | rfl
    · obtain ⟨p, rfl, hp⟩ := ha s r hr
      obtain ⟨q, rfl, hq⟩ := ih r t ht
      refine ⟨p ++ q, by simp, .more ?_ hp hq⟩
      rintro rfl
      simp at hlt
    · exact ⟨[], by simp, .nil⟩

theorem Re.run_sound (r : Re) : ∀ (s t : Str), t ∈ r.run s → ∃ p, s = p ++ t ∧ Re.Lang r p := by
  induction r with
  | chr p =>
    intro s t h
    cases s with
    | nil => simp [Re.run] at h
    | cons c s =>
      simp only [Re.run] at h
      split at h
      · simp only [List.mem_singleton] at h
        exact ⟨[c], by simp [h], .chr (by assumption)⟩
      · simp at h
  | seq a b iha ihb =>
    intro s t h
    simp only [Re.run, List.mem_flatMap] at h
    obtain ⟨r, hr, ht⟩ := h
    obtain ⟨p, rfl, hp⟩ := iha s r hr
    obtain ⟨q, rfl, hq⟩ := ihb r t ht
    exact ⟨p ++ q, by simp, .seq hp hq⟩
  | alt a b iha ihb =>
    intro s t h
    simp only [Re.run, List.mem_append] at h
    rcases h with h | h
    · obtain ⟨p, e, hp⟩ := iha s t h; exact ⟨p, e, .left hp⟩
    · obtain ⟨p, e, hp⟩ := ihb s t h; exact ⟨p, e, .right hp⟩
  | eps =>
    intro s t h
    simp only [Re.run, List.mem_singleton] at h
    exact ⟨[], by simp [h], .eps⟩
  | star a ih =>
    intro s t h
    exact Re.stars_sound ih _ s t h

theorem Re.run_complete {r : Re} {p : Str} (h : Re.Lang r p) : ∀ t : Str, t ∈ r.run (p ++ t) := by
  have key : ∀ (r : Re) (p : Str), Re.Lang r p → ∀ t : Str, t ∈ r.run (p ++ t) ∧
      ∀ a, r = .star a → ∀ n, (p ++ t).length ≤ n → t ∈ Re.stars a.run n (p ++ t) := by
    intro r p h
    induction h with
    | chr hc => intro t; exact ⟨by simp [Re.run, hc], by simp⟩
    | @seq a b s u _ _ iha ihb =>
      intro t
      refine ⟨?_, by simp⟩
      simp only [Re.run, List.mem_flatMap]
      exact ⟨u ++ t, by rw [List.append_assoc]; exact (iha (u ++ t)).1, (ihb t).1⟩
    | left _ ih => intro t; exact ⟨by simp [Re.run, (ih t).1], by simp⟩
    | right _ ih => intro t; exact ⟨by simp [Re.run, (ih t).1], by simp⟩
    | eps => intro t; exact ⟨by simp [Re.run], by simp⟩
    | @nil a =>
      intro t
      have : ∀ n, t ∈ Re.stars a.run n ([] ++ t) := by
        intro n
        cases n <;> simp [Re.stars]
      refine ⟨this _, ?_⟩
      intro a' ha n _
      cases ha
      exact this n
    | @more a s u hs _ _ iha ihu =>
      intro t
      have hlen : 0 < s.length := List.length_pos_iff.2 hs
      have : ∀ n, (s ++ u ++ t).length ≤ n → t ∈ Re.stars a.run n (s ++ u ++ t) := by
        intro n hn
        cases n with
        | zero => simp at hn; exact absurd hn.1 hs
        | succ n =>
          simp only [Re.stars, List.mem_append, List.mem_flatMap, List.mem_filter, decide_eq_true_eq]
          left
          refine ⟨u ++ t, ⟨?_, ?_⟩, ?_⟩
          · rw [List.append_assoc]; exact (iha (u ++ t)).1
          · simp only [List.length_append]; omega
          · refine (ihu t).2 a rfl n ?_
            simp only [List.length_append] at hn ⊢
            omega
      refine ⟨this _ le_rfl, ?_⟩
      intro a' ha n hn
      cases ha
      exact this n hn
  exact fun t => (key r p h t).1

theorem Re.fullmatch_iff (r : Re) (s : Str) : r.fullmatch s = true ↔ Re.Lang r s := by
  unfold Re.fullmatch
  rw [List.any_eq_true]
  constructor
  · rintro ⟨t, ht, he⟩
    obtain ⟨p, rfl, hp⟩ := r.run_sound s t ht
    have : t = [] := List.isEmpty_iff.1 he
    subst this
    simpa using hp
  · intro h
    refine ⟨[], ?_, rfl⟩
    have := Re.run_complete h []
    simpa using this

/-- The first match at a position, if there is one. -/
theorem Re.head_run (r : Re) (s : Str) :
    (∃ p t, (r.run s).head? = some t ∧ s = p ++ t ∧ Re.Lang r p) ∨
      ((r.run s).head? = none ∧ ∀ p t, s = p ++ t → ¬ Re.Lang r p) := by
  cases h : (r.run s).head? with
  | some t =>
    left
    obtain ⟨p, e, hp⟩ := r.run_sound s t (List.mem_of_head? h)
    exact ⟨p, t, rfl, e, hp⟩
  | none =>
    right
    refine ⟨rfl, ?_⟩
    rintro p t rfl hp
    have := Re.run_complete hp t
    rw [List.head?_eq_none_iff] at h
    rw [h] at this
    simp at this

end Gdspy
