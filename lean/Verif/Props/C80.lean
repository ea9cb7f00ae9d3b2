import Verif.Lemmas.Regex
import Mathlib.Data.List.Induction

/-!
# C80: the visibility filter of the viewer
-/

namespace Gdspy

open Spec

/-! ## The grammar -/

theorem isWs_iff (c : Char) : isWs c = true ↔ c ∈ [' ', '\t', '\n', '\r', '\x0b', '\x0c'] := by
  simp [isWs, or_assoc]

theorem lang_lit {c : Char} {s : Str} : Re.Lang (Re.lit c) s ↔ s = [c] := by
  constructor
  · intro h
    cases h with
    | chr hp => simp only [decide_eq_true_eq] at hp; rw [hp]
  · rintro rfl
    exact .chr (by simp)

theorem lang_seq {a b : Re} {s : Str} : Re.Lang (.seq a b) s ↔ ∃ u v, s = u ++ v ∧ Re.Lang a u ∧ Re.Lang b v := by
  constructor
  · intro h
    cases h with
    | seq h1 h2 => exact ⟨_, _, rfl, h1, h2⟩
  · rintro ⟨u, v, rfl, h1, h2⟩
    exact .seq h1 h2

theorem lang_alt {a b : Re} {s : Str} : Re.Lang (.alt a b) s ↔ Re.Lang a s ∨ Re.Lang b s := by
  constructor
  · intro h
    cases h with
    | left h => exact Or.inl h
    | right h => exact Or.inr h
  · rintro (h | h)
    · exact .left h
    · exact .right h

theorem lang_eps {s : Str} : Re.Lang .eps s ↔ s = [] := by
  constructor
  · intro h; cases h; rfl
  · rintro rfl; exact .eps

/-- Induction for repetitions. -/
theorem lang_star_ind {a : Re} {Q : Str → Prop} (h0 : Q [])
    (h1 : ∀ s t, s ≠ [] → Re.Lang a s → Re.Lang (.star a) t → Q t → Q (s ++ t)) {s : Str}
    (h : Re.Lang (.star a) s) : Q s := by
  generalize hr : Re.star a = r at h
  induction h with
  | nil => exact h0
  | more hs ha ht _ ih =>
    cases hr
    exact h1 _ _ hs ha ht (ih rfl)
  | chr _ => cases hr
  | seq _ _ _ _ => cases hr
  | left _ _ => cases hr
  | right _ _ => cases hr
  | eps => cases hr

theorem lang_ws {s : Str} : Re.Lang Re.ws s ↔ Blank s := by
  constructor
  · intro h
    refine lang_star_ind (Q := Blank) (by simp [Blank]) ?_ h
    rintro s t - hs - ht
    cases hs with
    | chr hc =>
      intro c hm
      rcases List.mem_cons.1 hm with rfl | hm
      · exact (isWs_iff _).1 hc
      · exact ht c hm
  · intro h
    induction s with
    | nil => exact .nil
    | cons c s ih =>
      exact .more (s := [c]) (by simp) (.chr ((isWs_iff c).2 (h c List.mem_cons_self)))
        (ih fun d hd => h d (List.mem_cons_of_mem _ hd))

theorem isDigit_iff (c : Char) : c.isDigit = true ↔ ∃ d : Nat, d < 10 ∧ c = Char.ofNat (48 + d) := by
  constructor
  · intro h
    simp only [Char.isDigit, Bool.and_eq_true, decide_eq_true_eq, ge_iff_le, UInt32.le_iff_toNat_le] at h
    have h1 : 48 ≤ c.toNat := h.1
    have h2 : c.toNat ≤ 57 := h.2
    refine ⟨c.toNat - 48, by omega, ?_⟩
    rw [Nat.add_sub_cancel' h1, Char.ofNat_toNat]
  · rintro ⟨d, hd, rfl⟩
    have : ∀ d : Fin 10, (Char.ofNat (48 + d.val)).isDigit = true := by decide
    exact this ⟨d, hd⟩

theorem numeral_digits {s : Str} {n : Nat} (h : Numeral s n) : s ≠ [] ∧ ∀ c ∈ s, c.isDigit = true := by
  induction h with
  | digit hd => exact ⟨by simp, by simpa using (isDigit_iff _).2 ⟨_, hd, rfl⟩⟩
  | snoc hd _ ih =>
    refine ⟨by simp, ?_⟩
    intro c hc
    rcases List.mem_append.1 hc with hc | hc
    · exact ih.2 c hc
    · simp only [List.mem_singleton] at hc
      rw [hc]
      exact (isDigit_iff _).2 ⟨_, hd, rfl⟩

theorem digits_numeral : ∀ (s : Str), s ≠ [] → (∀ c ∈ s, c.isDigit = true) → ∃ n, Numeral s n := by
  intro s
  induction s using List.reverseRecOn with
  | nil => intro h; exact absurd rfl h
  | append_singleton s c ih =>
    intro _ hc
    obtain ⟨d, hd, rfl⟩ := (isDigit_iff c).1 (hc c (by simp))
    by_cases hs : s = []
    · subst hs
      exact ⟨d, .digit hd⟩
    · obtain ⟨n, hn⟩ := ih hs fun c h => hc c (List.mem_append_left _ h)
      exact ⟨_, .snoc hd hn⟩

theorem lang_digits {s : Str} : Re.Lang Re.digits s ↔ ∃ n, Numeral s n := by
  have hstar : ∀ t : Str, Re.Lang (.star (.chr Char.isDigit)) t ↔ ∀ c ∈ t, c.isDigit = true := by
    intro t
    constructor
    · intro h
      refine lang_star_ind (Q := fun t => ∀ c ∈ t, c.isDigit = true) (by simp) ?_ h
      rintro s t - hs - ht c hm
      cases hs with
      | chr hc =>
        rcases List.mem_cons.1 hm with rfl | hm
        · exact hc
        · exact ht c hm
    · intro h
      induction t with
      | nil => exact .nil
      | cons c t ih =>
        exact .more (s := [c]) (by simp) (.chr (h c List.mem_cons_self))
          (ih fun d hd => h d (List.mem_cons_of_mem _ hd))
  unfold Re.digits
  rw [lang_seq]
  constructor
  · rintro ⟨u, v, rfl, hu, hv⟩
    cases hu with
    | chr hc =>
      refine digits_numeral _ (by simp) ?_
      intro c hm
      rcases List.mem_append.1 hm with hm | hm
      · simp only [List.mem_singleton] at hm; rw [hm]; exact hc
      · exact (hstar v).1 hv c hm
  · rintro ⟨n, hn⟩
    obtain ⟨h1, h2⟩ := numeral_digits hn
    cases s with
    | nil => exact absurd rfl h1
    | cons c s =>
      exact ⟨[c], s, rfl, .chr (h2 c List.mem_cons_self), (hstar s).2 fun d hd => h2 d (List.mem_cons_of_mem _ hd)⟩

theorem lang_item {s : Str} : Re.Lang reItem s ↔ ∃ i, WritesItem s i := by
  unfold reItem Re.opt
  simp only [lang_alt, lang_seq, lang_lit, lang_digits, lang_ws, lang_eps]
  constructor
  · rintro (rfl | ⟨u, v, rfl, ⟨n, hn⟩, (⟨w1, r1, rfl, hw1, w2, r2, rfl, rfl, w3, r3, rfl, hw3, m, hm⟩ | rfl)⟩)
    · exact ⟨_, .any⟩
    · refine ⟨.range n m, ?_⟩
      have := WritesItem.range hn hm hw1 hw3
      simpa using this
    · exact ⟨.one n, by simpa using WritesItem.one hn⟩
  · rintro ⟨i, hi⟩
    cases hi with
    | any => exact Or.inl rfl
    | @range a b s t lo hi ha hb hs ht =>
      exact Or.inr ⟨a, s ++ (['-'] ++ (t ++ b)), by simp, ⟨lo, ha⟩, Or.inl ⟨s, _, rfl, hs, _, _, rfl, rfl, t, b, rfl, ht, hi, hb⟩⟩
    | one ha => exact Or.inr ⟨s, [], by simp, ⟨_, ha⟩, Or.inr rfl⟩

theorem lang_list {s : Str} : Re.Lang reList s ↔ ∃ l, WritesItems s l := by
  unfold reList
  rw [lang_seq]
  constructor
  · rintro ⟨u, v, rfl, hu, hv⟩
    have key : ∀ w, (∃ i, WritesItem w i) → ∃ l, WritesItems (w ++ v) l := by
      refine lang_star_ind (Q := fun v => ∀ w, (∃ i, WritesItem w i) → ∃ l, WritesItems (w ++ v) l) ?_ ?_ hv
      · rintro w ⟨i, hi⟩
        exact ⟨[i], by simpa using WritesItems.one hi⟩
      · rintro s t - hs - ih w ⟨i, hi⟩
        simp only [lang_seq, lang_lit, lang_ws] at hs
        obtain ⟨w1, r1, rfl, hw1, w2, r2, rfl, rfl, w3, r3, rfl, hw3, hr⟩ := hs
        obtain ⟨l, hl⟩ := ih r3 (lang_item.1 hr)
        refine ⟨i :: l, ?_⟩
        have := WritesItems.cons hi hw1 hw3 hl
        simpa using this
    exact key u (lang_item.1 hu)
  · rintro ⟨l, hl⟩
    induction hl with
    | one hi => exact ⟨_, [], by simp, lang_item.2 ⟨_, hi⟩, .nil⟩
    | @cons s i u v t l hi hu hv _ ih =>
      obtain ⟨a, b, rfl, ha, hb⟩ := ih
      refine ⟨s, (u ++ [','] ++ v ++ a) ++ b, by simp, lang_item.2 ⟨_, hi⟩, .more (by simp) ?_ hb⟩
      simp only [lang_seq, lang_lit, lang_ws]
      exact ⟨u, _, by simp, hu, _, _, rfl, rfl, v, a, rfl, hv, ha⟩

theorem lang_spec {s : Str} : Re.Lang reSpec s ↔ ∃ p, WritesSpec s p := by
  unfold reSpec
  simp only [lang_seq, lang_lit, lang_ws, lang_list]
  constructor
  · rintro ⟨u, _, rfl, hu, _, _, rfl, rfl, v, _, rfl, hv, a, _, rfl, ⟨l, hl⟩, w, _, rfl, hw, _, _, rfl, rfl, x, _,
      rfl, hx, b, _, rfl, ⟨d, hd⟩, y, _, rfl, hy, _, z, rfl, rfl, hz⟩
    refine ⟨(l, d), ?_⟩
    have := WritesSpec.mk hu hv hw hx hy hz hl hd
    simpa using this
  · rintro ⟨p, hp⟩
    cases hp with
    | @mk u v w x y z a b l d hu hv hw hx hy hz hl hd =>
      exact ⟨u, _, by simp, hu, _, _, rfl, rfl, v, _, rfl, hv, a, _, rfl, ⟨l, hl⟩, w, _, rfl, hw, _, _, rfl, rfl, x, _,
        rfl, hx, b, _, rfl, ⟨d, hd⟩, y, _, rfl, hy, _, z, rfl, rfl, hz⟩

theorem lang_filter {s : Str} : Re.Lang reFilter s ↔ ∃ f, WritesFilter s f := by
  unfold reFilter
  rw [lang_seq]
  constructor
  · rintro ⟨u, v, rfl, hu, hv⟩
    have key : ∀ w, (∃ i, WritesSpec w i) → ∃ l, WritesFilter (w ++ v) l := by
      refine lang_star_ind (Q := fun v => ∀ w, (∃ i, WritesSpec w i) → ∃ l, WritesFilter (w ++ v) l) ?_ ?_ hv
      · rintro w ⟨i, hi⟩
        exact ⟨[i], by simpa using WritesFilter.one hi⟩
      · rintro s t - hs - ih w ⟨i, hi⟩
        simp only [lang_seq, lang_lit] at hs
        obtain ⟨w2, r2, rfl, rfl, hr⟩ := hs
        obtain ⟨l, hl⟩ := ih r2 (lang_spec.1 hr)
        refine ⟨i :: l, ?_⟩
        have := WritesFilter.cons hi hl
        simpa using this
    exact key u (lang_spec.1 hu)
  · rintro ⟨l, hl⟩
    induction hl with
    | one hi => exact ⟨_, [], by simp, lang_spec.2 ⟨_, hi⟩, .nil⟩
    | @cons s p t l hi _ ih =>
      obtain ⟨a, b, rfl, ha, hb⟩ := ih
      refine ⟨s, ([','] ++ a) ++ b, by simp, lang_spec.2 ⟨_, hi⟩, .more (by simp) ?_ hb⟩
      simp only [lang_seq, lang_lit]
      exact ⟨_, _, rfl, rfl, ha⟩

/-! ## Strings -/

theorem dropWhile_blank {v : Str} (hv : Blank v) (s : Str) : (v ++ s).dropWhile isWs = s.dropWhile isWs := by
  induction v with
  | nil => rfl
  | cons c v ih =>
    have hc : isWs c = true := (isWs_iff c).2 (hv c List.mem_cons_self)
    simp only [List.cons_append, List.dropWhile_cons, hc, if_true]
    exact ih fun d hd => hv d (List.mem_cons_of_mem _ hd)

theorem blank_reverse {v : Str} (hv : Blank v) : Blank v.reverse := fun c hc => hv c (List.mem_reverse.1 hc)

/-- Stripping the white space around a text. -/
theorem stripWs_pad {v u a : Str} (hv : Blank v) (hu : Blank u)
    (h1 : ∃ c r, a = c :: r ∧ isWs c = false) (h2 : ∃ c r, a = r ++ [c] ∧ isWs c = false) :
    stripWs (v ++ a ++ u) = a := by
  unfold stripWs
  rw [List.append_assoc, dropWhile_blank hv]
  obtain ⟨c, r, rfl, hc⟩ := h1
  rw [List.cons_append, List.dropWhile_cons, hc]
  simp only [Bool.false_eq_true, if_false]
  rw [← List.cons_append, List.reverse_append, dropWhile_blank (blank_reverse hu)]
  obtain ⟨c', r', e, hc'⟩ := h2
  rw [e, List.reverse_append, List.reverse_singleton, List.singleton_append, List.dropWhile_cons, hc']
  simp

theorem splitChar_none {sep : Char} : ∀ {a : Str}, sep ∉ a → splitChar sep a = [a] := by
  intro a
  induction a with
  | nil => intro _; rfl
  | cons c a ih =>
    intro h
    simp only [List.mem_cons, not_or] at h
    simp only [splitChar]
    rw [if_neg (fun e => h.1 e.symm), ih h.2]

theorem splitChar_one {sep : Char} : ∀ {a : Str} (b : Str), sep ∉ a →
    splitChar sep (a ++ [sep] ++ b) = a :: splitChar sep b := by
  intro a b
  induction a with
  | nil => intro _; simp [splitChar]
  | cons c a ih =>
    intro h
    simp only [List.mem_cons, not_or] at h
    simp only [List.cons_append, splitChar]
    rw [if_neg (fun e => h.1 e.symm), ih h.2]

theorem digit_not_ws {c : Char} (h : c.isDigit = true) : isWs c = false := by
  obtain ⟨d, hd, rfl⟩ := (isDigit_iff c).1 h
  have : ∀ d : Fin 10, isWs (Char.ofNat (48 + d.val)) = false := by decide
  exact this ⟨d, hd⟩

theorem digit_ne {c x : Char} (h : c.isDigit = true) (hx : x.isDigit = false) : c ≠ x := by
  rintro rfl
  rw [h] at hx
  cases hx

theorem numeral_ends {s : Str} {n : Nat} (h : Numeral s n) :
    (∃ c r, s = c :: r ∧ isWs c = false) ∧ ∃ c r, s = r ++ [c] ∧ isWs c = false := by
  obtain ⟨h1, h2⟩ := numeral_digits h
  constructor
  · cases s with
    | nil => exact absurd rfl h1
    | cons c r => exact ⟨c, r, rfl, digit_not_ws (h2 c List.mem_cons_self)⟩
  · rw [← List.dropLast_append_getLast h1]
    exact ⟨_, _, rfl, digit_not_ws (h2 _ (List.getLast_mem h1))⟩

theorem parseInt_pad {v u a : Str} {n : Nat} (hv : Blank v) (hu : Blank u) (h : Numeral a n) :
    parseInt (v ++ a ++ u) = n := by
  unfold parseInt
  rw [stripWs_pad hv hu (numeral_ends h).1 (numeral_ends h).2]
  have hd : ∀ d : Nat, d < 10 → (Char.ofNat (48 + d)).toNat = 48 + d := by
    intro d hd
    have : ∀ d : Fin 10, (Char.ofNat (48 + d.val)).toNat = 48 + d.val := by decide
    exact this ⟨d, hd⟩
  induction h with
  | digit h => simp [hd _ h]
  | snoc h _ ih =>
    rw [List.foldl_append, ih]
    simp only [List.foldl_cons, List.foldl_nil, hd _ h]
    push_cast
    ring

theorem blank_ne {v : Str} (hv : Blank v) {x : Char} (hx : isWs x = false) : x ∉ v := by
  intro h
  rw [(isWs_iff x).2 (hv x h)] at hx
  cases hx

theorem numeral_ne {v : Str} {n : Nat} (hv : Numeral v n) {x : Char} (hx : x.isDigit = false) : x ∉ v :=
  fun h => digit_ne ((numeral_digits hv).2 x h) hx rfl

/-- An item with white space around it. -/
theorem itemTest_pad {v u s : Str} {i : FilterItem} (hv : Blank v) (hu : Blank u) (h : WritesItem s i) (x : Int) :
    itemTest (v ++ s ++ u) x = true ↔ i.holds x := by
  have e1 : isWs '*' = false := by decide
  have e2 : isWs '-' = false := by decide
  have e3 : Char.isDigit '*' = false := by decide
  have e4 : Char.isDigit '-' = false := by decide
  cases h with
  | any => simp [itemTest, FilterItem.holds]
  | @range a b s t lo hi ha hb hs ht =>
    have n1 : '*' ∉ v ++ (a ++ s ++ ['-'] ++ t ++ b) ++ u := by
      simp [blank_ne hv e1, blank_ne hu e1, blank_ne hs e1, blank_ne ht e1, numeral_ne ha e3, numeral_ne hb e3]
    have n3 : '-' ∉ v ++ a ++ s := by
      simp [blank_ne hv e2, blank_ne hs e2, numeral_ne ha e4]
    have n4 : '-' ∉ t ++ b ++ u := by
      simp [blank_ne ht e2, blank_ne hu e2, numeral_ne hb e4]
    unfold itemTest
    rw [if_neg (by simpa using n1), if_pos (by simp)]
    have e : v ++ (a ++ s ++ ['-'] ++ t ++ b) ++ u = (v ++ a ++ s) ++ ['-'] ++ (t ++ b ++ u) := by simp
    rw [e, splitChar_one _ n3, splitChar_none n4]
    have p1 := parseInt_pad hv hs ha
    have p2 := parseInt_pad ht hu hb
    simp only [List.headD_cons, List.getD_cons_succ, List.getD_cons_zero, p1, p2]
    simp [FilterItem.holds]
  | @one _ n ha =>
    have n1 : '*' ∉ v ++ s ++ u := by simp [blank_ne hv e1, blank_ne hu e1, numeral_ne ha e3]
    have n2 : '-' ∉ v ++ s ++ u := by simp [blank_ne hv e2, blank_ne hu e2, numeral_ne ha e4]
    unfold itemTest
    rw [if_neg (by simpa using n1), if_neg (by simpa using n2), parseInt_pad hv hu ha]
    simp [FilterItem.holds]

theorem item_chars {s : Str} {i : FilterItem} (h : WritesItem s i) :
    (∀ c ∈ s, c ∈ ['*', '-'] ∨ c.isDigit = true ∨ isWs c = true) ∧
      (∃ c r, s = c :: r ∧ isWs c = false) ∧ ∃ c r, s = r ++ [c] ∧ isWs c = false := by
  cases h with
  | any => exact ⟨by simp, ⟨'*', [], rfl, by decide⟩, '*', [], rfl, by decide⟩
  | @range a b s t lo hi ha hb hs ht =>
    refine ⟨?_, ?_, ?_⟩
    · intro c hc
      simp only [List.append_assoc, List.mem_append] at hc
      rcases hc with hc | hc | hc | hc | hc
      · exact Or.inr (Or.inl ((numeral_digits ha).2 c hc))
      · exact Or.inr (Or.inr ((isWs_iff c).2 (hs c hc)))
      · simp only [List.mem_singleton] at hc; rw [hc]; simp
      · exact Or.inr (Or.inr ((isWs_iff c).2 (ht c hc)))
      · exact Or.inr (Or.inl ((numeral_digits hb).2 c hc))
    · obtain ⟨c, r, rfl, hc⟩ := (numeral_ends ha).1
      exact ⟨c, _, rfl, hc⟩
    · obtain ⟨c, r, rfl, hc⟩ := (numeral_ends hb).2
      exact ⟨c, a ++ s ++ ['-'] ++ t ++ r, by simp, hc⟩
  | one ha =>
    exact ⟨fun c hc => Or.inr (Or.inl ((numeral_digits ha).2 c hc)), (numeral_ends ha).1, (numeral_ends ha).2⟩

theorem item_ne {s : Str} {i : FilterItem} (h : WritesItem s i) {x : Char} (h1 : x ∉ ['*', '-'])
    (h2 : x.isDigit = false) (h3 : isWs x = false) : x ∉ s := by
  intro hx
  rcases (item_chars h).1 x hx with h | h | h
  · exact h1 h
  · rw [h] at h2; cases h2
  · rw [h] at h3; cases h3

theorem items_chars {s : Str} {l : List FilterItem} (h : WritesItems s l) :
    (∀ x : Char, x ∉ ['*', '-', ','] → x.isDigit = false → isWs x = false → x ∉ s) ∧
      (∃ c r, s = c :: r ∧ isWs c = false) ∧ ∃ c r, s = r ++ [c] ∧ isWs c = false := by
  induction h with
  | one hi =>
    refine ⟨?_, (item_chars hi).2⟩
    intro x h1 h2 h3
    exact item_ne hi (fun h => h1 (by simp only [List.mem_cons, List.not_mem_nil, or_false] at h ⊢; tauto)) h2 h3
  | @cons s i u v t l hi hu hv _ ih =>
    refine ⟨?_, ?_, ?_⟩
    · intro x h1 h2 h3 hx
      simp only [List.append_assoc, List.mem_append] at hx
      rcases hx with hx | hx | hx | hx | hx
      · exact item_ne hi (fun h => h1 (by simp only [List.mem_cons, List.not_mem_nil, or_false] at h ⊢; tauto)) h2 h3 hx
      · exact blank_ne hu h3 hx
      · simp only [List.mem_singleton] at hx; exact h1 (by simp [hx])
      · exact blank_ne hv h3 hx
      · exact ih.1 x h1 h2 h3 hx
    · obtain ⟨c, r, rfl, hc⟩ := (item_chars hi).2.1
      exact ⟨c, _, rfl, hc⟩
    · obtain ⟨c, r, rfl, hc⟩ := ih.2.2
      exact ⟨c, s ++ u ++ [','] ++ v ++ r, by simp, hc⟩

theorem items_any {t : Str} {l : List FilterItem} (h : WritesItems t l) (x : Int) : ∀ v : Str, Blank v →
    ((splitChar ',' (v ++ t)).any (fun spec => itemTest spec x) = true ↔ ∃ i ∈ l, i.holds x) := by
  induction h with
  | @one s i hi =>
    intro v hv
    have hn : ',' ∉ v ++ s := by
      simp [blank_ne hv (by decide : isWs ',' = false), item_ne hi (x := ',') (by decide) (by decide) (by decide)]
    rw [splitChar_none hn]
    have := itemTest_pad hv (u := []) (by simp [Blank]) hi x
    rw [List.append_nil] at this
    simp [this]
  | @cons s i u w t l hi hu hw _ ih =>
    intro v hv
    have hn : ',' ∉ v ++ s ++ u := by
      simp [blank_ne hv (by decide : isWs ',' = false), blank_ne hu (by decide : isWs ',' = false),
        item_ne hi (x := ',') (by decide) (by decide) (by decide)]
    have e : v ++ (s ++ u ++ [','] ++ w ++ t) = (v ++ s ++ u) ++ [','] ++ (w ++ t) := by simp
    rw [e, splitChar_one _ hn, List.any_cons, Bool.or_eq_true, ih w hw, itemTest_pad hv hu hi x]
    simp

theorem listTest_pad {v u s : Str} {l : List FilterItem} (hv : Blank v) (hu : Blank u) (h : WritesItems s l) (x : Int) :
    listTest (v ++ s ++ u) x = true ↔ ∃ i ∈ l, i.holds x := by
  unfold listTest
  rw [stripWs_pad hv hu (items_chars h).2.1 (items_chars h).2.2]
  have := items_any h x [] (by simp [Blank])
  rwa [List.nil_append] at this

/-- A pair: the text up to the closing parenthesis, and what it means whatever white space follows. -/
theorem spec_core {s : Str} {p : List FilterItem × List FilterItem} (h : WritesSpec s p) :
    ∃ core z, s = core ++ [')'] ++ z ∧ ')' ∉ core ∧ Blank z ∧ (∃ u r, core = u ++ '(' :: r ∧ Blank u) ∧
      ∀ z', Blank z' → ∀ l d, specTest (core ++ [')'] ++ z') l d = true ↔
        (∃ i ∈ p.1, i.holds l) ∧ ∃ i ∈ p.2, i.holds d := by
  cases h with
  | @mk u v w x y z a b l d hu hv hw hx hy hz hl hd =>
    have c1 : ∀ {v : Str}, Blank v → ')' ∉ v := fun hv => blank_ne hv (by decide)
    have c2 : ∀ {v : Str}, Blank v → '/' ∉ v := fun hv => blank_ne hv (by decide)
    have i1 : ∀ {s l}, WritesItems s l → ')' ∉ s := fun h => (items_chars h).1 _ (by decide) (by decide) (by decide)
    have i2 : ∀ {s l}, WritesItems s l → '/' ∉ s := fun h => (items_chars h).1 _ (by decide) (by decide) (by decide)
    refine ⟨u ++ ['('] ++ v ++ a ++ w ++ ['/'] ++ x ++ b ++ y, z, by simp, ?_, hz,
      ⟨u, v ++ a ++ w ++ ['/'] ++ x ++ b ++ y, by simp, hu⟩, ?_⟩
    · simp [c1 hu, c1 hv, c1 hw, c1 hx, c1 hy, i1 hl, i1 hd]
    · intro z' hz' l' d'
      have e : u ++ ['('] ++ v ++ a ++ w ++ ['/'] ++ x ++ b ++ y ++ [')'] ++ z'
          = u ++ ('(' :: ((v ++ a ++ w) ++ ['/'] ++ (x ++ b ++ y)) ++ [')']) ++ z' := by simp
      unfold specTest
      rw [e, stripWs_pad hu hz' ⟨'(', _, List.cons_append, by decide⟩ ⟨')', '(' :: _, rfl, by decide⟩]
      simp only [List.cons_append, List.drop_succ_cons, List.drop_zero, List.dropLast_concat]
      have hn : '/' ∉ v ++ a ++ w := by simp [c2 hv, c2 hw, i2 hl]
      have hn' : '/' ∉ x ++ b ++ y := by simp [c2 hx, c2 hy, i2 hd]
      rw [splitChar_one _ hn, splitChar_none hn']
      simp only [List.headD_cons, List.getD_cons_succ, List.getD_cons_zero, Bool.and_eq_true]
      rw [listTest_pad hv hw hl, listTest_pad hx hy hd]

/-- Two texts that agree up to the first closing parenthesis. -/
theorem first_paren {a b r s : Str} (ha : ')' ∉ a) (hb : ')' ∉ b) (h : a ++ ')' :: r = b ++ ')' :: s) :
    a = b ∧ r = s := by
  induction a generalizing b with
  | nil =>
    cases b with
    | nil => simpa using h
    | cons c b =>
      simp only [List.nil_append, List.cons_append, List.cons.injEq] at h
      exact absurd (by rw [← h.1]; simp) hb
  | cons c a ih =>
    cases b with
    | nil =>
      simp only [List.nil_append, List.cons_append, List.cons.injEq] at h
      exact absurd (by rw [h.1]; simp) ha
    | cons c' b =>
      simp only [List.cons_append, List.cons.injEq] at h
      simp only [List.mem_cons, not_or] at ha hb
      obtain ⟨e1, e2⟩ := ih ha.2 hb.2 h.2
      exact ⟨by rw [h.1, e1], e2⟩

/-- What comes after a filter's pair: the end or a comma. -/
def AtEnd (s : Str) : Prop := s = [] ∨ ∃ t, s = ',' :: t

theorem blank_prefix {z z' r rest : Str} (hz' : Blank z') (hr : AtEnd rest)
    (h : z' ++ r = z ++ rest) : ∃ z'', z = z' ++ z'' ∧ r = z'' ++ rest := by
  induction z' generalizing z with
  | nil => exact ⟨z, rfl, h⟩
  | cons c z' ih =>
    cases z with
    | nil =>
      rcases hr with rfl | ⟨t, rfl⟩
      · simp at h
      · simp only [List.cons_append, List.nil_append, List.cons.injEq] at h
        exact absurd (hz' c List.mem_cons_self) (by rw [h.1]; decide)
    | cons d z =>
      simp only [List.cons_append, List.cons.injEq] at h
      obtain ⟨z'', e1, e2⟩ := ih (fun c hc => hz' c (List.mem_cons_of_mem _ hc)) h.2
      exact ⟨z'', by rw [h.1, e1]; rfl, e2⟩

/-- No pair begins before a comma or the end. -/
theorem no_spec {z rest : Str} (hz : Blank z) (hr : AtEnd rest) : ∀ p t, z ++ rest = p ++ t → ¬ Re.Lang reSpec p := by
  intro p t h hp
  obtain ⟨q, hq⟩ := lang_spec.1 hp
  obtain ⟨core, z', rfl, -, -, ⟨u, r, rfl, hu⟩, -⟩ := spec_core hq
  have h' : u ++ ('(' :: (r ++ [')'] ++ z' ++ t)) = z ++ rest := by rw [h]; simp
  obtain ⟨z'', e1, e2⟩ := blank_prefix hu hr h'
  cases z'' with
  | nil =>
    rcases hr with rfl | ⟨t', rfl⟩
    · simp at e2
    · simp at e2
  | cons c z'' =>
    simp only [List.cons_append, List.cons.injEq] at e2
    have hc : c ∈ z := by rw [e1]; simp
    have := hz c hc
    rw [← e2.1] at this
    exact absurd this (by decide)

theorem findall_skip {z rest : Str} (hz : Blank z) (hr : AtEnd rest) : ∀ n, (z ++ rest).length ≤ n →
    reSpec.findall n (z ++ rest) = match rest with
      | [] => []
      | _ :: t => reSpec.findall (n - z.length - 1) t := by
  induction z with
  | nil =>
    intro n hn
    rcases hr with rfl | ⟨t, rfl⟩
    · cases n <;> rfl
    · cases n with
      | zero => simp at hn
      | succ n =>
        have hno := no_spec hz (Or.inr ⟨t, rfl⟩)
        rcases Re.head_run reSpec (',' :: t) with ⟨p, t', -, e, hp⟩ | ⟨h, -⟩
        · exact absurd hp (hno p t' e)
        · simp only [List.nil_append, Re.findall, h]
          simp
  | cons c z ih =>
    intro n hn
    cases n with
    | zero => simp at hn
    | succ n =>
      have hno := no_spec hz hr
      have hz2 : Blank z := fun d hd => hz d (List.mem_cons_of_mem _ hd)
      rcases Re.head_run reSpec ((c :: z) ++ rest) with ⟨p, t', -, e, hp⟩ | ⟨h, -⟩
      · exact absurd hp (hno p t' e)
      · simp only [List.cons_append] at h
        simp only [List.cons_append, Re.findall, h]
        rw [ih hz2 n (by simp at hn ⊢; omega)]
        cases rest with
        | nil => rfl
        | cons d t =>
          simp only [List.length_cons]
          congr 1
          omega

/-- Finding the pairs of a filter. -/
theorem findall_filter {s : Str} {f : List (List FilterItem × List FilterItem)} (h : WritesFilter s f) :
    ∀ n, s.length ≤ n → ∀ l d, (reSpec.findall n s).any (fun p => specTest p l d) = true ↔ Shows f (l, d) := by
  have key : ∀ (s : Str) (p : List FilterItem × List FilterItem) (rest : Str), WritesSpec s p → AtEnd rest →
      ∀ n, (s ++ rest).length ≤ n → ∃ q n' z, reSpec.findall n (s ++ rest) = q :: reSpec.findall n' (z ++ rest) ∧
        (z ++ rest).length ≤ n' ∧ Blank z ∧
        ∀ l d, specTest q l d = true ↔ (∃ i ∈ p.1, i.holds l) ∧ ∃ i ∈ p.2, i.holds d := by
    intro s p rest hs hr n hn
    obtain ⟨core, z, rfl, hcore, hz, ⟨u, r, hur, hu⟩, htest⟩ := spec_core hs
    rcases Re.head_run reSpec (core ++ [')'] ++ z ++ rest) with ⟨q, t, hh, e, hq⟩ | ⟨-, hno⟩
    · obtain ⟨p', hp'⟩ := lang_spec.1 hq
      obtain ⟨core', z', rfl, hcore', hz', -, -⟩ := spec_core hp'
      have e' : core ++ ')' :: (z ++ rest) = core' ++ ')' :: (z' ++ t) := by
        simpa using e
      obtain ⟨rfl, e2⟩ := first_paren hcore hcore' e'
      obtain ⟨z'', rfl, rfl⟩ := blank_prefix hz' hr e2.symm
      have hne : ∃ c w, core ++ [')'] ++ (z' ++ z'') ++ rest = c :: w := by
        cases core with
        | nil => exact ⟨_, _, rfl⟩
        | cons c core => exact ⟨c, _, rfl⟩
      obtain ⟨c, w, hcw⟩ := hne
      cases n with
      | zero => rw [hcw] at hn; simp at hn
      | succ n =>
        refine ⟨core ++ [')'] ++ z', n, z'', ?_, ?_, ?_, ?_⟩
        · rw [hcw] at hh ⊢
          simp only [Re.findall, hh]
          rw [← hcw]
          congr 1
          have e3 : core ++ [')'] ++ (z' ++ z'') ++ rest = (core ++ [')'] ++ z') ++ (z'' ++ rest) := by simp
          rw [e3]
          have : ((core ++ [')'] ++ z') ++ (z'' ++ rest)).length - (z'' ++ rest).length = (core ++ [')'] ++ z').length := by
            simp only [List.length_append]; omega
          rw [this, List.take_left]
        · simp only [List.length_append, List.length_singleton] at hn ⊢
          omega
        · exact fun c hc => hz c (List.mem_append_right _ hc)
        · exact htest z' hz'
    · exact absurd (lang_spec.2 ⟨p, hs⟩) (hno _ _ rfl)
  induction h with
  | @one s p hs =>
    intro n hn l d
    obtain ⟨q, n', z, e, hn', hz, ht⟩ := key s p [] hs (Or.inl rfl) n (by simpa using hn)
    rw [List.append_nil] at e
    rw [e, findall_skip hz (Or.inl rfl) n' hn']
    simp only [List.any_cons, List.any_nil, Bool.or_false, ht, Shows, List.mem_singleton, exists_eq_left]
  | @cons s p t f hs _ ih =>
    intro n hn l d
    have e0 : s ++ [','] ++ t = s ++ (',' :: t) := by simp
    rw [e0] at hn ⊢
    obtain ⟨q, n', z, e, hn', hz, ht⟩ := key s p (',' :: t) hs (Or.inr ⟨t, rfl⟩) n hn
    rw [e, findall_skip hz (Or.inr ⟨t, rfl⟩) n' hn']
    simp only [List.any_cons, Bool.or_eq_true, ht]
    rw [ih (n' - z.length - 1) (by simp only [List.length_append, List.length_cons] at hn'; omega) l d]
    simp only [Shows, List.mem_cons, exists_eq_or_imp]

/-! ## The property -/

/-- A filter that is written as it should be hides exactly the layers and datatypes in the list that none
of its pairs shows. -/
theorem C80_filter {rule : Str} {f : List (List FilterItem × List FilterItem)} (h : WritesFilter rule f)
    (info : List (Int × Int)) :
    ∃ hidden, filterHidden rule info = some hidden ∧ ∀ k, k ∈ hidden ↔ k ∈ info ∧ ¬ Shows f k := by
  have hm : reFilter.fullmatch rule = true := (Re.fullmatch_iff _ _).2 (lang_filter.2 ⟨f, h⟩)
  unfold filterHidden
  rw [if_pos hm]
  refine ⟨_, rfl, fun k => ?_⟩
  rw [List.mem_filter]
  refine and_congr_right fun _ => ?_
  rw [Bool.not_eq_true', Bool.eq_false_iff]
  exact not_congr (findall_filter h (rule.length + 1) (by omega) k.1 k.2)

/-- Any other text has no effect. -/
theorem C80_other {rule : Str} (info : List (Int × Int)) :
    filterHidden rule info = none ↔ ¬ ∃ f, WritesFilter rule f := by
  unfold filterHidden
  by_cases h : reFilter.fullmatch rule = true
  · rw [if_pos h]
    simp only [reduceCtorEq, false_iff, not_not]
    exact lang_filter.1 ((Re.fullmatch_iff _ _).1 h)
  · rw [if_neg h]
    simp only [true_iff]
    exact fun hf => h ((Re.fullmatch_iff _ _).2 (lang_filter.2 hf))

/-- What a filter shows does not depend on how it is read: two readings of a text show the same. -/
theorem C80_unambiguous {rule : Str} {f g : List (List FilterItem × List FilterItem)} (hf : WritesFilter rule f)
    (hg : WritesFilter rule g) (k : Int × Int) : Shows f k ↔ Shows g k :=
  (findall_filter hf rule.length le_rfl k.1 k.2).symm.trans (findall_filter hg rule.length le_rfl k.1 k.2)

/-- The example of the dialog, with white space: the first and third pair. -/
example : WritesFilter ("( 1/2),(10/*)".toList) [([.one 1], [.one 2]), ([.one 10], [.any])] := by
  have n1 : Numeral ['1'] 1 := .digit (d := 1) (by omega)
  have n2 : Numeral ['2'] 2 := .digit (d := 2) (by omega)
  have n10 : Numeral ['1', '0'] 10 := .snoc (d := 0) (by omega) n1
  have b0 : Blank [] := by simp [Blank]
  have b1 : Blank [' '] := by simp [Blank]
  exact .cons (.mk b0 b1 b0 b0 b0 b0 (.one (.one n1)) (.one (.one n2)))
    (.one (.mk b0 b0 b0 b0 b0 b0 (.one (.one n10)) (.one .any)))

example : filterHidden "(1/2), (3-5, 8/0), (10/*)".toList [(1, 2), (1, 3), (4, 0), (8, 0), (8, 1), (10, 7)]
    = some [(1, 3), (8, 1)] := by decide +kernel

end Gdspy
