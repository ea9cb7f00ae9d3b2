import Verif.Spec.Svg
import Mathlib.Algebra.Field.Rat

/-!
# C62: the text of labels in SVG
-/

set_option linter.unusedSectionVars false

namespace Gdspy

open Spec

theorem xmlLines_id (s : Str) (h : '\r' ∉ s) : xmlLines s = s := by
  induction s with
  | nil => rfl
  | cons ch s ih =>
    have h1 : ch ≠ '\r' := fun e => h (e ▸ List.mem_cons_self)
    have h2 := ih fun e => h (List.mem_cons_of_mem _ e)
    unfold xmlLines
    split
    · rename_i heq; cases heq
    · rename_i heq; cases heq; exact absurd rfl h1
    · rename_i heq; cases heq; exact absurd rfl h1
    · rename_i heq; cases heq; rw [h2]

theorem entity_chars : ∀ ch ∈ ['&', 'a', 'm', 'p', ';', 'l', 't', 'g'], ch ≠ '<' ∧ ch ≠ '>' ∧ ch ≠ '\r' := by
  decide

theorem mem_svgEscape {ch : Char} {s : Str} (h : ch ∈ svgEscape s) :
    ch ≠ '<' ∧ ch ≠ '>' ∧ (ch ∈ s ∨ ch ≠ '\r') := by
  unfold svgEscape at h
  obtain ⟨x, hx, hch⟩ := List.mem_flatMap.1 h
  have go : ch ∈ ['&', 'a', 'm', 'p', ';', 'l', 't', 'g'] → ch ≠ '<' ∧ ch ≠ '>' ∧ (ch ∈ s ∨ ch ≠ '\r') :=
    fun hm => ⟨(entity_chars ch hm).1, (entity_chars ch hm).2.1, Or.inr (entity_chars ch hm).2.2⟩
  split at hch
  · have : ch ∈ ['&', 'a', 'm', 'p', ';'] := hch
    exact go (by simp at this ⊢; tauto)
  · split at hch
    · have : ch ∈ ['&', 'l', 't', ';'] := hch
      exact go (by simp at this ⊢; tauto)
    · split at hch
      · have : ch ∈ ['&', 'g', 't', ';'] := hch
        exact go (by simp at this ⊢; tauto)
      · rw [List.mem_singleton] at hch
        subst hch
        exact ⟨by assumption, by assumption, Or.inl hx⟩

theorem xmlText_escape (s : Str) (h : ∀ ch ∈ s, XmlChar ch) : xmlText none (svgEscape s) = some s := by
  induction s with
  | nil => rfl
  | cons ch s ih =>
    have h2 := ih fun x hx => h x (List.mem_cons_of_mem _ hx)
    have hs : svgEscape (ch :: s) = (if ch = '&' then "&amp;".toList else if ch = '<' then "&lt;".toList
        else if ch = '>' then "&gt;".toList else [ch]) ++ svgEscape s := rfl
    rw [hs]
    split
    · rename_i e
      subst e
      show xmlText none ('&' :: 'a' :: 'm' :: 'p' :: ';' :: svgEscape s) = _
      have he : xmlEntity ['a', 'm', 'p'] = some '&' := by decide
      simp [xmlText, he, h2]
    · split
      · rename_i e
        subst e
        show xmlText none ('&' :: 'l' :: 't' :: ';' :: svgEscape s) = _
        have he : xmlEntity ['l', 't'] = some '<' := by decide
        simp [xmlText, he, h2]
      · split
        · rename_i e
          subst e
          show xmlText none ('&' :: 'g' :: 't' :: ';' :: svgEscape s) = _
          have he : xmlEntity ['g', 't'] = some '>' := by decide
          simp [xmlText, he, h2]
        · rename_i h3 h4 _
          show xmlText none (ch :: svgEscape s) = _
          simp [xmlText, h3, h4, h ch List.mem_cons_self, h2]

theorem dropWhile_append_cons {α : Type} (p : α → Bool) (l : List α) (x : α) (r : List α)
    (h : ∀ a ∈ l, p a = true) (hx : p x = false) : (l ++ x :: r).dropWhile p = x :: r := by
  rw [List.dropWhile_append_of_pos h, List.dropWhile_cons, hx]
  rfl

theorem takeWhile_append_cons {α : Type} (p : α → Bool) (l : List α) (x : α) (r : List α)
    (h : ∀ a ∈ l, p a = true) (hx : p x = false) : (l ++ x :: r).takeWhile p = l := by
  rw [List.takeWhile_append_of_pos h, List.takeWhile_cons, hx]
  simp

/-- Numbers are written without a greater-than sign. -/
def PlainFmt {K : Type} (f : SvgFmt K) : Prop := (∀ x, '>' ∉ f.num x) ∧ ∀ n, '>' ∉ f.int n

theorem notMem_append {α : Type} {x : α} {l m : List α} (hl : x ∉ l) (hm : x ∉ m) : x ∉ l ++ m :=
  fun h => (List.mem_append.1 h).elim hl hm

theorem transform_plain {K : Type} {f : SvgFmt K} (hf : PlainFmt f) (l : List (SvgT K)) :
    '>' ∉ svgTransformStr f l := by
  have k1 : '>' ∉ "translate(".toList := by decide +kernel
  have k2 : '>' ∉ " ".toList := by decide +kernel
  have k3 : '>' ∉ ")".toList := by decide +kernel
  have k4 : '>' ∉ "rotate(".toList := by decide +kernel
  have k5 : '>' ∉ "scale(".toList := by decide +kernel
  have h1 : ∀ x : SvgT K, '>' ∉ x.str f := by
    intro x
    cases x with
    | translate a b => exact notMem_append (notMem_append (notMem_append (notMem_append k1 (hf.1 a)) k2) (hf.1 b)) k3
    | rotate a => exact notMem_append (notMem_append k4 (hf.1 a)) k3
    | flip => exact (by decide +kernel : '>' ∉ "scale(1 -1)".toList)
    | scale a => exact notMem_append (notMem_append k5 (hf.1 a)) k3
  intro hm
  unfold svgTransformStr at hm
  induction l with
  | nil => simp at hm
  | cons a l ih =>
    cases l with
    | nil =>
      rw [List.map_cons, List.map_nil, List.intercalate_singleton] at hm
      exact h1 a hm
    | cons b l =>
      rw [List.map_cons, List.intercalate_cons_of_ne_nil (by simp)] at hm
      rcases List.mem_append.1 hm with hm | hm
      · rcases List.mem_append.1 hm with hm | hm
        · exact h1 a hm
        · exact absurd hm (by decide +kernel)
      · exact ih hm

variable {K : Type} [Field K]

theorem labelAnchor_plain {a : Nat} {x y : Str} (h : labelAnchor a = .ok (x, y)) : '>' ∉ x ∧ '>' ∉ y := by
  unfold labelAnchor at h
  have h1 : a % 4 < 4 := Nat.mod_lt _ (by decide)
  generalize a % 4 = i at h h1
  generalize a / 4 = j at h
  have hi : i = 0 ∨ i = 1 ∨ i = 2 ∨ i = 3 := by omega
  have hj : j = 0 ∨ j = 1 ∨ j = 2 ∨ 3 ≤ j := by omega
  rcases hj with rfl | rfl | rfl | hj
  · rcases hi with rfl | rfl | rfl | rfl <;> cases h <;> decide +kernel
  · rcases hi with rfl | rfl | rfl | rfl <;> cases h <;> decide +kernel
  · rcases hi with rfl | rfl | rfl | rfl <;> cases h <;> decide +kernel
  · have : ["text-before-edge", "central", "text-after-edge"][j]? = none := by
      rw [List.getElem?_eq_none_iff]
      exact hj
    rw [this] at h
    rcases hi with rfl | rfl | rfl | rfl <;> cases h

/-- **C62 (partial: without carriage returns and characters that XML does not allow).** An XML reader gets
the text of the label back from the element that is written, whatever markup is in it. -/
theorem C62_text_partial {f : SvgFmt K} (hf : PlainFmt f) (s : K) (l : HLabel K × Nat)
    (hx : ∀ ch ∈ l.1.text, XmlChar ch ∧ ch ≠ '\r') (layer : Int) (texttype : Option Int) (a b : Str)
    (tr : List (SvgT K)) (text : Str) (h : labelSvg s l = .ok (.text layer texttype a b tr text)) :
    elementText (svgTextStr f layer texttype a b tr text) = some l.1.text := by
  unfold labelSvg at h
  cases ha : labelAnchor l.2 with
  | error e => rw [ha] at h; cases h
  | ok ab =>
    rw [ha] at h
    cases h
    obtain ⟨p1, p2⟩ := labelAnchor_plain (x := ab.1) (y := ab.2) ha
    have e1 : "\">".toList = ['"', '>'] := by decide +kernel
    have e2 : "</text>\n".toList = '<' :: "/text>\n".toList := by decide +kernel
    have tt : ('>' : Char) ∉ svgTypeStr f l.1.texttype := by
      cases l.1.texttype with
      | none => exact (by decide +kernel : '>' ∉ "None".toList)
      | some n => exact hf.2 n
    have hstr : ∃ head, '>' ∉ head ∧ svgTextStr f l.1.layer l.1.texttype ab.1 ab.2 (labelTransforms s l.1)
        (svgEscape l.1.text) = head ++ '>' :: (svgEscape l.1.text ++ '<' :: "/text>\n".toList) := by
      refine ⟨"<text class=\"l".toList ++ f.int l.1.layer ++ "t".toList
        ++ svgTypeStr f l.1.texttype
        ++ "\" text-anchor=\"".toList ++ ab.1 ++ "\" dominant-baseline=\"".toList ++ ab.2
        ++ "\" transform=\"".toList ++ svgTransformStr f (labelTransforms s l.1) ++ ['"'], ?_, ?_⟩
      · have tp := transform_plain hf (labelTransforms s l.1)
        have ip := hf.2 l.1.layer
        simp only [List.mem_append, tp, ip, p1, p2, tt, or_false]
        decide +kernel
      · unfold svgTextStr
        rw [e1, e2]
        simp only [List.append_assoc, List.cons_append, List.nil_append]
    obtain ⟨head, hh, hstr⟩ := hstr
    rw [hstr]
    unfold elementText
    rw [dropWhile_append_cons]
    · rw [List.drop_one, List.tail_cons, takeWhile_append_cons]
      · rw [xmlLines_id, xmlText_escape _ fun ch hch => (hx ch hch).1]
        intro hr
        rcases (mem_svgEscape hr).2.2 with h' | h'
        · exact (hx _ h').2 rfl
        · exact absurd rfl h'
      · intro ch hch
        simpa using (mem_svgEscape hch).1
      · rfl
    · intro ch hch
      rw [decide_eq_true_iff]
      rintro rfl
      exact hh hch
    · rfl

/-- **C62.** No less-than or greater-than sign of the text is left, and the only characters that are added
are those of the entities. -/
theorem C62_no_markup (s : Str) : '<' ∉ svgEscape s ∧ '>' ∉ svgEscape s :=
  ⟨fun h => (mem_svgEscape h).1 rfl, fun h => (mem_svgEscape h).2.1 rfl⟩

/-- A label with markup, and the string written for it. -/
example : labelSvg (10 : ℚ) (⟨"a<b&c".toList, (1, 2), none, none, none, 3, some 4⟩, 5) =
    .ok (.text 3 (some 4) "middle".toList "central".toList [.flip, .translate (10 * 1) (-10 * 2)]
      (svgEscape "a<b&c".toList)) ∧ svgEscape "a<b&c".toList = "a&lt;b&amp;c".toList :=
  ⟨rfl, by decide +kernel⟩

/-- **C62 is violated** for carriage returns, which an XML reader turns into line feeds, -/
theorem C62_carriage_return : ∃ tr, labelSvg (10 : ℚ)
      (⟨['a', '\r', 'b'], (1, 2), none, none, none, 3, some 4⟩, 5) =
        .ok (.text 3 (some 4) "middle".toList "central".toList tr ['a', '\r', 'b']) ∧
    xmlText none (xmlLines ['a', '\r', 'b']) = some ['a', '\n', 'b'] :=
  ⟨_, rfl, by decide⟩

/-- and for control characters, which are not allowed in XML. -/
theorem C62_control : svgEscape ['a', Char.ofNat 1] = ['a', Char.ofNat 1] ∧
    xmlText none (xmlLines ['a', Char.ofNat 1]) = none := by
  decide

end Gdspy
