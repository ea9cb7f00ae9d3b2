import Verif.Spec.Path
import Verif.Model.FontData
import Verif.Props.C45

/-!
C49: the layout of `Text`. The specification is a relation that reads the text character by character
and says in which cell (position along the writing direction, line number) each one is printed.
-/

namespace Gdspy

open Gdspy.Spec

variable {K : Type}

/-! ### Specification -/

/-- The next tab stop after `c`: stops are the positions 3, 7, 11, … -/
def Spec.NextStop (c c' : Nat) : Prop := c < c' ∧ c' % 4 = 3 ∧ ∀ d, c < d → d % 4 = 3 → c' ≤ d

/-- `Layout a l text cells`: with the pen at position `a` of line `l`, printing `text` puts the
characters listed in `cells`, each with its position and line. -/
inductive Spec.Layout : Nat → Nat → Str → List (Char × Nat × Nat) → Prop
  | nil (a l : Nat) : Layout a l [] []
  | newline {a l : Nat} {r : Str} {cells : List (Char × Nat × Nat)} :
      Layout 0 (l + 1) r cells → Layout a l ('\n' :: r) cells
  | tab {a a' l : Nat} {r : Str} {cells : List (Char × Nat × Nat)} :
      NextStop a a' → Layout a' l r cells → Layout a l ('\t' :: r) cells
  | char {a l : Nat} {c : Char} {r : Str} {cells : List (Char × Nat × Nat)} :
      c ≠ '\n' → c ≠ '\t' → Layout (a + 1) l r cells → Layout a l (c :: r) ((c, a, l) :: cells)

/-- The lower left corner of a cell in font units: cells are 8 by 11; lines run to the right and are
stacked downwards in horizontal text, run downwards and are stacked to the right in vertical text. -/
def Spec.cellOrigin (horizontal : Bool) (a l : Nat) : Int × Int :=
  if horizontal then (8 * (a : Int), -11 * (l : Int)) else (8 * (l : Int), -11 * (a : Int))

/-- A glyph vertex on the layout: scaled by `size / 9`, rotated, moved to `position`. -/
def Spec.glyphAt [Field K] (t : Num K) (size angle : K) (position : Pt K) (o v : Int × Int) : Pt K :=
  let x : K := size / 9 * ((o.1 + v.1 : Int) : K)
  let y : K := size / 9 * ((o.2 + v.2 : Int) : K)
  (position.1 + (x * t.cos angle - y * t.sin angle), position.2 + (x * t.sin angle + y * t.cos angle))

/-- The polygons of the text. -/
def Spec.textPolys [Field K] (t : Num K) (font : Font) (horizontal : Bool) (size angle : K)
    (position : Pt K) (cells : List (Char × Nat × Nat)) : List (Pgon K) :=
  cells.flatMap fun e => ((font e.1).getD []).map fun g =>
    g.map (glyphAt t size angle position (cellOrigin horizontal e.2.1 e.2.2))

/-! ### The layout is unique and exists -/

theorem nextStop_unique {c a b : Nat} (ha : NextStop c a) (hb : NextStop c b) : a = b :=
  le_antisymm (ha.2.2 b hb.1 hb.2.1) (hb.2.2 a ha.1 ha.2.1)

theorem nextStop_exists (c : Nat) : NextStop c (c + 4 - (c + 1) % 4) := by
  refine ⟨by omega, by omega, ?_⟩
  intro d h1 h2
  omega

theorem layout_unique {a l : Nat} {text : Str} {c1 c2 : List (Char × Nat × Nat)}
    (h1 : Layout a l text c1) (h2 : Layout a l text c2) : c1 = c2 := by
  induction h1 generalizing c2 with
  | nil => cases h2; rfl
  | newline _ ih =>
    cases h2 with
    | newline h => exact ih h
    | char h => exact absurd rfl h
  | tab hs _ ih =>
    cases h2 with
    | tab hs' h =>
      have := nextStop_unique hs hs'
      subst this
      exact ih h
    | char _ h => exact absurd rfl h
  | char hn ht _ ih =>
    cases h2 with
    | newline h => exact absurd rfl hn
    | tab _ h => exact absurd rfl ht
    | char _ _ h => rw [ih h]

theorem layout_exists (text : Str) (a l : Nat) : ∃ cells, Layout a l text cells := by
  induction text generalizing a l with
  | nil => exact ⟨_, .nil a l⟩
  | cons c r ih =>
    by_cases hn : c = '\n'
    · subst hn
      obtain ⟨cells, h⟩ := ih 0 (l + 1)
      exact ⟨cells, .newline h⟩
    · by_cases ht : c = '\t'
      · subst ht
        obtain ⟨cells, h⟩ := ih (a + 4 - (a + 1) % 4) l
        exact ⟨cells, .tab (nextStop_exists a) h⟩
      · obtain ⟨cells, h⟩ := ih (a + 1) l
        exact ⟨_, .char hn ht h⟩

theorem glyphPoly_spec [Field K] (t : Num K) (size angle ca sa : K) (hc : ca = t.cos angle)
    (hs : sa = t.sin angle) (position : Pt K) (o : Int × Int) (p : List (Int × Int)) :
    glyphPoly (size / 9) ca sa position o p = p.map (glyphAt t size angle position o) := by
  subst hc; subst hs
  unfold glyphPoly glyphAt
  apply List.map_congr_left
  intro v _
  ext <;> simp only <;> ring

theorem textLoop_spec [Field K] (t : Num K) (font : Font) (horizontal : Bool) (size angle ca sa : K)
    (hc : ca = t.cos angle) (hs : sa = t.sin angle) (position : Pt K) {a l : Nat} {text : Str}
    {cells : List (Char × Nat × Nat)} (h : Layout a l text cells) :
    textLoop font horizontal (size / 9) ca sa position (cellOrigin horizontal a l) text =
      textPolys t font horizontal size angle position cells := by
  induction h with
  | nil => simp [textLoop, textPolys]
  | @newline a l r cells _ ih =>
    rw [← ih]
    cases horizontal with
    | true =>
      have : (0, -11 * (l : Int) - 11) = cellOrigin true 0 (l + 1) := by
        simp [cellOrigin]; ring
      rw [← this]
      simp [textLoop, cellOrigin]
    | false =>
      have : (8 * (l : Int) + 8, (0 : Int)) = cellOrigin false 0 (l + 1) := by
        simp [cellOrigin]; ring
      rw [← this]
      simp [textLoop, cellOrigin]
  | @tab a a' l r cells hs' _ ih =>
    rw [← ih]
    have ha' : a' = a + 4 - (a + 1) % 4 := nextStop_unique hs' (nextStop_exists a)
    cases horizontal with
    | true =>
      have : ((8 * (a : Int)) + 32 - (8 * (a : Int) + 8) % 32, -11 * (l : Int)) = cellOrigin true a' l := by
        simp only [cellOrigin, if_true, Prod.mk.injEq, and_true]
        omega
      rw [← this]
      simp [textLoop, cellOrigin]
    | false =>
      have : (8 * (l : Int), -11 * (a : Int) - 11 - (-11 * (a : Int) - 22) % 44) = cellOrigin false a' l := by
        simp only [cellOrigin, Bool.false_eq_true, if_false, Prod.mk.injEq, true_and]
        omega
      rw [← this]
      simp [textLoop, cellOrigin]
  | @char a l c r cells hn ht _ ih =>
    have hstep : textLoop font horizontal (size / 9) ca sa position (cellOrigin horizontal a l) (c :: r) =
        (match font c with
          | some g => g.map (glyphPoly (size / 9) ca sa position (cellOrigin horizontal a l))
          | none => []) ++
        textLoop font horizontal (size / 9) ca sa position (cellOrigin horizontal (a + 1) l) r := by
      cases horizontal with
      | true =>
        have : (8 * (a : Int) + 8, -11 * (l : Int)) = cellOrigin true (a + 1) l := by
          simp [cellOrigin]; ring
        rw [← this]
        simp [textLoop, cellOrigin, hn, ht]
        cases font c <;> rfl
      | false =>
        have : (8 * (l : Int), -11 * (a : Int) - 11) = cellOrigin false (a + 1) l := by
          simp [cellOrigin]; ring
        rw [← this]
        simp [textLoop, cellOrigin, hn, ht]
        cases font c <;> rfl
    rw [hstep, ih]
    unfold textPolys
    rw [List.flatMap_cons]
    congr 1
    cases font c with
    | none => rfl
    | some g =>
      simp only [Option.getD_some]
      apply List.map_congr_left
      intro p _
      exact glyphPoly_spec t size angle ca sa hc hs position _ p

/-- **C49**: `Text(text, size, position, horizontal, angle, layer, datatype)` makes exactly the glyph
polygons of the characters of the text, in order, each in the cell that the layout gives it, and tags all
of them with the given layer and datatype. For every glyph table. -/
theorem C49_text [Field K] [DecidableEq K] (t : Num K) (ht : Trig.Laws t.toTrig) (font : Font)
    (text : Str) (size : K) (position : Pt K) (horizontal : Bool) (angle : K) (layer datatype : Int) :
    ∃ cells, Layout 0 0 text cells ∧ (∀ cells', Layout 0 0 text cells' → cells' = cells) ∧
      (textNew t font text size position horizontal angle layer datatype).polygons =
        textPolys t font horizontal size angle position cells ∧
      Aligned (textNew t font text size position horizontal angle layer datatype) ∧
      (∀ l ∈ (textNew t font text size position horizontal angle layer datatype).layers, l = layer) ∧
      (∀ d ∈ (textNew t font text size position horizontal angle layer datatype).datatypes,
        d = datatype) := by
  obtain ⟨cells, hl⟩ := layout_exists text 0 0
  refine ⟨cells, hl, fun c' h' => layout_unique h' hl, ?_, ?_, ?_, ?_⟩
  · have h0 : cellOrigin horizontal 0 0 = (0, 0) := by cases horizontal <;> simp [cellOrigin]
    rw [← textLoop_spec t font horizontal size angle _ _ ?_ ?_ position hl, h0]
    · rfl
    · split
      · rename_i h; rw [h]; exact ht.zero.1.symm
      · rfl
    · split
      · rename_i h; rw [h]; exact ht.zero.2.symm
      · rfl
  · constructor <;> simp [textNew]
  · intro l h; exact List.eq_of_mem_replicate h
  · intro d h; exact List.eq_of_mem_replicate h

/-! ### Characters never share a cell -/

theorem layout_order {a l : Nat} {text : Str} {cells : List (Char × Nat × Nat)}
    (h : Layout a l text cells) :
    (∀ e ∈ cells, l < e.2.2 ∨ (l = e.2.2 ∧ a ≤ e.2.1)) ∧
    cells.Pairwise (fun e f => e.2.2 < f.2.2 ∨ (e.2.2 = f.2.2 ∧ e.2.1 < f.2.1)) := by
  induction h with
  | nil => simp
  | newline _ ih =>
    refine ⟨fun e he => ?_, ih.2⟩
    rcases ih.1 e he with h | h
    · left; omega
    · left; omega
  | tab hs _ ih =>
    refine ⟨fun e he => ?_, ih.2⟩
    have := hs.1
    rcases ih.1 e he with h | h
    · left; omega
    · right; omega
  | char _ _ _ ih =>
    refine ⟨fun e he => ?_, List.pairwise_cons.2 ⟨fun e he => ?_, ih.2⟩⟩
    · rcases List.mem_cons.1 he with rfl | he
      · right; exact ⟨rfl, le_refl _⟩
      · rcases ih.1 e he with h | h
        · left; omega
        · right; omega
    · rcases ih.1 e he with h | h
      · left; omega
      · right; exact ⟨h.1, h.2⟩

/-- What is true of every glyph polygon of the table: at least 4 vertices, edges parallel to the axes,
counter-clockwise (positive shoelace sum), inside the box from (0, 0) to (5, 9). -/
def glyphOk (g : List (Int × Int)) : Bool :=
  let e := g.zip (g.drop 1 ++ g.take 1)
  decide (4 ≤ g.length) && e.all (fun p => p.1.1 == p.2.1 || p.1.2 == p.2.2) &&
  decide (0 < (e.map fun p => p.1.1 * p.2.2 - p.1.2 * p.2.1).sum) &&
  g.all fun v => decide (0 ≤ v.1 ∧ v.1 ≤ 5 ∧ 0 ≤ v.2 ∧ v.2 ≤ 9)

set_option maxRecDepth 100000 in
theorem fontTable_ok : fontTable.all (fun e => !e.2.isEmpty && e.2.all glyphOk) = true := by
  decide +kernel

theorem glyph_mem_of_lookup {β : Type} (c : Char) (l : List (Char × β)) (g : β) (h : l.lookup c = some g) :
    (c, g) ∈ l := by
  induction l with
  | nil => simp at h
  | cons e l ih =>
    obtain ⟨c', g'⟩ := e
    rw [List.lookup_cons] at h
    split at h
    · rename_i hc
      cases h
      rw [beq_iff_eq] at hc
      rw [hc]
      exact List.mem_cons_self
    · exact List.mem_cons_of_mem _ (ih h)

theorem font_ok (c : Char) (gs : List (List (Int × Int))) (h : gdspyFont c = some gs) :
    gs ≠ [] ∧ ∀ g ∈ gs, glyphOk g = true := by
  have := List.all_eq_true.1 fontTable_ok _ (glyph_mem_of_lookup c _ gs h)
  simp only [Bool.and_eq_true, Bool.not_eq_true', List.all_eq_true, List.isEmpty_eq_false_iff] at this
  exact this

/-- **C49**: with the font of the library, two different characters of the text never overlap or touch: the
boxes that contain them (5 by 9 font units in cells of 8 by 11) are at least 2 units apart along one axis. -/
theorem C49_disjoint (horizontal : Bool) (text : Str) (cells : List (Char × Nat × Nat))
    (h : Layout 0 0 text cells) (i j : Nat) (e f : Char × Nat × Nat) (hij : i ≠ j)
    (hi : cells[i]? = some e) (hj : cells[j]? = some f)
    (g g' : List (Int × Int)) (hg : g ∈ (gdspyFont e.1).getD []) (hg' : g' ∈ (gdspyFont f.1).getD []) :
    let o := cellOrigin horizontal e.2.1 e.2.2
    let o' := cellOrigin horizontal f.2.1 f.2.2
    (∀ v ∈ g, ∀ v' ∈ g', o.1 + v.1 + 2 ≤ o'.1 + v'.1) ∨
    (∀ v ∈ g, ∀ v' ∈ g', o'.1 + v'.1 + 2 ≤ o.1 + v.1) ∨
    (∀ v ∈ g, ∀ v' ∈ g', o.2 + v.2 + 2 ≤ o'.2 + v'.2) ∨
    (∀ v ∈ g, ∀ v' ∈ g', o'.2 + v'.2 + 2 ≤ o.2 + v.2) := by
  have hb : ∀ (c : Char) (g : List (Int × Int)), g ∈ (gdspyFont c).getD [] →
      ∀ v ∈ g, 0 ≤ v.1 ∧ v.1 ≤ 5 ∧ 0 ≤ v.2 ∧ v.2 ≤ 9 := by
    intro c g hg v hv
    cases hc : gdspyFont c with
    | none => rw [hc] at hg; simp at hg
    | some gs =>
      rw [hc] at hg
      have := (font_ok c gs hc).2 g hg
      simp only [glyphOk, Bool.and_eq_true, List.all_eq_true, decide_eq_true_eq] at this
      exact this.2 v hv
  have hne : e.2.2 ≠ f.2.2 ∨ e.2.1 ≠ f.2.1 := by
    have hp := (layout_order h).2
    rw [List.pairwise_iff_getElem] at hp
    obtain ⟨hi1, hi2⟩ := List.getElem?_eq_some_iff.1 hi
    obtain ⟨hj1, hj2⟩ := List.getElem?_eq_some_iff.1 hj
    rcases Nat.lt_or_gt_of_ne hij with hlt | hlt
    · have := hp i j hi1 hj1 hlt
      rw [hi2, hj2] at this
      omega
    · have := hp j i hj1 hi1 hlt
      rw [hi2, hj2] at this
      omega
  have he := hb e.1 g hg
  have hf := hb f.1 g' hg'
  cases horizontal with
  | true =>
    simp only [cellOrigin, if_true]
    rcases lt_trichotomy e.2.1 f.2.1 with h1 | h1 | h1
    · left; intro v hv v' hv'; have := he v hv; have := hf v' hv'; omega
    · rcases lt_trichotomy e.2.2 f.2.2 with h2 | h2 | h2
      · right; right; right; intro v hv v' hv'; have := he v hv; have := hf v' hv'; omega
      · omega
      · right; right; left; intro v hv v' hv'; have := he v hv; have := hf v' hv'; omega
    · right; left; intro v hv v' hv'; have := he v hv; have := hf v' hv'; omega
  | false =>
    simp only [cellOrigin, Bool.false_eq_true, if_false]
    rcases lt_trichotomy e.2.2 f.2.2 with h1 | h1 | h1
    · left; intro v hv v' hv'; have := he v hv; have := hf v' hv'; omega
    · rcases lt_trichotomy e.2.1 f.2.1 with h2 | h2 | h2
      · right; right; right; intro v hv v' hv'; have := he v hv; have := hf v' hv'; omega
      · omega
      · right; right; left; intro v hv v' hv'; have := he v hv; have := hf v' hv'; omega
    · right; left; intro v hv v' hv'; have := he v hv; have := hf v' hv'; omega

/-- **C49**, the glyph table itself: exactly the printable ASCII characters except the space have a
glyph, and every glyph is at most `size` tall (9 font units) and is made of counter-clockwise polygons with
edges along the axes. -/
theorem C49_font (c : Char) :
    ((gdspyFont c).isSome ↔ 33 ≤ c.toNat ∧ c.toNat ≤ 126) ∧
    ∀ gs, gdspyFont c = some gs → gs ≠ [] ∧ ∀ g ∈ gs, 4 ≤ g.length ∧
      (∀ v ∈ g, 0 ≤ v.1 ∧ v.1 ≤ 5 ∧ 0 ≤ v.2 ∧ v.2 ≤ 9) ∧
      (∀ p ∈ g.zip (g.drop 1 ++ g.take 1), p.1.1 = p.2.1 ∨ p.1.2 = p.2.2) ∧
      0 < ((g.zip (g.drop 1 ++ g.take 1)).map fun p => p.1.1 * p.2.2 - p.1.2 * p.2.1).sum := by
  constructor
  · constructor
    · intro h
      obtain ⟨g, hg⟩ := Option.isSome_iff_exists.1 h
      have hm := glyph_mem_of_lookup c _ g hg
      have hall : fontTable.all (fun e => decide (33 ≤ e.1.toNat ∧ e.1.toNat ≤ 126)) = true := by
        decide +kernel
      have := List.all_eq_true.1 hall _ hm
      simpa using this
    · intro h
      have hall : (List.range 94).all (fun i => (gdspyFont (Char.ofNat (i + 33))).isSome) = true := by
        decide +kernel
      have := List.all_eq_true.1 hall (c.toNat - 33) (List.mem_range.2 (by omega))
      rw [show c.toNat - 33 + 33 = c.toNat by omega, Char.ofNat_toNat] at this
      exact this
  · intro gs hgs
    obtain ⟨h0, h1⟩ := font_ok c gs hgs
    refine ⟨h0, fun g hg => ?_⟩
    have := h1 g hg
    simp only [glyphOk, Bool.and_eq_true, List.all_eq_true, decide_eq_true_eq, Bool.or_eq_true,
      beq_iff_eq] at this
    exact ⟨this.1.1.1, this.2, this.1.1.2, this.1.2⟩

/-! ### Concrete cases -/

/-- Tab stops: from position 1 the next stop is 3; from 3 it is 7. -/
example : Layout 0 0 "a\tb\n\t\tc d".toList
    [('a', 0, 0), ('b', 3, 0), ('c', 7, 1), (' ', 8, 1), ('d', 9, 1)] := by
  refine .char (by decide) (by decide) (.tab (nextStop_exists 1) (.char (by decide) (by decide)
    (.newline (.tab (nextStop_exists 0) (.tab (nextStop_exists 3) (.char (by decide) (by decide)
      (.char (by decide) (by decide) (.char (by decide) (by decide) (.nil _ _)))))))))

example : (textNew ratNum gdspyFont "-\n\t=".toList 18 (100, 50) true 0 3 4).polygons.map List.head? =
    [some (100, 58), some (148, 34), some (148, 38)] := by
  decide +kernel

end Gdspy
