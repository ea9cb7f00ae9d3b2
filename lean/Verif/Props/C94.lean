import Verif.Model.Share
import Mathlib.Data.List.Basic
import Mathlib.Tactic.SplitIfs

/-!
# C94: copies of cells and their elements

The full claim, "what is done with the elements of a deep copy does not show in the original, and the other way round", is
false for the properties of references (C94_properties_shared).
-/

namespace Gdspy

namespace Spec
end Spec

open Spec

variable {E : Type}

/-! ### Specification -/

/-- What there is to see of an element: its attributes and its properties. -/
def Spec.look (s : Store E) (n : Nat) : E × List (Int × Str) := ((s.elem n).1, s.dict (s.elem n).2)

/-- The dictionaries of the elements exist. -/
def Spec.SoundStore (s : Store E) : Prop := ∀ n < s.nextElem, (s.elem n).2 < s.nextDict

/-- The elements of a cell exist. -/
def Spec.Lives (s : Store E) (c : ShCell) : Prop :=
  ∀ n, n ∈ c.polygons ∨ n ∈ c.paths ∨ n ∈ c.labels ∨ n ∈ c.references → n < s.nextElem

/-- A write to one of `owned`, which does not change the dictionary of one of `refs`. -/
def Spec.WritesTo (owned refs : List Nat) : Write E → Prop
  | .attr n _ => n ∈ owned ∨ n ∈ refs
  | .assign n _ => n ∈ owned ∨ n ∈ refs
  | .prop n _ => n ∈ owned

/-- Two lists are equal at the same places. -/
def Spec.SamePattern (l l' : List Nat) : Prop := ∀ i j : Nat, i < l.length → j < l.length → (l'[i]? = l'[j]? ↔ l[i]? = l[j]?)

/-! ### Steps -/

/-- `s'` has everything of `s`, unchanged, and more. -/
structure StoreGrows (s s' : Store E) : Prop where
  elems : s.nextElem ≤ s'.nextElem
  dicts : s.nextDict ≤ s'.nextDict
  elem : ∀ n < s.nextElem, s'.elem n = s.elem n
  dict : ∀ d < s.nextDict, s'.dict d = s.dict d

theorem StoreGrows.trans {s s' s'' : Store E} (h : StoreGrows s s') (h' : StoreGrows s' s'') : StoreGrows s s'' where
  elems := h.elems.trans h'.elems
  dicts := h.dicts.trans h'.dicts
  elem n hn := (h'.elem n (hn.trans_le h.elems)).trans (h.elem n hn)
  dict d hd := (h'.dict d (hd.trans_le h.dicts)).trans (h.dict d hd)

theorem StoreGrows.look {s s' : Store E} (h : StoreGrows s s') (hs : SoundStore s) {n : Nat} (hn : n < s.nextElem) :
    look s' n = look s n := by
  unfold Spec.look
  rw [h.elem n hn, h.dict _ (hs n hn)]

theorem deepCopy_extends (s : Store E) (l : List Nat) : StoreGrows s (s.deepCopy l).2 where
  elems := Nat.le_add_right _ _
  dicts := Nat.le_add_right _ _
  elem _ hn := if_pos hn
  dict _ hd := if_pos hd

theorem copyEach_extends (s : Store E) (l : List Nat) : StoreGrows s (s.copyEach l).2 where
  elems := Nat.le_add_right _ _
  dicts := le_refl _
  elem _ hn := if_pos hn
  dict _ _ := rfl

theorem deepCopy_new (s : Store E) {l : List Nat} {n : Nat} (hn : n ∈ l) :
    (s.deepCopy l).2.elem (s.nextElem + l.idxOf n) =
      ((s.elem n).1, s.nextDict + (l.map fun m => (s.elem m).2).idxOf (s.elem n).2) := by
  have h1 : l[l.idxOf n]? = some n := by
    rw [List.getElem?_eq_getElem (List.idxOf_lt_length_of_mem hn), List.getElem_idxOf]
  show (if s.nextElem + l.idxOf n < s.nextElem then _ else _) = _
  rw [if_neg (by omega), Nat.add_sub_cancel_left, h1]

theorem deepCopy_look (s : Store E) {l : List Nat} {n : Nat} (hn : n ∈ l) :
    look (s.deepCopy l).2 (s.nextElem + l.idxOf n) = look s n := by
  unfold look
  rw [deepCopy_new s hn]
  refine Prod.ext rfl ?_
  have hm : (s.elem n).2 ∈ l.map fun m => (s.elem m).2 := List.mem_map_of_mem hn
  have h1 : (l.map fun m => (s.elem m).2)[(l.map fun m => (s.elem m).2).idxOf (s.elem n).2]? = some (s.elem n).2 := by
    rw [List.getElem?_eq_getElem (List.idxOf_lt_length_of_mem hm), List.getElem_idxOf]
  show (if s.nextDict + _ < s.nextDict then _ else _) = _
  rw [if_neg (by omega), Nat.add_sub_cancel_left, h1]

theorem deepCopy_sound {s : Store E} (hs : SoundStore s) (l : List Nat) : SoundStore (s.deepCopy l).2 := by
  intro k hk
  show _ < s.nextDict + l.length
  have hk' : k < s.nextElem + l.length := hk
  by_cases h : k < s.nextElem
  · rw [(deepCopy_extends s l).elem k h]
    exact (hs k h).trans_le (Nat.le_add_right _ _)
  · obtain ⟨n, hn⟩ : ∃ n, l[k - s.nextElem]? = some n := ⟨_, List.getElem?_eq_getElem (by omega)⟩
    have : (s.deepCopy l).2.elem k = ((s.elem n).1, s.nextDict + (l.map fun m => (s.elem m).2).idxOf (s.elem n).2) := by
      show (if k < s.nextElem then _ else _) = _
      rw [if_neg h, hn]
    rw [this]
    have hm : (s.elem n).2 ∈ l.map fun m => (s.elem m).2 := List.mem_map_of_mem (List.mem_of_getElem? hn)
    have := List.idxOf_lt_length_of_mem hm
    rw [List.length_map] at this
    show s.nextDict + _ < _
    omega

/-- What a deep copy of a list is. -/
theorem deepCopy_fresh (s : Store E) {l : List Nat} {m : Nat} (hm : m ∈ (s.deepCopy l).1) :
    s.nextElem ≤ m ∧ m < (s.deepCopy l).2.nextElem ∧ s.nextDict ≤ ((s.deepCopy l).2.elem m).2 ∧
      ((s.deepCopy l).2.elem m).2 < (s.deepCopy l).2.nextDict := by
  obtain ⟨n, hn, rfl⟩ := List.mem_map.1 hm
  rw [deepCopy_new s hn]
  have h1 := List.idxOf_lt_length_of_mem hn
  have hm : (s.elem n).2 ∈ l.map fun m => (s.elem m).2 := List.mem_map_of_mem hn
  have h2 := List.idxOf_lt_length_of_mem hm
  rw [List.length_map] at h2
  refine ⟨by omega, ?_, Nat.le_add_right _ _, ?_⟩
  · show _ < s.nextElem + l.length
    omega
  · show s.nextDict + _ < s.nextDict + l.length
    omega

theorem deepCopy_pattern (s : Store E) (l : List Nat) : SamePattern l (s.deepCopy l).1 := by
  intro i j hi hj
  show (l.map fun n => s.nextElem + l.idxOf n)[i]? = (l.map fun n => s.nextElem + l.idxOf n)[j]? ↔ _
  rw [List.getElem?_map, List.getElem?_map, List.getElem?_eq_getElem hi, List.getElem?_eq_getElem hj]
  simp only [Option.map_some, Option.some.injEq]
  constructor
  · intro h
    exact (List.idxOf_inj (List.getElem_mem hi)).1 (by omega)
  · intro h
    rw [h]

/-! ### C94 -/

/-- The new elements that `copy.deepcopy` makes. -/
def ShCell.owned (c : ShCell) : List Nat := c.polygons ++ c.paths ++ c.labels

/-- The stores between. -/
theorem copy_steps (c : ShCell) (s : Store E) :
    let p := s.deepCopy c.polygons
    let q := p.2.deepCopy c.paths
    let l := q.2.deepCopy c.labels
    c.copy true s = (⟨p.1, q.1, l.1, (l.2.copyEach c.references).1⟩, (l.2.copyEach c.references).2) ∧
    StoreGrows s p.2 ∧ StoreGrows p.2 q.2 ∧ StoreGrows q.2 l.2 ∧ StoreGrows l.2 (l.2.copyEach c.references).2 :=
  ⟨rfl, deepCopy_extends _ _, deepCopy_extends _ _, deepCopy_extends _ _, copyEach_extends _ _⟩

/-- **C94.** A deep copy has the same elements as the original, with their properties, in the same order, and nothing that was
there has changed. An element that is several times in a list of the cell is so in the copy; references are all different. -/
theorem C94_same (c : ShCell) (s : Store E) (hs : SoundStore s) (hc : Lives s c) :
    let c' := (c.copy true s).1
    let s' := (c.copy true s).2
    c'.polygons.map (look s') = c.polygons.map (look s) ∧ c'.paths.map (look s') = c.paths.map (look s) ∧
    c'.labels.map (look s') = c.labels.map (look s) ∧ c'.references.map (look s') = c.references.map (look s) ∧
    (∀ n < s.nextElem, look s' n = look s n) ∧
    SamePattern c.polygons c'.polygons ∧ SamePattern c.paths c'.paths ∧ SamePattern c.labels c'.labels ∧
    c'.references.Nodup := by
  obtain ⟨e, x1, x2, x3, x4⟩ := copy_steps c s
  set p := s.deepCopy c.polygons with hp
  set q := p.2.deepCopy c.paths with hq
  set l := q.2.deepCopy c.labels with hl
  have s1 : SoundStore p.2 := deepCopy_sound hs _
  have s2 : SoundStore q.2 := deepCopy_sound s1 _
  have s3 : SoundStore l.2 := deepCopy_sound s2 _
  have key : ∀ (t : Store E) (ns : List Nat) (t' : Store E), SoundStore t → StoreGrows (t.deepCopy ns).2 t' → StoreGrows s t →
      (∀ n ∈ ns, n < s.nextElem) → (t.deepCopy ns).1.map (look t') = ns.map (look s) := by
    intro t ns t' ht hx hst hns
    show (ns.map fun n => t.nextElem + ns.idxOf n).map (look t') = _
    rw [List.map_map]
    refine List.map_congr_left fun n hn => ?_
    have hlt : t.nextElem + ns.idxOf n < (t.deepCopy ns).2.nextElem := by
      have := List.idxOf_lt_length_of_mem hn
      show _ < t.nextElem + ns.length
      omega
    show look t' (t.nextElem + ns.idxOf n) = look s n
    rw [hx.look (deepCopy_sound ht ns) hlt, deepCopy_look t hn, hst.look hs (hns n hn)]
  simp only [e]
  refine ⟨key s _ _ hs ((x2.trans x3).trans x4) ⟨le_refl _, le_refl _, fun _ _ => rfl, fun _ _ => rfl⟩ fun n hn => hc n (.inl hn),
    key p.2 _ _ s1 (x3.trans x4) x1 fun n hn => hc n (.inr (.inl hn)),
    key q.2 _ _ s2 x4 (x1.trans x2) fun n hn => hc n (.inr (.inr (.inl hn))), ?_, fun n hn => ?_,
    deepCopy_pattern _ _, deepCopy_pattern _ _, deepCopy_pattern _ _, List.nodup_range'⟩
  · have x := (x1.trans x2).trans x3
    refine List.ext_getElem? fun i => ?_
    show ((List.range' l.2.nextElem c.references.length).map _)[i]? = _
    rw [List.getElem?_map, List.getElem?_map]
    by_cases hi : i < c.references.length
    · rw [List.getElem?_range' hi, List.getElem?_eq_getElem hi]
      simp only [Option.map_some, Option.some.injEq]
      have hel : (l.2.copyEach c.references).2.elem (l.2.nextElem + i) = l.2.elem c.references[i] := by
        show (if l.2.nextElem + i < l.2.nextElem then _ else _) = _
        rw [if_neg (by omega), Nat.add_sub_cancel_left, List.getElem?_eq_getElem hi]
      rw [← x.look hs (hc _ (.inr (.inr (.inr (List.getElem_mem hi)))))]
      rw [Nat.one_mul]
      unfold look
      rw [hel]
      rfl
    · rw [List.getElem?_eq_none (by simpa using hi), List.getElem?_eq_none (by simpa using hi)]
      rfl
  · exact (((x1.trans x2).trans x3).trans x4).look hs hn

/-- Where the objects of a deep copy are. -/
theorem copy_fresh (c : ShCell) (s : Store E) :
    (∀ m ∈ (c.copy true s).1.owned, s.nextElem ≤ m ∧ m < (c.copy true s).2.nextElem ∧
      s.nextDict ≤ ((c.copy true s).2.elem m).2 ∧ ((c.copy true s).2.elem m).2 < (c.copy true s).2.nextDict) ∧
    ∀ m ∈ (c.copy true s).1.references, s.nextElem ≤ m ∧ m < (c.copy true s).2.nextElem := by
  obtain ⟨e, x1, x2, x3, x4⟩ := copy_steps c s
  set p := s.deepCopy c.polygons with hp
  set q := p.2.deepCopy c.paths with hq
  set l := q.2.deepCopy c.labels with hl
  have up : ∀ (t : Store E) (ns : List Nat) (t' : Store E), StoreGrows s t → StoreGrows (t.deepCopy ns).2 t' →
      ∀ m ∈ (t.deepCopy ns).1, s.nextElem ≤ m ∧ m < t'.nextElem ∧ s.nextDict ≤ (t'.elem m).2 ∧ (t'.elem m).2 < t'.nextDict := by
    intro t ns t' h h' m hm
    obtain ⟨a1, a2, a3, a4⟩ := deepCopy_fresh t hm
    rw [h'.elem m a2]
    exact ⟨h.elems.trans a1, a2.trans_le h'.elems, h.dicts.trans a3, a4.trans_le h'.dicts⟩
  rw [e]
  constructor
  · intro m hm
    simp only [ShCell.owned, List.mem_append] at hm
    rcases hm with (hm | hm) | hm
    · exact up s _ _ ⟨le_refl _, le_refl _, fun _ _ => rfl, fun _ _ => rfl⟩ ((x2.trans x3).trans x4) m hm
    · exact up p.2 _ _ x1 (x3.trans x4) m hm
    · exact up q.2 _ _ (x1.trans x2) x4 m hm
  · intro m hm
    have hm' : m ∈ List.range' l.2.nextElem c.references.length := hm
    rw [List.mem_range'_1] at hm'
    exact ⟨((x1.trans x2).trans x3).elems.trans hm'.1, hm'.2⟩

/-- **C94.** Whatever is done with the polygons, paths and labels of a deep copy, and with the references except for changes
inside their dictionaries of properties, does not show in the elements that were there before. -/
theorem C94_copy_changes_partial (c : ShCell) (s : Store E) (hs : SoundStore s) (ws : List (Write E))
    (hw : ∀ w ∈ ws, WritesTo (c.copy true s).1.owned (c.copy true s).1.references w) :
    ∀ n < s.nextElem, look (ws.foldl Store.write (c.copy true s).2) n = look s n := by
  obtain ⟨f1, f2⟩ := copy_fresh c s
  obtain ⟨e, x1, x2, x3, x4⟩ := copy_steps c s
  have hx : StoreGrows s (c.copy true s).2 := by rw [e]; exact ((x1.trans x2).trans x3).trans x4
  have key : ∀ (ws : List (Write E)) (t : Store E), StoreGrows s t →
      (∀ m ∈ (c.copy true s).1.owned, s.nextDict ≤ (t.elem m).2) →
      (∀ w ∈ ws, WritesTo (c.copy true s).1.owned (c.copy true s).1.references w) → StoreGrows s (ws.foldl Store.write t) := by
    intro ws
    induction ws with
    | nil => intro t h _ _; exact h
    | cons w ws ih =>
      intro t h hd hw
      have hw1 := hw w List.mem_cons_self
      have far : ∀ m, m ∈ (c.copy true s).1.owned ∨ m ∈ (c.copy true s).1.references → s.nextElem ≤ m := by
        rintro m (hm | hm)
        · exact (f1 m hm).1
        · exact (f2 m hm).1
      rw [List.foldl_cons]
      cases w with
      | attr n v =>
        have hn := far n hw1
        refine ih _ ⟨h.elems, h.dicts, fun k hk => ?_, h.dict⟩ (fun m hm => ?_) fun w hw' => hw w (List.mem_cons_of_mem _ hw')
        · show (if k = n then _ else _) = _
          rw [if_neg (by omega)]
          exact h.elem k hk
        · show s.nextDict ≤ (if m = n then _ else _ : E × Nat).2
          split_ifs with hmn
          · subst hmn
            exact hd _ hm
          · exact hd m hm
      | prop n d =>
        have hn := hd n hw1
        refine ih _ ⟨h.elems, h.dicts, h.elem, fun k hk => ?_⟩ hd fun w hw' => hw w (List.mem_cons_of_mem _ hw')
        show (if k = (t.elem n).2 then _ else _) = _
        rw [if_neg (by omega)]
        exact h.dict k hk
      | assign n d =>
        have hn := far n hw1
        have hdn := h.dicts
        refine ih _ ⟨h.elems, h.dicts.trans (Nat.le_succ _), fun k hk => ?_, fun k hk => ?_⟩ (fun m hm => ?_)
          fun w hw' => hw w (List.mem_cons_of_mem _ hw')
        · show (if k = n then _ else _) = _
          rw [if_neg (by omega)]
          exact h.elem k hk
        · show (if k = t.nextDict then _ else _) = _
          rw [if_neg (by omega)]
          exact h.dict k hk
        · show s.nextDict ≤ (if m = n then _ else _ : E × Nat).2
          split_ifs
          · exact hdn
          · exact hd m hm
  exact fun n hn => (key ws _ hx (fun m hm => (f1 m hm).2.2.1) hw).look hs hn

/-- **C94.** Whatever is done with the elements that were there before does not show in the polygons, paths and labels of a
deep copy. -/
theorem C94_original_changes_partial (c : ShCell) (s : Store E) (hs : SoundStore s) (ws : List (Write E))
    (hw : ∀ w ∈ ws, WritesTo (List.range s.nextElem) [] w) :
    ∀ m ∈ (c.copy true s).1.owned, look (ws.foldl Store.write (c.copy true s).2) m = look (c.copy true s).2 m := by
  obtain ⟨f1, f2⟩ := copy_fresh c s
  obtain ⟨e, x1, x2, x3, x4⟩ := copy_steps c s
  have hx : StoreGrows s (c.copy true s).2 := by rw [e]; exact ((x1.trans x2).trans x3).trans x4
  set s' := (c.copy true s).2 with hs'
  have key : ∀ (ws : List (Write E)) (t : Store E), s'.nextDict ≤ t.nextDict → (∀ m, s.nextElem ≤ m → t.elem m = s'.elem m) →
      (∀ d, s.nextDict ≤ d → d < s'.nextDict → t.dict d = s'.dict d) →
      (∀ n < s.nextElem, (t.elem n).2 < s.nextDict ∨ s'.nextDict ≤ (t.elem n).2) →
      (∀ w ∈ ws, WritesTo (List.range s.nextElem) [] w) →
      (∀ m, s.nextElem ≤ m → (ws.foldl Store.write t).elem m = s'.elem m) ∧
      (∀ d, s.nextDict ≤ d → d < s'.nextDict → (ws.foldl Store.write t).dict d = s'.dict d) := by
    intro ws
    induction ws with
    | nil => intro t _ h1 h2 _ _; exact ⟨h1, h2⟩
    | cons w ws ih =>
      intro t h0 h1 h2 h3 hw
      have hw1 := hw w List.mem_cons_self
      have hrest : ∀ w ∈ ws, WritesTo (List.range s.nextElem) [] w := fun w hw' => hw w (List.mem_cons_of_mem _ hw')
      rw [List.foldl_cons]
      cases w with
      | attr n v =>
        have hn : n < s.nextElem := by simpa [WritesTo] using hw1
        refine ih _ h0 (fun m hm => ?_) h2 (fun k hk => ?_) hrest
        · show (if m = n then _ else _) = _
          rw [if_neg (by omega)]
          exact h1 m hm
        · show (if k = n then _ else _ : E × Nat).2 < _ ∨ _ ≤ (if k = n then _ else _ : E × Nat).2
          split_ifs with hkn
          · subst hkn
            exact h3 _ hk
          · exact h3 k hk
      | prop n d =>
        have hn : n < s.nextElem := by simpa [WritesTo] using hw1
        refine ih _ h0 h1 (fun k hk hk' => ?_) h3 hrest
        show (if k = (t.elem n).2 then _ else _) = _
        have := h3 n hn
        rw [if_neg (by omega)]
        exact h2 k hk hk'
      | assign n d =>
        have hn : n < s.nextElem := by simpa [WritesTo] using hw1
        refine ih _ (h0.trans (Nat.le_succ _)) (fun m hm => ?_) (fun k hk hk' => ?_) (fun k hk => ?_) hrest
        · show (if m = n then _ else _) = _
          rw [if_neg (by omega)]
          exact h1 m hm
        · show (if k = t.nextDict then _ else _) = _
          rw [if_neg (by omega)]
          exact h2 k hk hk'
        · show (if k = n then _ else _ : E × Nat).2 < _ ∨ _ ≤ (if k = n then _ else _ : E × Nat).2
          split_ifs
          · exact .inr h0
          · exact h3 k hk
  intro m hm
  obtain ⟨g1, g2⟩ := key ws s' (le_refl _) (fun _ _ => rfl) (fun _ _ _ => rfl)
    (fun n hn => .inl (by rw [hx.elem n hn]; exact hs n hn)) hw
  obtain ⟨a1, a2, a3, a4⟩ := f1 m hm
  unfold look
  rw [g1 m a1, g2 _ a3 a4]

/-- **C94.** New attributes or a new dictionary of properties for elements that were there before do not show in the
references of a deep copy. -/
theorem C94_original_references_partial (c : ShCell) (s : Store E) (hs : SoundStore s) (hc : Lives s c) (ws : List (Write E))
    (hw : ∀ w ∈ ws, WritesTo [] (List.range s.nextElem) w) :
    ∀ m ∈ (c.copy true s).1.references, look (ws.foldl Store.write (c.copy true s).2) m = look (c.copy true s).2 m := by
  obtain ⟨f1, f2⟩ := copy_fresh c s
  have hsound : ∀ m ∈ (c.copy true s).1.references, ((c.copy true s).2.elem m).2 < (c.copy true s).2.nextDict := by
    obtain ⟨e, x1, x2, x3, x4⟩ := copy_steps c s
    have hx := (x1.trans x2).trans x3
    rw [e]
    intro m hm
    set l := (((s.deepCopy c.polygons).2.deepCopy c.paths).2.deepCopy c.labels) with hl
    have hm' : m ∈ List.range' l.2.nextElem c.references.length := hm
    rw [List.mem_range'_1] at hm'
    obtain ⟨n, hn⟩ : ∃ n, c.references[m - l.2.nextElem]? = some n := ⟨_, List.getElem?_eq_getElem (by omega)⟩
    have em : (l.2.copyEach c.references).2.elem m = l.2.elem n := by
      show (if m < l.2.nextElem then _ else _) = _
      rw [if_neg (by omega), hn]
    have hlt : n < s.nextElem := hc n (.inr (.inr (.inr (List.mem_of_getElem? hn))))
    show ((l.2.copyEach c.references).2.elem m).2 < l.2.nextDict
    rw [em, hx.elem n hlt]
    exact (hs n hlt).trans_le hx.dicts
  set s' := (c.copy true s).2 with hs'
  have key : ∀ (ws : List (Write E)) (t : Store E), s'.nextDict ≤ t.nextDict → (∀ m, s.nextElem ≤ m → t.elem m = s'.elem m) →
      (∀ d < s'.nextDict, t.dict d = s'.dict d) → (∀ w ∈ ws, WritesTo [] (List.range s.nextElem) w) →
      (∀ m, s.nextElem ≤ m → (ws.foldl Store.write t).elem m = s'.elem m) ∧
      (∀ d < s'.nextDict, (ws.foldl Store.write t).dict d = s'.dict d) := by
    intro ws
    induction ws with
    | nil => intro t _ h1 h2 _; exact ⟨h1, h2⟩
    | cons w ws ih =>
      intro t h0 h1 h2 hw
      have hw1 := hw w List.mem_cons_self
      have hrest : ∀ w ∈ ws, WritesTo [] (List.range s.nextElem) w := fun w hw' => hw w (List.mem_cons_of_mem _ hw')
      rw [List.foldl_cons]
      cases w with
      | attr n v =>
        have hn : n < s.nextElem := by simpa [WritesTo] using hw1
        refine ih _ h0 (fun m hm => ?_) h2 hrest
        show (if m = n then _ else _) = _
        rw [if_neg (by omega)]
        exact h1 m hm
      | prop n d => simp [WritesTo] at hw1
      | assign n d =>
        have hn : n < s.nextElem := by simpa [WritesTo] using hw1
        refine ih _ (h0.trans (Nat.le_succ _)) (fun m hm => ?_) (fun k hk => ?_) hrest
        · show (if m = n then _ else _) = _
          rw [if_neg (by omega)]
          exact h1 m hm
        · show (if k = t.nextDict then _ else _) = _
          rw [if_neg (by omega)]
          exact h2 k hk
  intro m hm
  obtain ⟨g1, g2⟩ := key ws s' (le_refl _) (fun _ _ => rfl) (fun _ _ => rfl) hw
  unfold look
  rw [g1 m (f2 m hm).1, g2 _ (hsound m hm)]

/-- **C94, disagreement.** A change of the properties of a reference of a deep copy changes those of the reference of the
original, and the other way round. -/
theorem C94_properties_shared (c : ShCell) (s : Store E) (hc : Lives s c) (i n m : Nat) (d : List (Int × Str))
    (hn : c.references[i]? = some n) (hm : (c.copy true s).1.references[i]? = some m) :
    m ≠ n ∧ (look ((c.copy true s).2.write (.prop m d)) n).2 = d ∧ (look ((c.copy true s).2.write (.prop n d)) m).2 = d := by
  obtain ⟨e, x1, x2, x3, x4⟩ := copy_steps c s
  have hx := (x1.trans x2).trans x3
  have hlt : n < s.nextElem := hc n (.inr (.inr (.inr (List.mem_of_getElem? hn))))
  have hfresh := (copy_fresh c s).2 m (List.mem_of_getElem? hm)
  rw [e] at hm hfresh ⊢
  set l := (((s.deepCopy c.polygons).2.deepCopy c.paths).2.deepCopy c.labels) with hl
  have hi : i < c.references.length := by
    by_contra hi
    rw [List.getElem?_eq_none (by omega)] at hn
    cases hn
  have hm' : (List.range' l.2.nextElem c.references.length)[i]? = some m := hm
  rw [List.getElem?_range' hi, Nat.one_mul, Option.some.injEq] at hm'
  have em : (l.2.copyEach c.references).2.elem m = l.2.elem n := by
    show (if m < l.2.nextElem then _ else _) = _
    rw [if_neg (by omega), ← hm', Nat.add_sub_cancel_left, hn]
  have en : (l.2.copyEach c.references).2.elem n = l.2.elem n := x4.elem n (hlt.trans_le hx.elems)
  refine ⟨by omega, ?_, ?_⟩
  · show (if ((l.2.copyEach c.references).2.elem n).2 = ((l.2.copyEach c.references).2.elem m).2 then d else _) = d
    rw [em, en, if_pos rfl]
  · show (if ((l.2.copyEach c.references).2.elem m).2 = ((l.2.copyEach c.references).2.elem n).2 then d else _) = d
    rw [em, en, if_pos rfl]

/-- **C94.** A copy that is not deep has the elements themselves, in lists of its own. -/
theorem C94_shallow (c : ShCell) (s : Store E) : c.copy false s = (c, s) := rfl

namespace Sample

/-- Four elements, a polygon (0), a path (1), a label (2) and a reference (3); each has a dictionary of properties. -/
def world : Store Nat where
  elem n := (10 * n, n)
  dict d := [((d : Int), ['p'])]
  nextElem := 4
  nextDict := 4

/-- The polygon is in the cell twice. -/
def shared : ShCell := ⟨[0, 0], [1], [2], [3]⟩

end Sample

theorem Sample.world_sound : SoundStore Sample.world := fun _ h => h

theorem Sample.shared_lives : Lives Sample.world Sample.shared := by
  intro n hn
  simp only [Sample.shared, List.mem_cons, List.not_mem_nil, or_false] at hn
  show n < 4
  omega

example : (Sample.shared.copy true Sample.world).1 = ⟨[4, 4], [6], [7], [8]⟩ := by decide +kernel

example : (Sample.shared.copy true Sample.world).1.polygons.map (look (Sample.shared.copy true Sample.world).2) =
    Sample.shared.polygons.map (look Sample.world) :=
  (C94_same _ _ Sample.world_sound Sample.shared_lives).1

/-- A polygon, its properties and the attributes of the reference of the copy change: the original does not. -/
example : ∀ n < 4, look ([Write.attr 4 1, .prop 4 [], .attr 8 2, .assign 8 []].foldl Store.write
    (Sample.shared.copy true Sample.world).2) n = look Sample.world n :=
  C94_copy_changes_partial Sample.shared Sample.world Sample.world_sound _ (by
    intro w hw
    have e1 : (Sample.shared.copy true Sample.world).1.owned = [4, 4, 6, 7] := by decide +kernel
    have e2 : (Sample.shared.copy true Sample.world).1.references = [8] := by decide +kernel
    rw [e1, e2]
    simp only [List.mem_cons, List.not_mem_nil, or_false] at hw
    rcases hw with rfl | rfl | rfl | rfl <;> simp [WritesTo])

example : ∀ m ∈ (Sample.shared.copy true Sample.world).1.owned,
    look ([Write.attr 0 1, .prop 3 []].foldl Store.write (Sample.shared.copy true Sample.world).2) m =
      look (Sample.shared.copy true Sample.world).2 m :=
  C94_original_changes_partial Sample.shared Sample.world Sample.world_sound _ (by
    intro w hw
    simp only [List.mem_cons, List.not_mem_nil, or_false] at hw
    rcases hw with rfl | rfl <;> simp [WritesTo, Sample.world])

example : ∀ m ∈ (Sample.shared.copy true Sample.world).1.references,
    look ([Write.attr 3 1, .assign 3 []].foldl Store.write (Sample.shared.copy true Sample.world).2) m =
      look (Sample.shared.copy true Sample.world).2 m :=
  C94_original_references_partial Sample.shared Sample.world Sample.world_sound Sample.shared_lives _ (by
    intro w hw
    simp only [List.mem_cons, List.not_mem_nil, or_false] at hw
    rcases hw with rfl | rfl <;> simp [WritesTo, Sample.world])

example : (look ((Sample.shared.copy true Sample.world).2.write (.prop 8 [])) 3).2 = [] :=
  (C94_properties_shared Sample.shared Sample.world Sample.shared_lives 0 3 8 [] rfl (by decide +kernel)).2.1

end Gdspy
