import Verif.Lemmas.Blocks
import Verif.Lemmas.Samples

/-!
# C18: properties stay with their element
-/

namespace Gdspy

open Spec

section
variable {div : ℚ → ℚ → ℚ} {trig : ℚ → ℚ × ℚ}

/-- **C18** (partial). Whenever a file made of cells whose elements are all of the importable kinds is
read into an empty library without an exception, the library has the cells of the file, and the
polygons, paths, labels and references of each cell are its elements of that kind, in order, each with
exactly the properties recorded inside it (the last value wins when an attribute is repeated).

Missing from the full claim: files with other elements (NODE). There the claim is false, see
`C18_node_properties_leak`. -/
theorem C18_properties_stay_partial (a : ReadArgs) (file : Bytes) (lib0 : Lib)
    (hempty : lib0.cells = []) (hd : List Record) (fcs : List FileCell)
    (hfile : recordReader file = (hd ++ fcs.flatMap FileCell.records ++ [⟨0x04, .none⟩], none))
    (hhd : ∀ r ∈ hd, Quiet r) (hok : ∀ fc ∈ fcs, ∀ b ∈ fc.blocks, ∀ i ∈ b.items, i.Ok)
    (hread : (readGds div trig a lib0 file).2 = none) :
    List.Forall₂ (CellHasProps a.nameMap) (readGds div trig a lib0 file).1.cells fcs := by
  unfold readGds at hread ⊢
  rw [hfile] at hread ⊢
  simp only at hread ⊢
  cases hres : readRecords div trig a { lib := lib0 }
      (hd ++ fcs.flatMap FileCell.records ++ [⟨0x04, .none⟩]) with
  | mk st e =>
    rw [hres] at hread
    cases e with
    | some e => simp at hread
    | none =>
      simp only
      rw [List.append_assoc] at hres
      obtain ⟨s1, h, p1, p2⟩ := head_read hd hhd _ st _ hres
      obtain ⟨s2, h, q1, q2⟩ := fileCells_read fcs hok s1 st _ [] p1
        (by rw [p2]; simp only [hempty]; exact .nil) h
      obtain ⟨s3, e3, h⟩ := read_cons h
      have e3' : readStep div trig a s2 ⟨0x04, .none⟩
          = .ok { s2 with lib := { s2.lib with cells := resolveRefs s2.created s2.lib.cells } } := rfl
      rw [e3'] at e3
      obtain rfl := Except.ok.inj e3
      have hst : st = _ := (congrArg Prod.fst h).symm
      subst hst
      exact resolve_props _ _ _ q2

/-- The file for the examples: one cell with the blocks given. -/
def Sample.cellFile (blocks : List Rec) : List Rec :=
  [recShort 5 2020 (by norm_num) (by norm_num), recText 6 "A".toList (by norm_num)
    ⟨by decide, by decide, by decide, by decide⟩] ++ blocks ++
  [recNone 7 (by norm_num), recNone 4 (by norm_num)]

/-- PROPATTR and PROPVALUE. -/
def Sample.propRecs : List Rec :=
  [recShort 0x2B 1 (by norm_num) (by norm_num),
    recText 0x2C "net".toList (by norm_num) ⟨by decide, by decide, by decide, by decide⟩]

/-- LAYER, DATATYPE and XY of a triangle. -/
def Sample.bodyRecs : List Rec :=
  [recShort 0x0D 3 (by norm_num) (by norm_num), recShort 0x0E 4 (by norm_num) (by norm_num),
    recLongs 0x10 [0, 0, 5, 0, 0, 5, 0, 0] (by norm_num) (by simp) (by norm_num) (by decide)]

/-- A boundary with a property, then a boundary without. -/
def Sample.twoBoundaries : List Rec :=
  Sample.cellFile ([recNone 8 (by norm_num)] ++ Sample.bodyRecs ++ Sample.propRecs ++
    [recNone 0x11 (by norm_num), recNone 8 (by norm_num)] ++ Sample.bodyRecs ++
    [recNone 0x11 (by norm_num)])

/-- A node with a property, then a boundary without. -/
def Sample.nodeThenBoundary : List Rec :=
  Sample.cellFile ([recNone 0x15 (by norm_num)] ++ Sample.bodyRecs ++ Sample.propRecs ++
    [recNone 0x11 (by norm_num), recNone 8 (by norm_num)] ++ Sample.bodyRecs ++
    [recNone 0x11 (by norm_num)])

theorem Sample.reader (l : List Rec) : recordReader (recsBytes l) = (recsRecords l, none) := by
  have := recordReader_recs l []
  rw [List.append_nil] at this
  rw [this]
  have h0 : recordReader [] = ([], none) := by
    rw [recordReader]
    intro a b c d s' h
    cases h
  rw [h0, List.append_nil]

theorem Sample.pairs_body :
    pairs (List.take 6 ([0, 0, 5, 0, 0, 5, 0, 0].map fun n : Int => (1 : ℚ) * ((n : ℤ) : ℚ)))
      = [(0, 0), (5, 0), (0, 5)] := by
  norm_num [pairs]

/-- The hypotheses of `C18_properties_stay_partial` are met by a file with two boundaries. -/
example (div : ℚ → ℚ → ℚ) (trig : ℚ → ℚ × ℚ) : ∃ fcs : List FileCell,
    recordReader (recsBytes Sample.twoBoundaries)
      = ([] ++ fcs.flatMap FileCell.records ++ [⟨0x04, .none⟩], none) ∧
    (∀ fc ∈ fcs, ∀ b ∈ fc.blocks, ∀ i ∈ b.items, i.Ok) ∧
    (readGds div trig (Sample.args .skip) ⟨none, 1, 1, []⟩ (recsBytes Sample.twoBoundaries)).2
      = none := by
  refine ⟨[⟨.i16 [2020], "A".toList, [⟨.boundary, [.other ⟨0x0D, .i16 [3]⟩, .other ⟨0x0E, .i16 [4]⟩,
    .other ⟨0x10, .i32 [0, 0, 5, 0, 0, 5, 0, 0]⟩, .prop 1 "net".toList]⟩,
    ⟨.boundary, [.other ⟨0x0D, .i16 [3]⟩, .other ⟨0x0E, .i16 [4]⟩,
    .other ⟨0x10, .i32 [0, 0, 5, 0, 0, 5, 0, 0]⟩]⟩]⟩], ?_, ?_, ?_⟩
  · rw [Sample.reader]; rfl
  · intro fc hfc b hb i hi
    simp only [List.mem_singleton] at hfc
    subst hfc
    simp only [List.mem_cons, List.not_mem_nil, or_false] at hb
    rcases hb with rfl | rfl <;> simp only [List.mem_cons, List.not_mem_nil, or_false] at hi
    · rcases hi with rfl | rfl | rfl | rfl <;> simp [ElItem.Ok, Quiet]
    · rcases hi with rfl | rfl | rfl <;> simp [ElItem.Ok, Quiet]
  · unfold readGds
    rw [Sample.reader]
    rfl

/-- **C18, disagreement.** The properties of a NODE element, which gdspy does not import, are given
to the next element: the file has a boundary without properties, but the polygon read has the
property of the node. -/
theorem C18_node_properties_leak (div : ℚ → ℚ → ℚ) (trig : ℚ → ℚ × ℚ) :
    ∃ file, recordReader file = ([⟨5, .i16 [2020]⟩, ⟨6, .str "A".toList⟩,
        ⟨0x15, .none⟩, ⟨0x0D, .i16 [3]⟩, ⟨0x0E, .i16 [4]⟩, ⟨0x10, .i32 [0, 0, 5, 0, 0, 5, 0, 0]⟩,
          ⟨0x2B, .i16 [1]⟩, ⟨0x2C, .str "net".toList⟩, ⟨0x11, .none⟩,
        ⟨8, .none⟩, ⟨0x0D, .i16 [3]⟩, ⟨0x0E, .i16 [4]⟩, ⟨0x10, .i32 [0, 0, 5, 0, 0, 5, 0, 0]⟩,
          ⟨0x11, .none⟩, ⟨7, .none⟩, ⟨4, .none⟩], none) ∧
      readGds div trig (Sample.args .skip) ⟨none, 1, 1, []⟩ file
        = (⟨none, 1, 1, [⟨"A".toList, [⟨[⟨[(0, 0), (5, 0), (0, 5)], 3, 4⟩],
            [(1, some "net".toList)]⟩], [], [], []⟩]⟩, none) := by
  refine ⟨recsBytes Sample.nodeThenBoundary, by rw [Sample.reader]; rfl, ?_⟩
  unfold readGds
  rw [Sample.reader]
  show ((⟨none, 1, 1, [⟨"A".toList, [⟨[⟨pairs (List.take 6
    ([0, 0, 5, 0, 0, 5, 0, 0].map fun n : Int => (1 : ℚ) * ((n : ℤ) : ℚ))), 3, 4⟩],
            [(1, some "net".toList)]⟩], [], [], []⟩]⟩ : Lib), (none : Option PyErr)) = _
  rw [Sample.pairs_body]

end

end Gdspy
