import Verif.Props.C10
import Verif.Props.C13

/-!
# C19, C20, C63: whole libraries
-/

namespace Gdspy

open Spec

/-- Cells in the form that reading gives them: one polygon per set, one parallel path per path,
paths with end caps that the format has, references to existing cells resolved. -/
structure Spec.Canonical (names : List Str) (c : Cell) : Prop where
  polygons : ∀ s ∈ c.polygons, s.polys.length = 1
  paths : ∀ p ∈ c.paths, ∃ wt s props, p = .gds ⟨wt, [s], props⟩ ∧ s.ends ≠ .smooth ∧
    s.ends ≠ .callable
  references : ∀ r ∈ c.references, r.target
    = if r.target.str ∈ names then .cell r.target.str else .name r.target.str

section
variable {div : ℚ → ℚ → ℚ} {trig : ℚ → ℚ × ℚ} {a : ReadArgs}

theorem cell_scaled_one (c : Cell) : c.scaled 1 = c := by
  have h1 : PolygonSet.scaled 1 = id := by funext p; exact polygonSet_scaled_one p
  have h2 : Label.scaled 1 = id := by funext p; exact label_scaled_one p
  have h3 : Ref.scaled 1 = id := by funext p; exact ref_scaled_one p
  have h4 : PathEl.scaled 1 = id := by
    funext p
    cases p with
    | gds p => exact congrArg PathEl.gds (gdsPath_scaled_one p)
    | outline s => exact congrArg PathEl.outline (polygonSet_scaled_one s)
  unfold Cell.scaled
  rw [h1, h2, h3, h4, List.map_id, List.map_id, List.map_id, List.map_id]

/-- **C19.** Writing any list of cells that the format can hold, and reading the file into any
library without a cell of the same name, succeeds. It leaves the cells of the library in place and
appends the cells in order, each with its elements in order, with every reference by name
resolved when a cell of that name exists. The library gets the name of the file. -/
theorem C19_library_roundtrip (lib : Lib) (cells : List Cell) (name : Str)
    (hname : lib.name = some name) (hn : GoodText name)
    (h1 : Storable (div lib.precision lib.unit)) (h2 : Storable lib.precision)
    (ts : Timestamp) (hts : Spec.Timestamp.Fits ts)
    (hgood : ∀ c ∈ cells, c.Good trig (div lib.unit lib.precision) (div lib.precision lib.unit))
    (hu : a.units = .skip) (lib0 : Lib)
    (hnd : (lib0.cells.map Cell.name ++ cells.map fun c => a.nameMap c.name).Nodup) :
    ∃ file, writeGds div trig lib cells ts [] = .ok file ∧
      readGds div trig a lib0 file
        = ({ lib0 with
              name := some name
              cells := lib0.cells ++ (cells.map (Cell.imported a)).map (Cell.resolvedIn
                (lib0.cells.map Cell.name ++ cells.map fun c => a.nameMap c.name)) }, none) := by
  obtain ⟨file, hw, hr⟩ := lib_reads (div := div) (trig := trig) (a := a)
    (d := div lib.precision lib.unit) (k := 1) lib cells name hname hn h1 h2 ts hts lib0
    (by rw [hu]; trivial) hgood (by rw [hu, one_mul]; rfl) hnd
  refine ⟨file, hw, ?_⟩
  rw [hr]
  have e : (fun c : Cell => (c.scaled 1).imported a) = Cell.imported a := by
    funext c; rw [cell_scaled_one]
  simp only [e, headLib, hu, List.map_append, List.map_map]
  rfl

theorem flatMap_singleton_of {α : Type _} {f : α → List α} : ∀ {l : List α},
    (∀ x ∈ l, f x = [x]) → l.flatMap f = l := by
  intro l
  induction l with
  | nil => intro _; rfl
  | cons x l ih =>
    intro h
    rw [List.flatMap_cons, h x List.mem_cons_self, ih fun y hy => h y (List.mem_cons_of_mem _ hy)]
    rfl

theorem flatMap_nil_of {α β : Type _} {f : α → List β} : ∀ {l : List α},
    (∀ x ∈ l, f x = []) → l.flatMap f = [] := by
  intro l
  induction l with
  | nil => intro _; rfl
  | cons x l ih =>
    intro h
    rw [List.flatMap_cons, h x List.mem_cons_self, ih fun y hy => h y (List.mem_cons_of_mem _ hy)]
    rfl

theorem canonical_back {names : List Str} {c : Cell} (h : Canonical names c) (ha : PlainArgs a) :
    (c.imported a).resolvedIn names = c := by
  obtain ⟨hn, hl, hd, ht⟩ := ha
  obtain ⟨cname, polys, paths, labels, refs⟩ := c
  obtain ⟨h1, h2, h3⟩ := h
  unfold Cell.imported Cell.resolvedIn
  simp only [List.map_map, Cell.mk.injEq]
  simp only at h1 h2 h3
  refine ⟨by rw [hn]; rfl, ?_, ?_, ?_, ?_⟩
  · rw [flatMap_singleton_of, flatMap_nil_of, List.append_nil]
    · intro p hp
      obtain ⟨wt, s, props, rfl, -⟩ := h2 p hp
      rfl
    · intro s hs
      have := h1 s hs
      obtain ⟨ps, props⟩ := s
      simp only at this
      match ps, this with
      | [p], _ =>
        unfold PolygonSet.imported
        simp only [List.map_cons, List.map_nil, mapped_none hl, mapped_none hd]
  · apply flatMap_singleton_of
    intro p hp
    obtain ⟨wt, s, props, rfl, h4, h5⟩ := h2 p hp
    have h3 : endsImported s.ends = s.ends := by
      cases he : s.ends <;> simp_all [endsImported]
    simp only [PathEl.asPaths, GdsPath.imported, List.map_cons, List.map_nil, mapped_none hl,
      mapped_none hd, h3]
  · conv_rhs => rw [← List.map_id labels]
    apply List.map_congr_left
    intro b _
    unfold Label.imported
    rw [mapped_none hl, mapped_none ht]
    rfl
  · conv_rhs => rw [← List.map_id refs]
    apply List.map_congr_left
    intro r hr
    have := h3 r hr
    obtain ⟨t, ar, o, ro, ma, xr, pr⟩ := r
    simp only at this
    simp only [Function.comp, Ref.imported, Ref.resolvedIn, hn, id]
    split
    · rename_i h; rw [this, if_pos h]; rfl
    · rename_i h; rw [this, if_neg h]; rfl

/-- **C19.** A library in the form that reading gives is recovered exactly: name, units, cells in
order, elements in order, reference structure (also unresolved references). -/
theorem C19_library_recovered (lib : Lib) (name : Str)
    (hname : lib.name = some name) (hn : GoodText name)
    (h1 : Storable (div lib.precision lib.unit)) (h2 : Storable lib.precision)
    (h0 : div lib.precision lib.unit ≠ 0)
    (hex : div lib.precision (div lib.precision lib.unit) = lib.unit)
    (ts : Timestamp) (hts : Spec.Timestamp.Fits ts)
    (hgood : ∀ c ∈ lib.cells,
      c.Good trig (div lib.unit lib.precision) (div lib.precision lib.unit))
    (hcan : ∀ c ∈ lib.cells, Canonical (lib.cells.map Cell.name) c)
    (hnd : (lib.cells.map Cell.name).Nodup) (ha : PlainArgs a) (hu : a.units = .import_)
    (lib0 : Lib) (h0c : lib0.cells = []) :
    ∃ file, writeGds div trig lib lib.cells ts [] = .ok file ∧
      readGds div trig a lib0 file = (lib, none) := by
  have hmap : (lib.cells.map fun c => a.nameMap c.name) = lib.cells.map Cell.name := by
    rw [ha.1]; rfl
  obtain ⟨file, hw, hr⟩ := lib_reads (div := div) (trig := trig) (a := a)
    (d := div lib.precision lib.unit) (k := 1) lib lib.cells name hname hn h1 h2 ts hts lib0
    (by rw [hu]; exact h0) hgood (by rw [hu, one_mul]; rfl)
    (by rw [h0c, hmap]; simpa using hnd)
  refine ⟨file, hw, ?_⟩
  rw [hr]
  have e : (fun c : Cell => (c.scaled 1).imported a) = Cell.imported a := by
    funext c; rw [cell_scaled_one]
  have e2 : (lib.cells.map (Cell.imported a)).map Cell.name = lib.cells.map Cell.name := by
    rw [List.map_map, ← hmap]; rfl
  have e3 : (lib.cells.map (Cell.imported a)).map (Cell.resolvedIn (lib.cells.map Cell.name))
      = lib.cells := by
    rw [List.map_map]
    conv_rhs => rw [← List.map_id lib.cells]
    apply List.map_congr_left
    intro c hc
    exact canonical_back (hcan c hc) ha
  simp only [e, headLib, hu, h0c, List.nil_append, e2, e3, hex]
  rw [← hname]

/-- Library for the example: two cells, a resolved and an unresolved reference. -/
def Sample.lib : Lib :=
  ⟨some "library".toList, 1 / 1048576, 1 / 1073741824,
    [⟨"SUB".toList, [⟨(Sample.polygonSet 9).polys.take 1, Sample.props⟩],
        [.gds ⟨false, Sample.path.subs.take 1, Sample.props⟩], [Sample.label], []⟩,
      ⟨"TOP".toList, [], [], [], [Sample.ref, Sample.array]⟩]⟩

theorem Sample.lib_good : ∀ c ∈ Sample.lib.cells,
    c.Good (fun x => if x = 90 then (0, 1) else (1, 0)) 1024 (1 / 1024) := by
  intro c hc
  simp only [Sample.lib, List.mem_cons, List.not_mem_nil, or_false] at hc
  rcases hc with rfl | rfl
  · refine ⟨⟨by decide, by decide, by decide, by decide⟩, ?_, ?_, ?_, ?_, ?_⟩
    · intro s hs
      simp only [List.mem_singleton] at hs
      subst hs
      have hg := Sample.polygonSet_good 9 (by norm_num) (by norm_num)
      exact ⟨fun p hp => hg.points p (List.mem_of_mem_take hp),
        fun p hp => hg.words p (List.mem_of_mem_take hp), hg.props⟩
    · intro p hp
      simp only [List.mem_singleton, PathEl.gds.injEq] at hp
      subst hp
      have hg := Sample.path_good
      exact ⟨fun p hp => hg.points p (List.mem_of_mem_take hp),
        fun p hp => hg.words p (List.mem_of_mem_take hp),
        fun p hp => hg.width p (List.mem_of_mem_take hp),
        fun p hp => hg.ends p (List.mem_of_mem_take hp), hg.props⟩
    · intro s hs; simp at hs
    · intro b hb
      simp only [List.mem_singleton] at hb
      subst hb
      exact Sample.label_good
    · intro r hr; simp at hr
  · refine ⟨⟨by decide, by decide, by decide, by decide⟩, ?_, ?_, ?_, ?_, ?_⟩
    · intro s hs; simp at hs
    · intro s hs; simp at hs
    · intro s hs; simp at hs
    · intro s hs; simp at hs
    · intro r hr
      simp only [List.mem_cons, List.not_mem_nil, or_false] at hr
      rcases hr with rfl | rfl
      · exact Sample.ref_good _
      · exact Sample.array_good _ (by simp)

/-- The hypotheses of `C19_library_recovered` are met by a library with polygons, a path, a label, a
resolved reference and an unresolved, rotated array. -/
example : (∀ c ∈ Sample.lib.cells, Canonical (Sample.lib.cells.map Cell.name) c) ∧
    (Sample.lib.cells.map Cell.name).Nodup := by
  refine ⟨?_, by decide⟩
  intro c hc
  simp only [Sample.lib, List.mem_cons, List.not_mem_nil, or_false] at hc
  rcases hc with rfl | rfl
  · refine ⟨?_, ?_, ?_⟩
    · intro s hs
      simp only [List.mem_singleton] at hs
      subst hs
      rfl
    · intro p hp
      simp only [List.mem_singleton] at hp
      subst hp
      exact ⟨_, _, _, rfl, by simp, by simp⟩
    · intro r hr; simp at hr
  · refine ⟨?_, ?_, ?_⟩
    · intro s hs; simp at hs
    · intro s hs; simp at hs
    · intro r hr
      simp only [List.mem_cons, List.not_mem_nil, or_false] at hr
      rcases hr with rfl | rfl <;> decide

/-! ### C63: conversion of units -/

/-- **C63.** Reading with `units='convert'` into a library with another unit scales every length so
that physical sizes are kept: `x` in the old unit becomes `k * x` with `k * newUnit = oldUnit`. -/
theorem C63_convert_keeps_size (lib : Lib) (cells : List Cell) (name : Str)
    (hname : lib.name = some name) (hn : GoodText name)
    (h1 : Storable (div lib.precision lib.unit)) (h2 : Storable lib.precision)
    (ts : Timestamp) (hts : Spec.Timestamp.Fits ts)
    (hgood : ∀ c ∈ cells, c.Good trig (div lib.unit lib.precision) (div lib.precision lib.unit))
    (hu : a.units = .convert) (lib0 : Lib) (hu0 : lib0.unit ≠ 0)
    (hdiv : div lib.precision lib.unit * lib.unit = lib.precision)
    (hdiv0 : div lib.precision lib0.unit * lib0.unit = lib.precision)
    (hnd : (lib0.cells.map Cell.name ++ cells.map fun c => a.nameMap c.name).Nodup) :
    ∃ file k, writeGds div trig lib cells ts [] = .ok file ∧ k * lib0.unit = lib.unit ∧
      readGds div trig a lib0 file
        = ({ lib0 with
              name := some name
              cells := lib0.cells ++ (cells.map fun c => (c.scaled k).imported a).map
                (Cell.resolvedIn
                  (lib0.cells.map Cell.name ++ cells.map fun c => a.nameMap c.name)) }, none) := by
  obtain ⟨file, hw, hr⟩ := lib_reads (div := div) (trig := trig) (a := a)
    (d := div lib.precision lib.unit) (k := lib.unit / lib0.unit) lib cells name hname hn h1 h2 ts
    hts lib0 (by rw [hu]; exact hu0) hgood (by
      rw [hu]
      show div lib.precision lib0.unit = _
      apply mul_right_cancel₀ hu0
      rw [hdiv0, mul_right_comm, div_mul_cancel₀ _ hu0, mul_comm, hdiv]) hnd
  refine ⟨file, lib.unit / lib0.unit, hw, div_mul_cancel₀ _ hu0, ?_⟩
  rw [hr]
  simp only [headLib, hu, List.map_append, List.map_map]
  rfl

/-- **C63.** An unknown `units` argument raises `ValueError` at the UNITS record of any file made by
`write_gds`, before any cell is imported: only the name of the library has changed. -/
theorem C63_unknown_units (lib : Lib) (name : Str) (hname : lib.name = some name)
    (hn : GoodText name) (cells : List Cell) (ts : Timestamp) (hts : Spec.Timestamp.Fits ts)
    (bcs : List Bytes) (h1 : Storable (div lib.precision lib.unit)) (h2 : Storable lib.precision)
    (file : Bytes) (hfile : writeGds div trig lib cells ts bcs = .ok file)
    (hu : a.units = .other) (lib0 : Lib) :
    readGds div trig a lib0 file = ({ lib0 with name := some name }, some .valueError) := by
  obtain ⟨b1, b2, l1, l2, v1, v2, hh⟩ := header_recs (div := div) name hn lib.unit lib.precision h1
    h2 ts hts
  unfold writeGds at hfile
  rw [hname, hh, py_bind_ok] at hfile
  cases hb : writeAll (Cell.toGds trig (div lib.unit lib.precision) ts) cells with
  | error e => rw [hb] at hfile; exact absurd hfile (by rintro ⟨⟩)
  | ok body =>
    rw [hb, py_bind_ok, pack_ok _ (by flds_ok), py_bind_ok, py_pure] at hfile
    obtain rfl := Except.ok.inj hfile
    unfold readGds
    rw [List.append_assoc, List.append_assoc, recordReader_recs]
    generalize recordReader _ = rr
    obtain ⟨rs, err⟩ := rr
    have hstep : ∀ (st : ReadState) (d : Data),
        readStep div trig a st ⟨3, d⟩ = .error .valueError := by
      intro st d
      show (match a.units with
        | .skip => _
        | .import_ => _
        | .convert => _
        | .other => _ : Py ReadState) = _
      rw [hu]
      rfl
    have hrun : readRecords div trig a { lib := lib0 }
        (recsRecords [recShort 0 0x258 (by norm_num) (by norm_num),
          recStamp 1 ts (by norm_num) hts, recText 2 name (by norm_num) hn,
          recReal2 3 b1 b2 (by norm_num) l1 l2] ++ rs)
        = ({ lib := { lib0 with name := some name } }, some .valueError) := by
      show readRecords div trig a { lib := { lib0 with name := some name } } (⟨3, _⟩ :: _) = _
      rw [readRecords, hstep]
    simp only [hrun]

/-- Exact division for a library in units of 2^-20 read into one in units of 2^-19. -/
example : ((1 / 1073741824 : ℚ) / (1 / 1048576)) * (1 / 1048576) = 1 / 1073741824 ∧
    ((1 / 1073741824 : ℚ) / (1 / 524288)) * (1 / 524288) = 1 / 1073741824 := by norm_num

end

end Gdspy
