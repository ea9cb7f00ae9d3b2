import Verif.Lemmas.Samples

/-!
# C13 to C17: elements survive a write/read cycle

`ReadsAs div trig a d w els` says that the writer `w` succeeds and that its output, wherever it
stands in a cell of a file whose database unit is `d` user units, makes `read_gds` add exactly the
elements `els`.
-/

namespace Gdspy

open Spec

section
variable {div : ℚ → ℚ → ℚ} {trig : ℚ → ℚ × ℚ} {a : ReadArgs} {m d : ℚ}

theorem mapped_none {f : ℤ → Option ℤ} (h : ∀ n, f n = none) (n : ℤ) : mapped f n = n := by
  unfold mapped; rw [h]

theorem poly_scaled_one (p : Poly) : p.scaled 1 = p := by
  have : scale2 1 = id := by funext p; exact scale2_one p
  unfold Poly.scaled; rw [this, List.map_id]

theorem polygonSet_scaled_one (s : PolygonSet) : s.scaled 1 = s := by
  have : Poly.scaled 1 = id := by funext p; exact poly_scaled_one p
  unfold PolygonSet.scaled; rw [this, List.map_id]

theorem label_scaled_one (b : Label) : b.scaled 1 = b := by
  unfold Label.scaled; rw [scale2_one]

theorem ref_scaled_one (r : Ref) : r.scaled 1 = r := by
  unfold Ref.scaled
  have : (fun t : ℤ × ℤ × ℚ × ℚ => (t.1, t.2.1, scale2 1 t.2.2)) = id := by
    funext t; rw [scale2_one]; rfl
  rw [scale2_one, this, Option.map_id_fun, id]

theorem subPath_scaled_one (s : SubPath) : s.scaled 1 = s := by
  have : scale2 1 = id := by funext p; exact scale2_one p
  have h2 : ∀ e : Ends, e.scaled 1 = e := by intro e; cases e <;> simp [Ends.scaled]
  unfold SubPath.scaled; rw [this, List.map_id, one_mul, h2]

theorem gdsPath_scaled_one (p : GdsPath) : p.scaled 1 = p := by
  have : SubPath.scaled 1 = id := by funext p; exact subPath_scaled_one p
  unfold GdsPath.scaled; rw [this, List.map_id]

/-- **C13.** A polygon set that the format can hold (any number of vertices on the grid, 16-bit
layers and datatypes, any properties) is read back as its polygons, one by one and in order, each
with the same vertices in the same order, the same layer and datatype, and the properties. -/
theorem C13_polygon_roundtrip (s : PolygonSet) (h : s.Good m d) (ha : PlainArgs a) :
    ReadsAs div trig a d (s.toGds m) (s.polys.map fun p => .polygon ⟨[p], s.properties⟩) := by
  have := polygonSet_reads (div := div) (trig := trig) (a := a) (k := 1) s h
  rw [one_mul, polygonSet_scaled_one] at this
  have e : (s.imported a).map El.polygon = s.polys.map fun p => .polygon ⟨[p], s.properties⟩ := by
    unfold PolygonSet.imported
    rw [List.map_map]
    apply List.map_congr_left
    intro p _
    simp only [Function.comp, mapped_none ha.2.1, mapped_none ha.2.2.1]
  rw [e] at this
  exact this

/-- A polygon of 9000 vertices (two XY records) and a triangle, with properties. -/
example : (Sample.polygonSet 9000).Good 1024 (1 / 1024) ∧ PlainArgs (Sample.args .skip) :=
  ⟨Sample.polygonSet_good 9000 (by norm_num) (by norm_num), Sample.args_plain _⟩

/-- **C13, error.** A polygon set that begins with a polygon without vertices is refused. -/
theorem C13_empty_polygon_refused (s : PolygonSet) (p : Poly) (rest : List Poly)
    (h : s.polys = p :: rest) (h0 : p.points = []) (hl : Word p.layer) (hd : Word p.datatype) :
    s.toGds m = .error .indexError := by
  unfold PolygonSet.toGds
  rw [h]
  simp only [writeAll, writePoly, writePolyHead]
  unfold Word at hl hd
  simp only [h0, List.length_nil]
  rw [if_neg (by norm_num)]
  rw [pack_ok _ (by flds_ok)]
  rfl

example : Word 3 ∧ Word (-1) := ⟨⟨by norm_num, by norm_num⟩, ⟨by norm_num, by norm_num⟩⟩

/-- **C14.** A label that the format can hold is read back unchanged. -/
theorem C14_label_roundtrip (b : Label) (h : b.Good m d) (ha : PlainArgs a) :
    ReadsAs div trig a d (b.toGds m) [.label b] := by
  have := label_reads (div := div) (trig := trig) (a := a) (k := 1) b h
  rw [one_mul, label_scaled_one] at this
  have e : b.imported a = b := by
    unfold Label.imported
    rw [mapped_none ha.2.1, mapped_none ha.2.2.2]
  rw [e] at this
  exact this

/-- A reflected and rotated label without magnification, with properties. -/
example : Sample.label.Good 1024 (1 / 1024) := Sample.label_good

/-- **C15.** A cell reference (not an array) that the format can hold is read back unchanged,
pointing to its target by name. -/
theorem C15_reference_roundtrip (r : Ref) (hr : r.array = none) (h : r.Good trig m d)
    (ha : PlainArgs a) :
    ReadsAs div trig a d (r.toGds trig m)
      [.ref ⟨.name r.target.str, none, r.origin, r.rotation, r.magnification, r.xReflection,
        r.properties⟩] := by
  have := ref_reads (div := div) (trig := trig) (a := a) (k := 1) r h
  rw [one_mul, ref_scaled_one] at this
  have e : r.imported a = ⟨.name r.target.str, none, r.origin, r.rotation, r.magnification,
      r.xReflection, r.properties⟩ := by
    unfold Ref.imported
    rw [ha.1, hr]
    rfl
  rw [e] at this
  exact this

example (trig : ℚ → ℚ × ℚ) : Sample.ref.array = none ∧ Sample.ref.Good trig 1024 (1 / 1024) :=
  ⟨rfl, Sample.ref_good trig⟩

/-- **C16.** A cell array whose corners lie on the grid is read back unchanged (columns, rows,
spacing, origin, rotation, magnification, reflection, properties), pointing to its target by
name, under every rotation and reflection. -/
theorem C16_array_roundtrip (r : Ref) (columns rows : ℤ) (spacing : ℚ × ℚ)
    (hr : r.array = some (columns, rows, spacing)) (h : r.Good trig m d) (ha : PlainArgs a) :
    ReadsAs div trig a d (r.toGds trig m)
      [.ref ⟨.name r.target.str, some (columns, rows, spacing), r.origin, r.rotation,
        r.magnification, r.xReflection, r.properties⟩] := by
  have := ref_reads (div := div) (trig := trig) (a := a) (k := 1) r h
  rw [one_mul, ref_scaled_one] at this
  have e : r.imported a = ⟨.name r.target.str, some (columns, rows, spacing), r.origin,
      r.rotation, r.magnification, r.xReflection, r.properties⟩ := by
    unfold Ref.imported
    rw [ha.1, hr]
    rfl
  rw [e] at this
  exact this

/-- A reflected array, rotated by a quarter turn. -/
example : Sample.array.Good (fun x => if x = 90 then (0, 1) else (1, 0)) 1024 (1 / 1024) :=
  Sample.array_good _ (by simp)

/-- **C16, off the grid.** When the corners of an array are not on the grid, the array is read back
with rounded origin and with a spacing that is off by at most one grid step, times
`|cos| + |sin|` of the rotation, divided by the number of columns (or rows). -/
theorem C16_array_spacing_error (r : Ref) (hd : 0 < d) (hm : d * m = 1)
    (htg : GoodText r.target.str) (ho : OnMap2 m r.origin) (hrot : GoodReal r.rotation)
    (hmag : GoodReal r.magnification) (hp : GoodProps r.properties) (columns rows : ℤ)
    (sp : ℚ × ℚ) (har : r.array = some (columns, rows, sp)) (hcw : Word columns) (hrw : Word rows)
    (hc0 : columns ≠ 0) (hr0 : rows ≠ 0)
    (ht : (trigOf trig r.rotation).1 ^ 2 + (trigOf trig r.rotation).2 ^ 2 = 1)
    (h1 : OnMap2 m (cornersOf (trigOf trig r.rotation) r.xReflection r.origin columns rows sp).1)
    (h2 : OnMap2 m (cornersOf (trigOf trig r.rotation) r.xReflection r.origin columns rows sp).2)
    (ha : PlainArgs a) :
    ∃ o' sp' : ℚ × ℚ,
      ReadsAs div trig a d (r.toGds trig m)
        [.ref ⟨.name r.target.str, some (columns, rows, sp'), o', r.rotation,
          r.magnification, r.xReflection, r.properties⟩] ∧
      |o'.1 - r.origin.1| ≤ d / 2 ∧ |o'.2 - r.origin.2| ≤ d / 2 ∧
      |sp'.1 - sp.1| ≤ d * (|(trigOf trig r.rotation).1| + |(trigOf trig r.rotation).2|)
        / |(columns : ℚ)| ∧
      |sp'.2 - sp.2| ≤ d * (|(trigOf trig r.rotation).1| + |(trigOf trig r.rotation).2|)
        / |(rows : ℚ)| := by
  have hnear := arraySpacing_near (trig := trig) hd hm r.xReflection r.rotation columns rows r.origin
    sp hc0 hr0 ht
  have := array_snaps (div := div) (a := a) (f := d) r htg ho hrot hmag hp columns rows sp har hcw
    hrw hc0 hr0 h1 h2
  unfold Ref.imported at this
  rw [ha.1] at this
  exact ⟨_, _, this, snap_near hd hm, snap_near hd hm, hnear.1, hnear.2⟩

/-- An array whose columns are a third of a grid step apart. -/
example : OnMap2 1024 (cornersOf (1, 0) false (0, 0) 4 2 (1 / 3072, 1)).1 ∧
    OnMap2 1024 (cornersOf (1, 0) false (0, 0) 4 2 (1 / 3072, 1)).2 := by
  constructor <;> constructor <;> norm_num [cornersOf, OnMap]

/-- **C17.** A path stored as GDSII path element, with widths, extensions and spines on the grid, is
read back as its parallel paths, one by one, each with the same spine, width,
`width_transform` flag, end type, layer, datatype and properties. -/
theorem C17_path_roundtrip (p : GdsPath) (h : p.Good m d) (ha : PlainArgs a)
    (hends : ∀ s ∈ p.subs, s.ends ≠ .smooth ∧ s.ends ≠ .callable) :
    ReadsAs div trig a d (p.toGds m)
      (p.subs.map fun s => .path ⟨p.widthTransform, [s], p.properties⟩) := by
  have := gdsPath_reads (div := div) (trig := trig) (a := a) (k := 1) p h
  rw [one_mul, gdsPath_scaled_one] at this
  have e : (p.imported a).map El.path
      = p.subs.map fun s => .path ⟨p.widthTransform, [s], p.properties⟩ := by
    unfold GdsPath.imported
    rw [List.map_map]
    apply List.map_congr_left
    intro s hs
    obtain ⟨h1, h2⟩ := hends s hs
    have h3 : endsImported s.ends = s.ends := by
      cases he : s.ends <;> simp_all [endsImported]
    simp only [Function.comp, mapped_none ha.2.1, mapped_none ha.2.2.1, h3]
  rw [e] at this
  exact this

/-- Two parallel paths, one with custom extensions, that must not be scaled. -/
example : Sample.path.Good 1024 (1 / 1024) ∧
    ∀ s ∈ Sample.path.subs, s.ends ≠ .smooth ∧ s.ends ≠ .callable := by
  refine ⟨Sample.path_good, ?_⟩
  intro s hs
  simp only [Sample.path, List.mem_cons, List.not_mem_nil, or_false] at hs
  rcases hs with rfl | rfl <;> simp

/-- **C17.** The two end caps that the format cannot express are replaced: smooth ends become
round ones, custom functions become flush ends. -/
theorem C17_path_ends_replaced (p : GdsPath) (h : p.Good m d) (ha : PlainArgs a) (e : Ends)
    (hends : ∀ s ∈ p.subs, s.ends = e) (he : e = .smooth ∨ e = .callable) :
    ReadsAs div trig a d (p.toGds m)
      (p.subs.map fun s => .path ⟨p.widthTransform,
        [{ s with ends := if e = .smooth then .round else .flush }], p.properties⟩) := by
  have := gdsPath_reads (div := div) (trig := trig) (a := a) (k := 1) p h
  rw [one_mul, gdsPath_scaled_one] at this
  have e : (p.imported a).map El.path
      = p.subs.map fun s => .path ⟨p.widthTransform,
        [{ s with ends := if e = .smooth then .round else .flush }], p.properties⟩ := by
    unfold GdsPath.imported
    rw [List.map_map]
    apply List.map_congr_left
    intro s hs
    have h3 : endsImported s.ends = if e = .smooth then .round else .flush := by
      rw [hends s hs]
      rcases he with rfl | rfl <;> simp [endsImported]
    simp only [Function.comp, mapped_none ha.2.1, mapped_none ha.2.2.1, h3]
  rw [e] at this
  exact this

/-- **C17, disagreement.** Every path whose width rounds to zero loses its
`width_transform=False`: the file marks the flag by the sign of the width. -/
theorem C17_zero_width_flag_lost (s : SubPath) (props : Properties) (h0 : s.spine ≠ [])
    (hl : Word s.layer) (hd : Word s.datatype) (hg : ∀ q ∈ s.spine, OnMap2 m q)
    (hw : |s.width * m| < 1 / 2) (he : s.ends = .flush) (hp : GoodProps props) (ha : PlainArgs a) :
    ∃ spine, ReadsAs div trig a d ((⟨false, [s], props⟩ : GdsPath).toGds m)
      [.path ⟨true, [⟨0, .flush, s.layer, s.datatype, spine⟩], props⟩] := by
  have hr : pyRound (s.width * m) = 0 := pyRound_eq (by simpa using hw)
  have := writeSubPath_snaps (div := div) (trig := trig) (a := a) (f := d) (m := m) (-1) props s h0 hl
    hd hg (Or.inr rfl) (by unfold OnMap; linarith) (by rw [he]; simp) hp
  rw [hr, he, mapped_none ha.2.1, mapped_none ha.2.2.1] at this
  simp only [mul_zero, lt_self_iff_false, decide_false, Bool.not_false, Int.cast_zero, abs_zero,
    endsBack] at this
  refine ⟨s.spine.map (snap2 pyRound m d), ?_⟩
  unfold GdsPath.toGds
  have h2 := ReadsAs.append this (ReadsAs.nil (div := div) (trig := trig) (a := a) d)
  rw [List.append_nil] at h2
  exact h2

example : |(0 : ℚ) * 1024| < 1 / 2 ∧ OnMap2 1024 ((3 : ℚ), 1 / 3) := by
  constructor
  · norm_num
  · constructor <;> norm_num [OnMap]

end

end Gdspy
