import Verif.Lemmas.ReadsAs
import Verif.Spec.ImportLib

/-!
Cells and libraries are read as they were written.
-/

namespace Gdspy

open Spec

/-! ### elements of a cell -/

def El.asPolygon : El → Option PolygonSet
  | .polygon s => some s
  | _ => none

def El.asPath : El → Option PathEl
  | .path p => some (.gds p)
  | _ => none

def El.asLabel : El → Option Label
  | .label s => some s
  | _ => none

def El.asRef : El → Option Ref
  | .ref s => some s
  | _ => none

theorem foldl_add (els : List El) : ∀ c : Cell, els.foldl Cell.add c =
    { c with
      polygons := c.polygons ++ els.filterMap El.asPolygon
      paths := c.paths ++ els.filterMap El.asPath
      labels := c.labels ++ els.filterMap El.asLabel
      references := c.references ++ els.filterMap El.asRef } := by
  induction els with
  | nil => intro c; simp
  | cons e els ih =>
    intro c
    rw [List.foldl_cons, ih]
    cases e <;> simp [Cell.add, List.filterMap_cons, El.asPolygon, El.asPath, El.asLabel, El.asRef]

/-- The elements read from a cell, in file order. -/
def cellEls (a : ReadArgs) (c : Cell) : List El :=
  c.polygons.flatMap (fun s => (s.imported a).map .polygon) ++
    c.paths.flatMap (fun p => match p with
      | .gds p => (p.imported a).map .path
      | .outline s => (s.imported a).map .polygon) ++
    c.labels.flatMap (fun b => [.label (b.imported a)]) ++
    c.references.flatMap (fun r => [.ref (r.imported a)])

theorem filterMap_const_none {α β γ : Type _} (l : List α) (f : α → β) (g : β → Option γ)
    (h : ∀ x, g (f x) = none) : (l.map f).filterMap g = [] := by
  induction l with
  | nil => rfl
  | cons x l ih => rw [List.map_cons, List.filterMap_cons, h]; exact ih

theorem filterMap_const_some {α β γ : Type _} (l : List α) (f : α → β) (g : β → Option γ)
    (k : α → γ) (h : ∀ x, g (f x) = some (k x)) : (l.map f).filterMap g = l.map k := by
  induction l with
  | nil => rfl
  | cons x l ih => rw [List.map_cons, List.filterMap_cons, h, ih]; rfl

theorem filterMap_flatMap' {α β γ : Type _} (l : List α) (f : α → List β) (g : β → Option γ) :
    (l.flatMap f).filterMap g = l.flatMap fun x => (f x).filterMap g := by
  induction l with
  | nil => rfl
  | cons x l ih => rw [List.flatMap_cons, List.filterMap_append, ih, List.flatMap_cons]

theorem flatMap_empty {α β : Type _} (l : List α) : (l.flatMap fun _ => ([] : List β)) = [] := by
  induction l with
  | nil => rfl
  | cons x l ih => rw [List.flatMap_cons, ih]; rfl

theorem foldl_cellEls (a : ReadArgs) (c : Cell) :
    (cellEls a c).foldl Cell.add ⟨a.nameMap c.name, [], [], [], []⟩ = c.imported a := by
  rw [foldl_add]
  unfold Cell.imported cellEls
  simp only [List.filterMap_append, filterMap_flatMap', List.nil_append]
  congr 1
  · have h1 : ∀ s : PolygonSet, ((s.imported a).map El.polygon).filterMap El.asPolygon
        = s.imported a := fun s => by
      rw [filterMap_const_some _ El.polygon El.asPolygon id (fun _ => rfl), List.map_id]
    have h2 : ∀ p : PathEl, List.filterMap El.asPolygon (match p with
        | .gds p => (p.imported a).map El.path
        | .outline s => (s.imported a).map El.polygon) = p.asPolygons a := by
      intro p
      cases p with
      | gds p => exact filterMap_const_none _ _ _ fun _ => rfl
      | outline s => exact h1 s
    have h3 : ∀ b : Label, List.filterMap El.asPolygon [El.label b] = [] := fun _ => rfl
    have h4 : ∀ b : Ref, List.filterMap El.asPolygon [El.ref b] = [] := fun _ => rfl
    simp only [h1, h2, h3, h4, flatMap_empty, List.append_nil]
    try rfl
  · have h1 : ∀ s : PolygonSet, ((s.imported a).map El.polygon).filterMap El.asPath = [] :=
      fun s => filterMap_const_none _ _ _ fun _ => rfl
    have h2 : ∀ p : PathEl, List.filterMap El.asPath (match p with
        | .gds p => (p.imported a).map El.path
        | .outline s => (s.imported a).map El.polygon) = p.asPaths a := by
      intro p
      cases p with
      | gds p => exact filterMap_const_some _ _ _ _ fun _ => rfl
      | outline s => exact h1 s
    have h3 : ∀ b : Label, List.filterMap El.asPath [El.label b] = [] := fun _ => rfl
    have h4 : ∀ b : Ref, List.filterMap El.asPath [El.ref b] = [] := fun _ => rfl
    simp only [h1, h2, h3, h4, flatMap_empty, List.append_nil, List.nil_append]
    try rfl
  · have h1 : ∀ s : PolygonSet, ((s.imported a).map El.polygon).filterMap El.asLabel = [] :=
      fun s => filterMap_const_none _ _ _ fun _ => rfl
    have h2 : ∀ p : PathEl, List.filterMap El.asLabel (match p with
        | .gds p => (p.imported a).map El.path
        | .outline s => (s.imported a).map El.polygon) = [] := by
      intro p
      cases p with
      | gds p => exact filterMap_const_none _ _ _ fun _ => rfl
      | outline s => exact h1 s
    have h3 : ∀ b : Label, List.filterMap El.asLabel [El.label b] = [b] := fun _ => rfl
    have h4 : ∀ b : Ref, List.filterMap El.asLabel [El.ref b] = [] := fun _ => rfl
    simp only [h1, h2, h3, h4, flatMap_empty, List.append_nil, List.nil_append]
    exact (List.map_eq_flatMap ..).symm
  · have h1 : ∀ s : PolygonSet, ((s.imported a).map El.polygon).filterMap El.asRef = [] :=
      fun s => filterMap_const_none _ _ _ fun _ => rfl
    have h2 : ∀ p : PathEl, List.filterMap El.asRef (match p with
        | .gds p => (p.imported a).map El.path
        | .outline s => (s.imported a).map El.polygon) = [] := by
      intro p
      cases p with
      | gds p => exact filterMap_const_none _ _ _ fun _ => rfl
      | outline s => exact h1 s
    have h3 : ∀ b : Label, List.filterMap El.asRef [El.label b] = [] := fun _ => rfl
    have h4 : ∀ b : Ref, List.filterMap El.asRef [El.ref b] = [b] := fun _ => rfl
    simp only [h1, h2, h3, h4, flatMap_empty, List.append_nil, List.nil_append]
    exact (List.map_eq_flatMap ..).symm

section
variable {div : ℚ → ℚ → ℚ} {trig : ℚ → ℚ × ℚ} {a : ReadArgs}

theorem pathEl_reads {m d k : ℚ} (p : PathEl) (h1 : ∀ q, p = .gds q → q.Good m d)
    (h2 : ∀ s, p = .outline s → s.Good m d) :
    ReadsAs div trig a (k * d) (p.toGds m) (match p.scaled k with
      | .gds p => (p.imported a).map .path
      | .outline s => (s.imported a).map .polygon) := by
  cases p with
  | gds p => exact gdsPath_reads p (h1 p rfl)
  | outline s => exact polygonSet_reads s (h2 s rfl)

theorem cellBody_reads {m d k : ℚ} (c : Cell) (h : c.Good trig m d) :
    ReadsAs div trig a (k * d) (do
      let x ← (do
        let x ← (do
          let x ← writeAll (PolygonSet.toGds m) c.polygons
          let y ← writeAll (PathEl.toGds m) c.paths
          pure (x ++ y))
        let y ← writeAll (Label.toGds m) c.labels
        pure (x ++ y))
      let y ← writeAll (Ref.toGds trig m) c.references
      pure (x ++ y)) (cellEls a (c.scaled k)) := by
  unfold cellEls Cell.scaled
  simp only [List.flatMap_map]
  refine ReadsAs.append (ReadsAs.append (ReadsAs.append ?_ ?_) ?_) ?_
  · exact ReadsAs.writeAll fun s hs => polygonSet_reads s (h.polygons s hs)
  · exact ReadsAs.writeAll fun p hp => pathEl_reads p (fun q hq => h.paths q (hq ▸ hp))
      (fun q hq => h.outlines q (hq ▸ hp))
  · exact ReadsAs.writeAll fun b hb => label_reads b (h.labels b hb)
  · exact ReadsAs.writeAll fun r hr => ref_reads r (h.references r hr)

/-! ### a cell -/

/-- A record of 16-bit numbers. -/
def recShorts (t : Nat) (l : List Int) (ht : t < 256) (h0 : l ≠ []) (hlen : 4 + 2 * l.length < 65536)
    (hl : ∀ n ∈ l, -32768 ≤ n ∧ n < 32768) : Rec :=
  ⟨⟨t, 2, l.flatMap (twosComplement 2)⟩, .i16 l, ⟨ht, by norm_num, by
      rw [flatMap_length_const l _ 2 (fun _ _ => by simp [twosComplement_two, be16])]; omega⟩,
    Encodes.shorts l h0 hl⟩

/-- The twelve numbers of a time stamp. -/
def stampNums (t : Timestamp) : List Int :=
  [t.year, t.month, t.day, t.hour, t.minute, t.second,
    t.year, t.month, t.day, t.hour, t.minute, t.second]

theorem stampNums_fits {t : Timestamp} (h : Spec.Timestamp.Fits t) :
    ∀ n ∈ stampNums t, -32768 ≤ n ∧ n < 32768 := by
  intro n hn
  apply h n
  simp only [stampNums, List.mem_cons, List.not_mem_nil, or_false] at hn ⊢
  tauto

/-- BGNLIB or BGNSTR. -/
def recStamp (t : Nat) (ts : Timestamp) (ht : t < 256) (h : Spec.Timestamp.Fits ts) : Rec :=
  recShorts t (stampNums ts) ht (by simp [stampNums]) (by simp [stampNums]) (stampNums_fits h)

theorem recStamp_bytes (t : Nat) (ts : Timestamp) (ht : t < 256) (h : Spec.Timestamp.Fits ts) :
    (recStamp t ts ht h).frame.bytes = be16 28 ++ be16 (t * 256 + 2) ++ stampBytes ts := by
  unfold recStamp recShorts
  have e : (stampNums ts).flatMap (twosComplement 2) = stampBytes ts := by
    simp [stampNums, stampBytes]
  simp only [e]
  rw [mkFrame_bytes _ _ _ ht (by norm_num), stampBytes_length]

theorem addTo_last (lib : Lib) (name : Str) (els : List El) (h : name ∉ lib.cells.map Cell.name)
    (c : Cell) (hc : c.name = name) :
    ({ lib with cells := lib.cells ++ [c] } : Lib).addTo name els
      = { lib with cells := lib.cells ++ [els.foldl Cell.add c] } := by
  unfold Lib.addTo
  simp only [List.map_append, List.map_cons, List.map_nil, if_pos hc]
  congr 2
  conv_rhs => rw [← List.map_id lib.cells]
  apply List.map_congr_left
  intro c' hc'
  rw [if_neg]
  · rfl
  · rintro rfl
    exact h (List.mem_map_of_mem hc')

/-- What reading a written cell does. -/
theorem cell_reads {m d k : ℚ} (c : Cell) (h : c.Good trig m d) (ts : Timestamp)
    (hts : Spec.Timestamp.Fits ts) :
    ∃ b, c.toGds trig m ts = .ok b ∧ ∀ lib attr created,
      a.nameMap c.name ∉ lib.cells.map Cell.name → ∃ attr', ∀ rest,
      readFrom div trig a (libState lib (k * d) attr created) (b ++ rest)
        = readFrom div trig a (libState
            { lib with cells := lib.cells ++ [(c.scaled k).imported a] } (k * d) attr'
            (a.nameMap c.name :: created)) rest := by
  obtain ⟨body, hb, hread⟩ := cellBody_reads (div := div) (a := a) (k := k) c h
  have hlen := padEven_length_le c.name
  have hlen2 := h.name.2.2.1
  refine ⟨recsBytes [recStamp 5 ts (by norm_num) hts, recText 6 c.name (by norm_num) h.name]
    ++ body ++ recsBytes [recNone 7 (by norm_num)], ?_, ?_⟩
  · unfold Cell.toGds
    cases h1 : writeAll (PolygonSet.toGds m) c.polygons with
    | error e => rw [h1] at hb; exact absurd hb (by rintro ⟨⟩)
    | ok b1 =>
    cases h2 : writeAll (PathEl.toGds m) c.paths with
    | error e => rw [h1, h2] at hb; exact absurd hb (by rintro ⟨⟩)
    | ok b2 =>
    cases h3 : writeAll (Label.toGds m) c.labels with
    | error e => rw [h1, h2, h3] at hb; exact absurd hb (by rintro ⟨⟩)
    | ok b3 =>
    cases h4 : writeAll (Ref.toGds trig m) c.references with
    | error e => rw [h1, h2, h3, h4] at hb; exact absurd hb (by rintro ⟨⟩)
    | ok b4 =>
    rw [h1, h2, h3, h4] at hb
    obtain rfl : b1 ++ b2 ++ b3 ++ b4 = body := Except.ok.inj hb
    simp only
    rw [pack_ok _ (by flds_ok), py_bind_ok, packTs_ok hts, py_bind_ok, pack_ok _ (by flds_ok),
      py_bind_ok, encodeAscii_ok (padEven_ascii h.name.2.1), py_bind_ok, py_bind_ok, py_bind_ok,
      py_bind_ok, py_bind_ok, pack_ok _ (by flds_ok), py_bind_ok, py_pure]
    refine congrArg Except.ok ?_
    have e3 : (4 + ((padEven c.name).length : Int)).toNat = 4 + (padEven c.name).length := by omega
    rw [recsBytes_cons, recStamp_bytes]
    simp [fldsBytes, Fld.bytes, recsBytes_cons, recsBytes_nil, recText, recNone,
      mkFrame_bytes, e3]
  · intro lib attr created hnew
    obtain ⟨attr', hr⟩ := hread
      { lib with cells := lib.cells ++ [⟨a.nameMap c.name, [], [], [], []⟩] } (a.nameMap c.name)
      attr (a.nameMap c.name :: created)
    refine ⟨attr', fun rest => ?_⟩
    have run1 : Run div trig a (libState lib (k * d) attr created)
        (recsRecords [recStamp 5 ts (by norm_num) hts, recText 6 c.name (by norm_num) h.name])
        (cellState { lib with cells := lib.cells ++ [⟨a.nameMap c.name, [], [], [], []⟩] } (k * d)
          (a.nameMap c.name) attr (a.nameMap c.name :: created)) :=
      Run.cons (step_ignored _ _ _ (by right; right; rfl)) (Run.one (step_strname _ _ hnew))
    have run2 : ∀ lib' : Lib, Run div trig a (cellState lib' (k * d) (a.nameMap c.name) attr'
        (a.nameMap c.name :: created)) (recsRecords [recNone 7 (by norm_num)])
        (libState lib' (k * d) attr' (a.nameMap c.name :: created)) :=
      fun lib' => Run.one (step_endstr _)
    rw [List.append_assoc, List.append_assoc, readFrom_recs _ _ _ run1, hr,
      readFrom_recs _ _ _ (run2 _), addTo_last lib _ _ hnew _ rfl]
    have e : (cellEls a (c.scaled k)).foldl Cell.add ⟨a.nameMap c.name, [], [], [], []⟩
      = (c.scaled k).imported a := foldl_cellEls a (c.scaled k)
    rw [e]

/-- Reading a list of written cells. -/
theorem cells_read {m d k : ℚ} (ts : Timestamp) (hts : Spec.Timestamp.Fits ts) :
    ∀ (cells : List Cell), (∀ c ∈ cells, c.Good trig m d) →
    ∃ b, writeAll (Cell.toGds trig m ts) cells = .ok b ∧ ∀ lib attr created,
      (lib.cells.map Cell.name ++ cells.map fun c => a.nameMap c.name).Nodup → ∃ attr', ∀ rest,
      readFrom div trig a (libState lib (k * d) attr created) (b ++ rest)
        = readFrom div trig a (libState
            { lib with cells := lib.cells ++ cells.map fun c => (c.scaled k).imported a } (k * d)
            attr' ((cells.map fun c => a.nameMap c.name).reverse ++ created)) rest := by
  intro cells
  induction cells with
  | nil =>
    intro _
    refine ⟨[], rfl, fun lib attr created _ => ⟨attr, fun rest => ?_⟩⟩
    simp
  | cons c cells ih =>
    intro h
    obtain ⟨b1, e1, h1⟩ := cell_reads (div := div) (a := a) (k := k) c (h c List.mem_cons_self) ts hts
    obtain ⟨b2, e2, h2⟩ := ih fun c' hc' => h c' (List.mem_cons_of_mem _ hc')
    refine ⟨b1 ++ b2, ?_, fun lib attr created hn => ?_⟩
    · unfold writeAll
      rw [e1, py_bind_ok, e2, py_bind_ok, py_pure]
    · have hnew : a.nameMap c.name ∉ lib.cells.map Cell.name := by
        intro hmem
        rw [List.nodup_append] at hn
        exact hn.2.2 _ hmem _ (by simp) rfl
      obtain ⟨attr1, h1⟩ := h1 lib attr created hnew
      obtain ⟨attr2, h2⟩ := h2 { lib with cells := lib.cells ++ [(c.scaled k).imported a] } attr1
        (a.nameMap c.name :: created) (by
          have : ((c.scaled k).imported a).name = a.nameMap c.name := rfl
          simpa [this] using hn)
      refine ⟨attr2, fun rest => ?_⟩
      rw [List.append_assoc, h1, h2]
      simp

/-! ### the head of the file -/

/-- The library after the head of the file has been read. -/
def headLib (div : ℚ → ℚ → ℚ) (u : Units) (lib0 : Lib) (name : Str) (x y : ℚ) : Lib :=
  match u with
  | .import_ => { lib0 with name := some name, unit := div y x, precision := y }
  | _ => { lib0 with name := some name }

/-- The size of a database unit in user units when reading. -/
def headFactor (div : ℚ → ℚ → ℚ) (u : Units) (lib0 : Lib) (x y : ℚ) : ℚ :=
  match u with
  | .convert => div y lib0.unit
  | _ => x

theorem header_reads (name : Str) (hn : GoodText name) (unit precision : ℚ)
    (h1 : Storable (div precision unit)) (h2 : Storable precision) (ts : Timestamp)
    (hts : Spec.Timestamp.Fits ts) (lib0 : Lib)
    (hu : match a.units with
      | .skip => True
      | .import_ => div precision unit ≠ 0
      | .convert => lib0.unit ≠ 0
      | .other => False) :
    ∃ b, writeHeader div (some name) unit precision ts = .ok b ∧ ∀ rest,
      readFrom div trig a { lib := lib0 } (b ++ rest)
        = readFrom div trig a (libState
            (headLib div a.units lib0 name (div precision unit) precision)
            (headFactor div a.units lib0 (div precision unit) precision) (-1) []) rest := by
  obtain ⟨b1, r1, l1, v1⟩ := real_bytes h1
  obtain ⟨b2, r2, l2, v2⟩ := real_bytes h2
  have hlen := padEven_length_le name
  have hlen2 := hn.2.2.1
  refine ⟨recsBytes [recShort 0 0x258 (by norm_num) (by norm_num),
    recStamp 1 ts (by norm_num) hts, recText 2 name (by norm_num) hn,
    recReal2 3 b1 b2 (by norm_num) l1 l2], ?_, ?_⟩
  · unfold writeHeader
    simp only [padText]
    rw [py_bind_ok, pack_ok _ (by flds_ok), py_bind_ok, packTs_ok hts, py_bind_ok,
      pack_ok _ (by flds_ok), py_bind_ok, encodeAscii_ok (padEven_ascii hn.2.1), py_bind_ok,
      pack_ok _ (by flds_ok), py_bind_ok, r1, py_bind_ok, r2, py_bind_ok, py_pure]
    refine congrArg Except.ok ?_
    have e3 : (4 + ((padEven name).length : Int)).toNat = 4 + (padEven name).length := by omega
    rw [recsBytes_cons, recsBytes_cons, recStamp_bytes]
    simp [fldsBytes, Fld.bytes, recsBytes_cons, recsBytes_nil, recText, recShort, recReal2,
      mkFrame_bytes, e3, l1, l2, twosComplement_two]
  · intro rest
    apply readFrom_recs
    refine Run.cons (step_ignored _ _ _ (by left; rfl)) (Run.cons (step_ignored _ _ _
      (by right; left; rfl)) (Run.cons (step_libname _ name) (Run.one ?_)))
    show readStep div trig a _ ⟨3, .real [realValue b1, realValue b2]⟩ = _
    rw [v1, v2]
    obtain ⟨u, nm, ls, ds, ts'⟩ := a
    cases u with
    | skip => rfl
    | import_ =>
      simp only at hu
      show (if div precision unit = 0 then _ else _ : Py ReadState) = _
      rw [if_neg hu]
      rfl
    | convert =>
      simp only at hu
      show (if lib0.unit = 0 then _ else _ : Py ReadState) = _
      rw [if_neg hu]
      rfl
    | other => exact absurd hu id

theorem readFrom_nil (st : ReadState) : readFrom div trig a st [] = (st, none) := by
  unfold readFrom
  have e : recordReader [] = ([], none) := by
    rw [recordReader]
    · intro a b c d s' h; exact absurd h (by simp)
  rw [e]
  rfl

/-- Resolution of references at the end of the library. -/
theorem resolveRefs_eq (old new : List Cell) (created : List Str)
    (hc : ∀ n, n ∈ created ↔ n ∈ new.map Cell.name)
    (hn : (old.map Cell.name ++ new.map Cell.name).Nodup) :
    resolveRefs created (old ++ new)
      = old ++ new.map (Cell.resolvedIn ((old ++ new).map Cell.name)) := by
  unfold resolveRefs
  simp only
  rw [List.map_append]
  congr 1
  · conv_rhs => rw [← List.map_id old]
    apply List.map_congr_left
    intro c hcm
    rw [if_neg]
    · rfl
    · rw [hc]
      intro hm
      rw [List.nodup_append] at hn
      exact hn.2.2 _ (List.mem_map_of_mem hcm) _ hm rfl
  · apply List.map_congr_left
    intro c hcm
    rw [if_pos ((hc _).2 (List.mem_map_of_mem hcm))]
    rfl

/-- Writing a library and reading the file into another one. -/
theorem lib_reads {d k : ℚ} (lib : Lib) (cells : List Cell) (name : Str)
    (hname : lib.name = some name) (hn : GoodText name)
    (h1 : Storable (div lib.precision lib.unit)) (h2 : Storable lib.precision) (ts : Timestamp)
    (hts : Spec.Timestamp.Fits ts) (lib0 : Lib)
    (hu : match a.units with
      | .skip => True
      | .import_ => div lib.precision lib.unit ≠ 0
      | .convert => lib0.unit ≠ 0
      | .other => False)
    (hgood : ∀ c ∈ cells, c.Good trig (div lib.unit lib.precision) d)
    (hf : headFactor div a.units lib0 (div lib.precision lib.unit) lib.precision = k * d)
    (hnd : (lib0.cells.map Cell.name ++ cells.map fun c => a.nameMap c.name).Nodup) :
    ∃ file, writeGds div trig lib cells ts [] = .ok file ∧
      readGds div trig a lib0 file
        = (let new := cells.map fun c => (c.scaled k).imported a
           { headLib div a.units lib0 name (div lib.precision lib.unit) lib.precision with
             cells := lib0.cells
               ++ new.map (Cell.resolvedIn ((lib0.cells ++ new).map Cell.name)) }, none) := by
  obtain ⟨b1, e1, r1⟩ := header_reads (div := div) (trig := trig) (a := a) name hn lib.unit
    lib.precision h1 h2 ts hts lib0 hu
  obtain ⟨b2, e2, r2⟩ := cells_read (div := div) (trig := trig) (a := a) (k := k) ts hts cells hgood
  have hcells : (headLib div a.units lib0 name (div lib.precision lib.unit) lib.precision).cells
      = lib0.cells := by unfold headLib; split <;> rfl
  obtain ⟨attr, r2⟩ := r2
    (headLib div a.units lib0 name (div lib.precision lib.unit) lib.precision) (-1) []
    (by rw [hcells]; exact hnd)
  refine ⟨b1 ++ b2 ++ recsBytes [recNone 4 (by norm_num)], ?_, ?_⟩
  · unfold writeGds
    rw [hname, e1, py_bind_ok, e2, py_bind_ok, pack_ok _ (by flds_ok), py_bind_ok, py_pure]
    refine congrArg Except.ok ?_
    simp [fldsBytes, Fld.bytes, recsBytes_cons, recsBytes_nil, recNone, mkFrame_bytes]
  · rw [readGds_eq]
    have hend : ∀ st, readFrom div trig a st (recsBytes [recNone 4 (by norm_num)])
        = ({ st with lib := { st.lib with cells := resolveRefs st.created st.lib.cells } }, none) := by
      intro st
      have := readFrom_recs (div := div) (trig := trig) (a := a) st _ [recNone 4 (by norm_num)]
        (Run.one (step_endlib st)) []
      rw [List.append_nil] at this
      rw [this, readFrom_nil]
    rw [List.append_assoc, r1, hf, r2, hend]
    refine Prod.ext ?_ rfl
    simp only [libState, hcells, List.append_nil]
    rw [resolveRefs_eq]
    · intro n
      simp only [List.mem_reverse, List.map_map]
      rfl
    · rw [List.map_map]
      exact hnd

end

end Gdspy
