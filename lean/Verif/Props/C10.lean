import Verif.Lemmas.ReadLib
import Verif.Lemmas.Samples

/-!
# C10: the units of a file; C12: the incremental writer
-/

namespace Gdspy

open Spec

theorem rawRecordReader_frame (f : Frame) (hf : f.Fits) (rest : Bytes) :
    rawRecordReader (f.bytes ++ rest) = (f.type, f.bytes) :: rawRecordReader rest := by
  obtain ⟨h1, h2, h3⟩ := hf
  rw [frame_bytes f ⟨h1, h2, h3⟩, rawRecordReader.eq_def]
  simp only [be16, List.cons_append, List.nil_append]
  rw [rd16_be16 h3, rd16_be16 (n := f.type * 256 + f.dt) (by omega), if_neg (by omega)]
  have hlen : 4 + f.payload.length - 4 = f.payload.length := by omega
  rw [hlen, List.take_left, List.drop_left]
  congr 2
  omega

theorem rawRecordReader_recs (l : List Rec) (rest : Bytes) :
    rawRecordReader (recsBytes l ++ rest)
      = (l.map fun r => (r.frame.type, r.frame.bytes)) ++ rawRecordReader rest := by
  induction l with
  | nil => rfl
  | cons r l ih =>
    rw [recsBytes_cons, List.append_assoc, rawRecordReader_frame _ r.fits, ih]
    rfl

/-- The records at the head of the file. -/
theorem header_recs {div : ℚ → ℚ → ℚ} (name : Str) (hn : GoodText name) (unit precision : ℚ)
    (h1 : Storable (div precision unit)) (h2 : Storable precision) (ts : Timestamp)
    (hts : Spec.Timestamp.Fits ts) :
    ∃ b1 b2, ∃ l1 : b1.length = 8, ∃ l2 : b2.length = 8,
      eightByteRealToFloat b1 = .ok (div precision unit) ∧
      eightByteRealToFloat b2 = .ok precision ∧
      writeHeader div (some name) unit precision ts = .ok (recsBytes
        [recShort 0 0x258 (by norm_num) (by norm_num), recStamp 1 ts (by norm_num) hts,
          recText 2 name (by norm_num) hn, recReal2 3 b1 b2 (by norm_num) l1 l2]) := by
  obtain ⟨b1, r1, l1, v1⟩ := C01_real8_roundtrip h1.1 h1.2
  obtain ⟨b2, r2, l2, v2⟩ := C01_real8_roundtrip h2.1 h2.2
  have hlen := padEven_length_le name
  have hlen2 := hn.2.2.1
  refine ⟨b1, b2, l1, l2, v1, v2, ?_⟩
  unfold writeHeader
  simp only [padText]
  rw [py_bind_ok, pack_ok _ (by flds_ok), py_bind_ok, packTs_ok hts, py_bind_ok,
    pack_ok _ (by flds_ok), py_bind_ok, encodeAscii_ok (padEven_ascii hn.2.1), py_bind_ok,
    pack_ok _ (by flds_ok), py_bind_ok, r1, py_bind_ok, r2, py_bind_ok, py_pure]
  refine congrArg Except.ok ?_
  have e3 : (4 + ((padEven name).length : Int)).toNat = 4 + (padEven name).length := by omega
  rw [recsBytes_cons, recsBytes_cons, recStamp_bytes]
  simp [fldsBytes, Fld.bytes, recsBytes_cons, recsBytes_nil, recText, recShort, recReal2,
    mkFrame_bytes, e3, l1, l2, twosComplement_two]

/-- **C10.** For every file made by `write_gds`, whatever its cells and binary cells,
`get_gds_units` returns the precision and `precision / (precision / unit)`, computed with the
division of doubles `div`. -/
theorem C10_units_of_file {div : ℚ → ℚ → ℚ} {trig : ℚ → ℚ × ℚ} (lib : Lib) (name : Str)
    (hname : lib.name = some name) (hn : GoodText name) (cells : List Cell) (ts : Timestamp)
    (hts : Spec.Timestamp.Fits ts) (bcs : List Bytes)
    (h1 : Storable (div lib.precision lib.unit)) (h2 : Storable lib.precision)
    (h0 : div lib.precision lib.unit ≠ 0) (file : Bytes)
    (hfile : writeGds div trig lib cells ts bcs = .ok file) :
    getGdsUnits div file
      = .ok (some (div lib.precision (div lib.precision lib.unit), lib.precision)) := by
  obtain ⟨b1, b2, l1, l2, v1, v2, hh⟩ := header_recs (div := div) name hn lib.unit lib.precision h1
    h2 ts hts
  unfold writeGds at hfile
  rw [hname, hh, py_bind_ok] at hfile
  cases hb : writeAll (Cell.toGds trig (div lib.unit lib.precision) ts) cells with
  | error e => rw [hb] at hfile; exact absurd hfile (by rintro ⟨⟩)
  | ok body =>
    rw [hb, py_bind_ok, pack_ok _ (by flds_ok), py_bind_ok, py_pure] at hfile
    obtain rfl := Except.ok.inj hfile
    unfold getGdsUnits
    rw [List.append_assoc, List.append_assoc, rawRecordReader_recs]
    simp only [List.map_cons, List.map_nil, List.cons_append, List.nil_append]
    have hfr : (recReal2 3 b1 b2 (by norm_num) l1 l2).frame.bytes
        = [0, 20, 3, 5] ++ b1 ++ b2 := by
      unfold recReal2
      rw [mkFrame_bytes _ _ _ (by norm_num) (by norm_num), List.length_append, l1, l2]
      simp [be16]
    have s1 : pySlice ([0, 20, 3, 5] ++ b1 ++ b2) 4 12 = b1 := by
      show List.take 8 (List.drop 4 ([0, 20, 3, 5] ++ b1 ++ b2)) = b1
      rw [List.append_assoc]
      show List.take 8 (b1 ++ b2) = b1
      rw [List.take_append_of_le_length (by omega), List.take_of_length_le (by omega)]
    have s2 : ([0, 20, 3, 5] ++ b1 ++ b2).drop 12 = b2 := by
      rw [List.drop_append_of_le_length (by simp [l1]), List.drop_of_length_le (by simp [l1])]
      rfl
    simp only [getGdsUnits.go, hfr]
    have t0 : (recShort 0 0x258 (by norm_num) (by norm_num)).frame.type = 0 := rfl
    have t1 : (recStamp 1 ts (by norm_num) hts).frame.type = 1 := rfl
    have t2 : (recText 2 name (by norm_num) hn).frame.type = 2 := rfl
    have t3 : (recReal2 3 b1 b2 (by norm_num) l1 l2).frame.type = 3 := rfl
    rw [t0, t1, t2, t3, if_neg (by norm_num), if_neg (by norm_num), if_neg (by norm_num),
      if_pos rfl, s1, s2, v1, py_bind_ok, v2, py_bind_ok, if_neg h0]
    rfl

/-- **C10.** When the division of doubles is exact for these units, the pair reported is the pair of
the library. -/
theorem C10_units_exact {div : ℚ → ℚ → ℚ} {trig : ℚ → ℚ × ℚ} (lib : Lib) (name : Str)
    (hname : lib.name = some name) (hn : GoodText name) (cells : List Cell) (ts : Timestamp)
    (hts : Spec.Timestamp.Fits ts) (bcs : List Bytes)
    (h1 : Storable (div lib.precision lib.unit)) (h2 : Storable lib.precision)
    (h0 : div lib.precision lib.unit ≠ 0)
    (hex : div lib.precision (div lib.precision lib.unit) = lib.unit) (file : Bytes)
    (hfile : writeGds div trig lib cells ts bcs = .ok file) :
    getGdsUnits div file = .ok (some (lib.unit, lib.precision)) := by
  rw [C10_units_of_file lib name hname hn cells ts hts bcs h1 h2 h0 file hfile, hex]

/-- **C10.** Reading a file of on-grid cells with `units='import'` leaves the library with exactly
the pair that `get_gds_units` reports. -/
theorem C10_import_agrees {div : ℚ → ℚ → ℚ} {trig : ℚ → ℚ × ℚ} (lib : Lib) (name : Str)
    (hname : lib.name = some name) (hn : GoodText name) (cells : List Cell) (ts : Timestamp)
    (hts : Spec.Timestamp.Fits ts)
    (h1 : Storable (div lib.precision lib.unit)) (h2 : Storable lib.precision)
    (h0 : div lib.precision lib.unit ≠ 0)
    (hgood : ∀ c ∈ cells, c.Good trig (div lib.unit lib.precision) (div lib.precision lib.unit))
    (a : ReadArgs) (hu : a.units = .import_) (lib0 : Lib)
    (hnd : (lib0.cells.map Cell.name ++ cells.map fun c => a.nameMap c.name).Nodup) :
    ∃ file, writeGds div trig lib cells ts [] = .ok file ∧
      (readGds div trig a lib0 file).2 = none ∧
      getGdsUnits div file = .ok (some ((readGds div trig a lib0 file).1.unit,
        (readGds div trig a lib0 file).1.precision)) := by
  obtain ⟨file, hw, hr⟩ := lib_reads (div := div) (trig := trig) (a := a)
    (d := div lib.precision lib.unit) (k := 1) lib cells name hname hn h1 h2 ts hts lib0
    (by rw [hu]; exact h0) hgood (by rw [hu, one_mul]; rfl) hnd
  refine ⟨file, hw, by rw [hr], ?_⟩
  rw [C10_units_of_file lib name hname hn cells ts hts [] h1 h2 h0 file hw, hr]
  simp only [headLib, hu]

/-- The hypotheses are met, with exact division, by a unit of 2^-20 and a precision of 2^-30. -/
example : Storable ((1 / 1073741824 : ℚ) / (1 / 1048576)) ∧ Storable (1 / 1073741824 : ℚ) ∧
    ((1 / 1073741824 : ℚ) / (1 / 1048576)) ≠ 0 ∧
    (1 / 1073741824 : ℚ) / ((1 / 1073741824 : ℚ) / (1 / 1048576)) = 1 / 1048576 ∧
    (1 / 1048576 : ℚ) / (1 / 1073741824) = 1024 ∧
    GoodText "library".toList ∧ Spec.Timestamp.Fits ⟨2020, 1, 2, 3, 4, 5⟩ := by
  refine ⟨?_, ?_, by norm_num, by norm_num, by norm_num,
    ⟨by decide, by decide, by decide, by decide⟩, ?_⟩
  · have := Sample.storable 1 (-10) (by norm_num) (by norm_num [abs_of_pos])
      (by norm_num [abs_of_pos])
    norm_num at this ⊢
    exact this
  · have := Sample.storable 1 (-30) (by norm_num) (by norm_num [abs_of_pos])
      (by norm_num [abs_of_pos])
    norm_num at this ⊢
    exact this
  · intro x hx
    simp only [List.mem_cons, List.not_mem_nil, or_false] at hx
    omega

/-! ### C12 -/

theorem writer_cells (trig : ℚ → ℚ × ℚ) (ts : Timestamp) : ∀ (cells : List Cell) (w : Writer),
    cells.foldlM (fun w c => w.writeCell trig c ts) w
      = (do
          let b ← writeAll (Cell.toGds trig w.res ts) cells
          pure { w with out := w.out ++ b }) := by
  intro cells
  induction cells with
  | nil =>
    intro w
    simp only [List.foldlM_nil, writeAll]
    rw [py_bind_ok, List.append_nil]
  | cons c cells ih =>
    intro w
    rw [List.foldlM_cons]
    unfold Writer.writeCell
    simp only [writeAll]
    cases h : c.toGds trig w.res ts with
    | error e => rfl
    | ok b =>
      rw [py_bind_ok, py_bind_ok, py_pure, py_bind_ok]
      have := ih { w with out := w.out ++ b }
      unfold Writer.writeCell at this
      rw [this]
      simp only
      cases writeAll (Cell.toGds trig w.res ts) cells with
      | error e => rfl
      | ok b2 =>
        simp only [py_bind_ok, py_pure, List.append_assoc]

/-- **C12.** A `GdsWriter` that is given the cells one by one, then the binary cells, and is
closed, produces the same file as one call of `write_gds` on a library with the same name and
units, or raises the same exception. -/
theorem C12_writer_equals_write_gds (div : ℚ → ℚ → ℚ) (trig : ℚ → ℚ × ℚ) (lib : Lib)
    (cells : List Cell) (ts : Timestamp) (bcs : List Bytes) :
    (do
      let w ← Writer.new div lib.name lib.unit lib.precision ts
      let w ← cells.foldlM (fun w c => w.writeCell trig c ts) w
      let w ← w.writeBinaryCells bcs
      w.close) = writeGds div trig lib cells ts bcs := by
  have hfold : ∀ (l : List Bytes) (o : Bytes), l.foldl (· ++ ·) o = o ++ l.flatten := by
    intro l
    induction l with
    | nil => intro o; simp
    | cons x l ih => intro o; rw [List.foldl_cons, ih, List.flatten_cons, List.append_assoc]
  unfold writeGds Writer.new
  cases writeHeader div lib.name lib.unit lib.precision ts with
  | error e => rfl
  | ok hd =>
    rw [py_bind_ok, py_bind_ok, py_pure, py_bind_ok, writer_cells]
    simp only
    cases writeAll (Cell.toGds trig (div lib.unit lib.precision) ts) cells with
    | error e => rfl
    | ok body =>
      rw [py_bind_ok, py_bind_ok, py_pure, py_bind_ok]
      unfold Writer.writeBinaryCells Writer.close
      rw [py_bind_ok, hfold]

/-- **C12.** More generally, cells and binary cells can be interleaved: the file is the head, the
pieces in the order in which they were given, and the end. -/
theorem C12_writer_any_order (div : ℚ → ℚ → ℚ) (trig : ℚ → ℚ × ℚ) (name : Option Str)
    (unit precision : ℚ) (ts : Timestamp) (ops : List (Cell ⊕ List Bytes)) :
    (do
      let w ← Writer.new div name unit precision ts
      let w ← ops.foldlM (fun (w : Writer) (o : Cell ⊕ List Bytes) => match o with
        | .inl c => w.writeCell trig c ts
        | .inr b => w.writeBinaryCells b) w
      w.close)
    = (do
        let hd ← writeHeader div name unit precision ts
        let body ← writeAll (fun o : Cell ⊕ List Bytes => match o with
          | .inl c => c.toGds trig (div unit precision) ts
          | .inr b => .ok b.flatten) ops
        pure (hd ++ body ++ [0, 4, 4, 0])) := by
  have hfold : ∀ (l : List Bytes) (o : Bytes), l.foldl (· ++ ·) o = o ++ l.flatten := by
    intro l
    induction l with
    | nil => intro o; simp
    | cons x l ih => intro o; rw [List.foldl_cons, ih, List.flatten_cons, List.append_assoc]
  have hops : ∀ (l : List (Cell ⊕ List Bytes)) (w : Writer), l.foldlM (fun (w : Writer) (o : Cell ⊕ List Bytes) => match o with
        | .inl c => w.writeCell trig c ts
        | .inr b => w.writeBinaryCells b) w
      = (do
          let body ← writeAll (fun o : Cell ⊕ List Bytes => match o with
            | .inl c => c.toGds trig w.res ts
            | .inr b => .ok b.flatten) l
          pure { w with out := w.out ++ body }) := by
    intro l
    induction l with
    | nil =>
      intro w
      simp only [List.foldlM_nil, writeAll]
      rw [py_bind_ok, List.append_nil]
    | cons o l ih =>
      intro w
      rw [List.foldlM_cons]
      cases o with
      | inl c =>
        simp only [writeAll, Writer.writeCell]
        cases c.toGds trig w.res ts with
        | error e => rfl
        | ok b =>
          rw [py_bind_ok, py_bind_ok, py_pure, py_bind_ok]
          have := ih { w with out := w.out ++ b }
          simp only [Writer.writeCell] at this
          rw [this]
          cases writeAll (fun o : Cell ⊕ List Bytes => match o with
            | .inl c => c.toGds trig w.res ts
            | .inr b => .ok b.flatten) l with
          | error e => rfl
          | ok b2 => simp only [py_bind_ok, py_pure, List.append_assoc]
      | inr bs =>
        simp only [writeAll, Writer.writeBinaryCells]
        rw [py_bind_ok, py_bind_ok, hfold]
        have := ih { w with out := w.out ++ bs.flatten }
        simp only [Writer.writeBinaryCells] at this
        rw [this]
        cases writeAll (fun o : Cell ⊕ List Bytes => match o with
          | .inl c => c.toGds trig w.res ts
          | .inr b => .ok b.flatten) l with
        | error e => rfl
        | ok b2 => simp only [py_bind_ok, py_pure, List.append_assoc]
  unfold Writer.new
  cases writeHeader div name unit precision ts with
  | error e => rfl
  | ok hd =>
    rw [py_bind_ok, py_bind_ok, py_pure, py_bind_ok, hops]
    simp only
    cases writeAll (fun o : Cell ⊕ List Bytes => match o with
      | .inl c => c.toGds trig (div unit precision) ts
      | .inr b => .ok b.flatten) ops with
    | error e => rfl
    | ok body =>
      rw [py_bind_ok, py_bind_ok, py_pure, py_bind_ok]
      rfl

/-- Two cells with a binary cell in between: no hypotheses are needed. -/
example : ∃ ops : List (Cell ⊕ List Bytes), ops.length = 3 :=
  ⟨[.inl ⟨"A".toList, [], [], [], []⟩, .inr [[0, 4, 7, 0]], .inl ⟨"B".toList, [], [], [], []⟩], rfl⟩

end Gdspy
