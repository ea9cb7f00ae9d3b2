import Verif.Spec.Binary
import Verif.Lemmas.Framed
import Verif.Props.C06
import Verif.Props.C10

/-!
# C11: binary cells
-/

namespace Gdspy

open Spec

theorem rawRecordReader_frames (l : List Frame) (h : ∀ f ∈ l, f.Fits) (rest : Bytes) :
    rawRecordReader (streamBytes l ++ rest)
      = (l.map fun f => (f.type, f.bytes)) ++ rawRecordReader rest := by
  induction l with
  | nil => rfl
  | cons f l ih =>
    rw [streamBytes_cons, List.append_assoc, rawRecordReader_frame _ (h f List.mem_cons_self),
      ih (fun g hg => h g (List.mem_cons_of_mem _ hg))]
    rfl

theorem rawRecordReader_tail {tail : Bytes} (h : tail.length < 4) : rawRecordReader tail = [] := by
  match tail, h with
  | [], _ => rw [rawRecordReader.eq_def]
  | [_], _ => rw [rawRecordReader.eq_def]
  | [_, _], _ => rw [rawRecordReader.eq_def]
  | [_, _, _], _ => rw [rawRecordReader.eq_def]

/-- Records outside of cells are skipped. -/
theorem binLoop_skip (name : Option Str) (cells : List (Option Str × Bytes)) (rest : List (Nat × Bytes)) :
    ∀ l : List Frame, (∀ f ∈ l, f.Inner) →
    binLoop ((l.map fun f => (f.type, f.bytes)) ++ rest) name none cells
      = binLoop rest name none cells := by
  intro l
  induction l with
  | nil => intro _; rfl
  | cons f l ih =>
    intro h
    obtain ⟨_, h5, h6, h7⟩ := h f List.mem_cons_self
    simp only [List.map_cons, List.cons_append, binLoop]
    rw [if_neg h5, if_neg h6, if_neg h7]
    exact ih (fun g hg => h g (List.mem_cons_of_mem _ hg))

/-- Records inside of a cell are collected. -/
theorem binLoop_collect (name : Option Str) (cells : List (Option Str × Bytes))
    (rest : List (Nat × Bytes)) : ∀ (l : List Frame) (cd : List Bytes), (∀ f ∈ l, f.Inner) →
    binLoop ((l.map fun f => (f.type, f.bytes)) ++ rest) name (some cd) cells
      = binLoop rest name (some (cd ++ l.map Frame.bytes)) cells := by
  intro l
  induction l with
  | nil => intro cd _; simp
  | cons f l ih =>
    intro cd h
    obtain ⟨_, h5, h6, h7⟩ := h f List.mem_cons_self
    simp only [List.map_cons, List.cons_append, binLoop]
    rw [if_neg h5, if_neg h6, if_neg h7, ih _ (fun g hg => h g (List.mem_cons_of_mem _ hg))]
    simp

/-- The name is recovered from the record. -/
theorem name_of_record {name : Str} {p : Bytes} (h : NamePayload name p) (b : Bytes) (x : UInt8)
    (hb : b.length = 3) (hx : x ≠ 0) :
    (if (b ++ [x] ++ p).getLast? = some 0 then decodeAscii (((b ++ [x] ++ p).drop 4).dropLast)
      else decodeAscii ((b ++ [x] ++ p).drop 4)) = .ok name := by
  have hd : (b ++ [x] ++ p).drop 4 = p := by
    rw [List.drop_append_of_le_length (by simp [hb]), List.drop_of_length_le (by simp [hb])]
    rfl
  rw [hd]
  obtain ⟨h1, rfl | ⟨rfl, h2⟩⟩ := h
  · rw [if_pos (by rw [← List.append_assoc, List.getLast?_append]; simp), List.dropLast_concat,
      decodeAscii_map h1]
  · rw [if_neg, decodeAscii_map h1]
    rcases List.eq_nil_or_concat name with rfl | ⟨t, c, rfl⟩
    · simp [hx]
    · have hc := h2 c (by simp)
      have hc2 := h1 c (by simp)
      rw [List.concat_eq_append, List.map_append, ← List.append_assoc, List.getLast?_append]
      simp only [List.map_cons, List.map_nil, List.getLast?_singleton, Option.some_or]
      intro hcon
      have := congrArg UInt8.toNat (Option.some.inj hcon)
      rw [ofNat_toNat8] at this
      have h0 : (0 : UInt8).toNat = 0 := rfl
      omega

theorem binLoop_cell (c : CellImage) (hc : c.Ok) (name : Option Str)
    (cells : List (Option Str × Bytes)) (rest : List (Nat × Bytes)) :
    binLoop ((c.frames.map fun f => (f.type, f.bytes)) ++ rest) name none cells
      = binLoop rest (some c.name) none (binSet cells (some c.name) c.bytes) := by
  obtain ⟨h1, h2, h3, h4⟩ := hc
  unfold CellImage.frames
  simp only [List.map_append, List.map_cons, List.map_nil, List.cons_append, List.nil_append,
    List.append_assoc]
  rw [binLoop, if_pos rfl, binLoop, if_neg (by norm_num), if_pos rfl]
  simp only
  obtain ⟨b, x, hb, hx, hbx⟩ : ∃ (b : Bytes) (x : UInt8), b.length = 3 ∧ x ≠ 0 ∧
      (⟨6, 6, c.namePayload⟩ : Frame).bytes = b ++ [x] ++ c.namePayload := by
    refine ⟨bigEndian 2 (4 + c.namePayload.length) ++ [6], 6, ?_, by decide, ?_⟩
    · rw [List.length_append, bigEndian_two]; rfl
    · simp [Frame.bytes]
  have hn := name_of_record h3 b x hb hx
  rw [← hbx] at hn
  have hbind : ∀ (P : Prop) [Decidable P] (x y : Py Str) (g : Str → Py (List (Option Str × Bytes))),
      (if P then x >>= g else y >>= g) = (if P then x else y) >>= g := by
    intro P _ x y g; split <;> rfl
  rw [hbind, hn, py_bind_ok, binLoop_collect _ _ _ _ _ h4, binLoop, if_neg (by norm_num),
    if_neg (by norm_num), if_pos rfl]
  congr 2
  simp [CellImage.bytes, CellImage.frames, streamBytes]

theorem binLoop_cells : ∀ (l : List CellImage) (_ : ∀ c ∈ l, c.Ok) (name : Option Str)
    (cells : List (Option Str × Bytes)) (rest : List (Nat × Bytes)),
    ∃ name', binLoop (((l.flatMap CellImage.frames).map fun f => (f.type, f.bytes)) ++ rest) name none
        cells
      = binLoop rest name' none (l.foldl (fun d c => binSet d (some c.name) c.bytes) cells) := by
  intro l
  induction l with
  | nil => intro _ name cells rest; exact ⟨name, rfl⟩
  | cons c l ih =>
    intro h name cells rest
    obtain ⟨name', he⟩ := ih (fun d hd => h d (List.mem_cons_of_mem _ hd)) (some c.name)
      (binSet cells (some c.name) c.bytes) rest
    refine ⟨name', ?_⟩
    rw [List.flatMap_cons, List.map_append, List.append_assoc,
      binLoop_cell c (h c List.mem_cons_self), he]
    rfl

theorem CellImage.frames_fit {c : CellImage} (h : c.Ok) : ∀ f ∈ c.frames, f.Fits := by
  intro f hf
  simp only [CellImage.frames, List.mem_append, List.mem_cons, List.not_mem_nil, or_false] at hf
  obtain ⟨h1, h2, h3, h4⟩ := h
  rcases hf with ((rfl | rfl) | hf) | rfl
  · exact ⟨by norm_num, by norm_num, h1⟩
  · exact ⟨by norm_num, by norm_num, h2⟩
  · exact (h4 f hf).1
  · exact ⟨by norm_num, by norm_num, by simp⟩

/-- `get_binary_cells` in general: later cells of the same name replace earlier ones. -/
theorem getBinaryCells_stream (pre post : List Frame) (cells : List CellImage) (tail : Bytes)
    (hpre : ∀ f ∈ pre, f.Inner) (hpost : ∀ f ∈ post, f.Inner) (hcells : ∀ c ∈ cells, c.Ok)
    (ht : tail.length < 4) :
    getBinaryCells (streamBytes (pre ++ cells.flatMap CellImage.frames ++ post) ++ tail)
      = .ok (cells.foldl (fun d c => binSet d (some c.name) c.bytes) []) := by
  have hfit : ∀ f ∈ pre ++ cells.flatMap CellImage.frames ++ post, f.Fits := by
    intro f hf
    simp only [List.mem_append, List.mem_flatMap] at hf
    rcases hf with (hf | ⟨c, hc, hf⟩) | hf
    · exact (hpre f hf).1
    · exact CellImage.frames_fit (hcells c hc) f hf
    · exact (hpost f hf).1
  unfold getBinaryCells
  rw [rawRecordReader_frames _ hfit, rawRecordReader_tail ht, List.map_append, List.map_append,
    List.append_assoc, List.append_assoc, binLoop_skip _ _ _ _ hpre]
  obtain ⟨name', he⟩ := binLoop_cells cells hcells none []
    ((post.map fun f => (f.type, f.bytes)) ++ [])
  rw [he, binLoop_skip _ _ _ _ hpost]
  rfl

theorem binSet_new : ∀ (d : List (Option Str × Bytes)) (k : Option Str) (v : Bytes),
    k ∉ d.map Prod.fst → binSet d k v = d ++ [(k, v)] := by
  intro d
  induction d with
  | nil => intro k v _; rfl
  | cons p d ih =>
    intro k v h
    obtain ⟨k', v'⟩ := p
    simp only [List.map_cons, List.mem_cons, not_or] at h
    rw [binSet, if_neg (fun hc => h.1 hc.symm), ih k v h.2]
    rfl

theorem binSet_fold : ∀ (l : List CellImage) (d : List (Option Str × Bytes)),
    (d.map Prod.fst ++ l.map fun c => some c.name).Nodup →
    l.foldl (fun d c => binSet d (some c.name) c.bytes) d
      = d ++ l.map fun c => (some c.name, c.bytes) := by
  intro l
  induction l with
  | nil => intro d _; simp
  | cons c l ih =>
    intro d h
    have hnot : some c.name ∉ d.map Prod.fst := by
      intro hc
      rw [List.nodup_append] at h
      exact h.2.2 _ hc _ (by simp) rfl
    rw [List.foldl_cons, binSet_new _ _ _ hnot, ih]
    · simp
    · simpa using h

/-- **C11.** On every file made of records outside of cells, cells with distinct names, more
records, and up to three stray bytes, `get_binary_cells` returns every cell under its name, in
file order, each with exactly its own bytes, from BGNSTR to ENDSTR. -/
theorem C11_binary_cells_exact (pre post : List Frame) (cells : List CellImage) (tail : Bytes)
    (hpre : ∀ f ∈ pre, f.Inner) (hpost : ∀ f ∈ post, f.Inner) (hcells : ∀ c ∈ cells, c.Ok)
    (hnames : (cells.map CellImage.name).Nodup) (ht : tail.length < 4) :
    getBinaryCells (streamBytes (pre ++ cells.flatMap CellImage.frames ++ post) ++ tail)
      = .ok (cells.map fun c => (some c.name, c.bytes)) := by
  rw [getBinaryCells_stream pre post cells tail hpre hpost hcells ht, binSet_fold]
  · rfl
  · have := hnames.map (Option.some_injective Str)
    rw [List.map_map] at this
    exact this

theorem lookup_cons_eq (d : List (Option Str × Bytes)) (j k : Option Str) (v : Bytes) :
    ((k, v) :: d).lookup j = if j = k then some v else d.lookup j := by
  rw [List.lookup_cons]
  by_cases h : j = k
  · rw [if_pos h, beq_iff_eq.2 h]
  · rw [if_neg h, beq_eq_false_iff_ne.2 h]

theorem binSet_lookup (d : List (Option Str × Bytes)) (k j : Option Str) (v : Bytes) :
    (binSet d k v).lookup j = if j = k then some v else d.lookup j := by
  induction d with
  | nil => rw [binSet, lookup_cons_eq]
  | cons p d ih =>
    obtain ⟨k', v'⟩ := p
    simp only [binSet]
    split
    · rename_i h
      subst h
      rw [lookup_cons_eq, lookup_cons_eq]
      split <;> rfl
    · rename_i h
      rw [lookup_cons_eq, lookup_cons_eq, ih]
      by_cases h2 : j = k'
      · subst h2
        rw [if_pos rfl, if_neg h, if_pos rfl]
      · rw [if_neg h2, if_neg h2]

/-- **C11.** When cell names repeat, the last cell of that name is returned (and no other name is
affected). -/
theorem C11_binary_cells_last_wins (pre post : List Frame) (cells : List CellImage) (tail : Bytes)
    (hpre : ∀ f ∈ pre, f.Inner) (hpost : ∀ f ∈ post, f.Inner) (hcells : ∀ c ∈ cells, c.Ok)
    (ht : tail.length < 4) :
    ∃ d, getBinaryCells (streamBytes (pre ++ cells.flatMap CellImage.frames ++ post) ++ tail)
        = .ok d ∧
      ∀ name, d.lookup (some name)
        = (cells.reverse.find? fun c => c.name = name).map CellImage.bytes := by
  refine ⟨_, getBinaryCells_stream pre post cells tail hpre hpost hcells ht, ?_⟩
  intro name
  clear hcells
  induction cells using List.reverseRecOn with
  | nil => rfl
  | append_singleton l c ih =>
    rw [List.foldl_append, List.foldl_cons, List.foldl_nil, binSet_lookup, List.reverse_append,
      List.reverse_cons, List.reverse_nil, List.nil_append, List.cons_append, List.nil_append,
      List.find?_cons]
    by_cases h : c.name = name
    · simp [h]
    · rw [if_neg (fun hc => h (Option.some.inj hc).symm), ih]
      simp [h]

/-! ### files written by gdspy -/

/-- The name survives the padding: not an even number of characters ending in NUL. -/
def Spec.PadsWell (s : Str) : Prop :=
  s.length % 2 = 0 → ∀ x, s.getLast? = some x → x.toNat ≠ 0

theorem padEven_namePayload {s : Str} (h1 : ∀ c ∈ s, c.toNat < 128) (h2 : PadsWell s) :
    NamePayload s ((padEven s).map fun c => UInt8.ofNat c.toNat) := by
  refine ⟨h1, ?_⟩
  unfold padEven
  split
  · left; simp
  · right; exact ⟨rfl, h2 (by omega)⟩

/-- A cell that was written is a cell image under its own name. -/
theorem cell_image {trig : ℚ → ℚ × ℚ} {m : ℚ} {ts : Timestamp} {c : Cell} {b : Bytes}
    (h : c.toGds trig m ts = .ok b) (hn : PadsWell c.name) :
    ∃ i : CellImage, i.Ok ∧ i.name = c.name ∧ b = i.bytes := by
  obtain ⟨fs, h1, h2, h3, h4, rfl⟩ := cell_framed h
  refine ⟨⟨stampBytes ts, c.name, (padEven c.name).map fun x => UInt8.ofNat x.toNat, fs⟩,
    ⟨?_, ?_, padEven_namePayload h3 hn, ?_⟩, rfl, ?_⟩
  · simp only [stampBytes_length]; norm_num
  · rw [List.length_map]; exact h4
  · intro f hf
    obtain ⟨q1, q2⟩ := h1 f hf
    exact ⟨q1, by omega, by omega, by omega⟩
  · simp only [CellImage.bytes, CellImage.frames]

theorem writeAll_images {trig : ℚ → ℚ × ℚ} {m : ℚ} {ts : Timestamp} : ∀ {cells : List Cell}
    {b : Bytes}, writeAll (Cell.toGds trig m ts) cells = .ok b →
    ∃ images : List Bytes, List.Forall₂ (fun c i => c.toGds trig m ts = .ok i) cells images ∧
      b = images.flatten := by
  intro cells
  induction cells with
  | nil => intro b h; exact ⟨[], .nil, (Except.ok.inj h).symm⟩
  | cons c cells ih =>
    intro b h
    simp only [writeAll] at h
    obtain ⟨x, h1, h⟩ := py_bind_eq_ok h
    obtain ⟨y, h2, h⟩ := py_bind_eq_ok h
    obtain ⟨images, h3, rfl⟩ := ih h2
    exact ⟨x :: images, .cons h1 h3, (Except.ok.inj h).symm⟩

theorem images_exist {trig : ℚ → ℚ × ℚ} {m : ℚ} {ts : Timestamp} {cells : List Cell}
    {images : List Bytes} (h : List.Forall₂ (fun c i => c.toGds trig m ts = .ok i) cells images)
    (hn : ∀ c ∈ cells, PadsWell c.name) :
    ∃ l : List CellImage, (∀ i ∈ l, i.Ok) ∧ l.map CellImage.name = cells.map Cell.name ∧
      l.map CellImage.bytes = images := by
  induction h with
  | nil => exact ⟨[], by simp⟩
  | cons h1 _ ih =>
    obtain ⟨l, q1, q2, q3⟩ := ih (fun c hc => hn c (List.mem_cons_of_mem _ hc))
    obtain ⟨i, r1, r2, r3⟩ := cell_image h1 (hn _ List.mem_cons_self)
    refine ⟨i :: l, ?_, by simp [r2, q2], by simp [r3, q3]⟩
    intro j hj
    rcases List.mem_cons.1 hj with rfl | hj
    · exact r1
    · exact q1 j hj

theorem header_inner {div : ℚ → ℚ → ℚ} {name : Option Str} {unit precision : ℚ} {ts : Timestamp}
    {b : Bytes} (h : writeHeader div name unit precision ts = .ok b) :
    ∃ l : List Frame, (∀ f ∈ l, f.Inner) ∧ b = streamBytes l := by
  obtain ⟨t, r, rfl, h1, h2, h3⟩ := header_framed h
  refine ⟨_, ?_, rfl⟩
  intro f hf
  simp only [List.mem_cons, List.not_mem_nil, or_false] at hf
  rcases hf with rfl | rfl | rfl | rfl
  · exact ⟨⟨by norm_num, by norm_num, by simp⟩, by norm_num, by norm_num, by norm_num⟩
  · exact ⟨⟨by norm_num, by norm_num, by simp [stampBytes_length]⟩, by norm_num, by norm_num,
      by norm_num⟩
  · exact ⟨⟨by norm_num, by norm_num, h2⟩, by norm_num, by norm_num, by norm_num⟩
  · exact ⟨⟨by norm_num, by norm_num, by simp [h1]⟩, by norm_num, by norm_num, by norm_num⟩

theorem writeGds_inv {div : ℚ → ℚ → ℚ} {trig : ℚ → ℚ × ℚ} {lib : Lib} {cells : List Cell}
    {ts : Timestamp} {bcs : List Bytes} {file : Bytes}
    (h : writeGds div trig lib cells ts bcs = .ok file) :
    ∃ hd images, writeHeader div lib.name lib.unit lib.precision ts = .ok hd ∧
      List.Forall₂ (fun c i => c.toGds trig (div lib.unit lib.precision) ts = .ok i) cells images ∧
      file = hd ++ images.flatten ++ bcs.flatten ++ [0, 4, 4, 0] := by
  unfold writeGds at h
  obtain ⟨hd, h1, h⟩ := py_bind_eq_ok h
  obtain ⟨b, h2, h⟩ := py_bind_eq_ok h
  obtain ⟨e, h3, h⟩ := py_bind_eq_ok h
  obtain ⟨images, h4, rfl⟩ := writeAll_images h2
  obtain ⟨_, rfl⟩ := pack_inv h3
  exact ⟨hd, images, h1, h4, (Except.ok.inj h).symm⟩

theorem writeAll_of_images {trig : ℚ → ℚ × ℚ} {m : ℚ} {ts : Timestamp} {cells : List Cell}
    {images : List Bytes} (h : List.Forall₂ (fun c i => c.toGds trig m ts = .ok i) cells images) :
    writeAll (Cell.toGds trig m ts) cells = .ok images.flatten := by
  induction h with
  | nil => rfl
  | cons h1 _ ih =>
    simp only [writeAll]
    rw [h1, py_bind_ok, ih, py_bind_ok]
    rfl

theorem flatMap_frames_bytes (l : List CellImage) :
    streamBytes (l.flatMap CellImage.frames) = (l.map CellImage.bytes).flatten := by
  induction l with
  | nil => rfl
  | cons c l ih =>
    rw [List.flatMap_cons, streamBytes_append, ih]
    rfl

/-- **C11.** For every file that `write_gds` writes from cells with distinct names plus binary cells
taken from other files, `get_binary_cells` returns for each cell exactly the bytes that
`Cell.to_gds` wrote for it, followed by the binary cells, unchanged. -/
theorem C11_written_binary_cells {div : ℚ → ℚ → ℚ} {trig : ℚ → ℚ × ℚ} (lib : Lib)
    (cells : List Cell) (ts : Timestamp) (extra : List CellImage) (file : Bytes)
    (hextra : ∀ c ∈ extra, c.Ok)
    (hfile : writeGds div trig lib cells ts (extra.map CellImage.bytes) = .ok file)
    (hpad : ∀ c ∈ cells, PadsWell c.name)
    (hnames : (cells.map Cell.name ++ extra.map CellImage.name).Nodup) :
    ∃ images : List Bytes,
      List.Forall₂ (fun c i => c.toGds trig (div lib.unit lib.precision) ts = .ok i) cells images ∧
      getBinaryCells file = .ok ((cells.map fun c => some c.name).zip images
        ++ extra.map fun c => (some c.name, c.bytes)) := by
  obtain ⟨hd, images, h1, h2, rfl⟩ := writeGds_inv hfile
  obtain ⟨pre, hp, rfl⟩ := header_inner h1
  obtain ⟨l, q1, q2, rfl⟩ := images_exist h2 hpad
  refine ⟨_, h2, ?_⟩
  have hall : ∀ c ∈ l ++ extra, c.Ok := by
    intro c hc
    rcases List.mem_append.1 hc with hc | hc
    · exact q1 c hc
    · exact hextra c hc
  have := C11_binary_cells_exact pre [⟨4, 0, []⟩] (l ++ extra) [] hp (by
      intro f hf
      rw [List.mem_singleton] at hf
      subst hf
      exact ⟨⟨by norm_num, by norm_num, by simp⟩, by norm_num, by norm_num, by norm_num⟩) hall
    (by rw [List.map_append, q2]; exact hnames) (by simp)
  rw [List.append_nil, streamBytes_append, streamBytes_append, List.flatMap_append,
    streamBytes_append, flatMap_frames_bytes, flatMap_frames_bytes] at this
  have he : streamBytes [⟨4, 0, []⟩] = [0, 4, 4, 0] := rfl
  rw [he] at this
  rw [← List.append_assoc] at this
  rw [this]
  refine congrArg Except.ok ?_
  rw [List.map_append]
  congr 1
  have e1 : (cells.map fun c => some c.name) = l.map fun i => some i.name := by
    have := congrArg (List.map some) q2
    rw [List.map_map, List.map_map] at this
    exact this.symm
  rw [e1, ← List.zip_map_prod_mk_aux l]
where
  List.zip_map_prod_mk_aux (l : List CellImage) :
      (l.map fun i => some i.name).zip (l.map CellImage.bytes)
        = l.map fun c => (some c.name, c.bytes) := by
    induction l with
    | nil => rfl
    | cons a l ih => rw [List.map_cons, List.map_cons, List.map_cons, List.zip_cons_cons, ih]

/-- **C11.** The loop closes: take all cells of a written file as binary cells and write them into a
new file of a library with the same name, units and time stamp: the new file is byte-identical.
-/
theorem C11_rewrite_identical {div : ℚ → ℚ → ℚ} {trig : ℚ → ℚ × ℚ} (lib : Lib)
    (cells : List Cell) (ts : Timestamp) (file : Bytes)
    (hfile : writeGds div trig lib cells ts [] = .ok file)
    (hpad : ∀ c ∈ cells, PadsWell c.name) (hnames : (cells.map Cell.name).Nodup) :
    ∃ d, getBinaryCells file = .ok d ∧ d.map Prod.fst = cells.map (fun c => some c.name) ∧
      writeGds div trig lib [] ts (d.map Prod.snd) = .ok file := by
  obtain ⟨images, h1, h2⟩ := C11_written_binary_cells lib cells ts [] file (by simp) hfile hpad
    (by simpa using hnames)
  refine ⟨_, h2, ?_, ?_⟩
  · rw [List.map_nil, List.append_nil, List.map_fst_zip]
    rw [List.length_map, h1.length_eq]
  · obtain ⟨hd, images', q1, q2, rfl⟩ := writeGds_inv hfile
    have e : images' = images := by
      have a := Except.ok.inj ((writeAll_of_images q2).symm.trans (writeAll_of_images h1))
      clear h2 hfile q1
      induction q2 generalizing images with
      | nil => cases h1; rfl
      | cons b1 b2 ih =>
        cases h1 with
        | cons c1 c2 =>
          obtain rfl := Except.ok.inj (b1.symm.trans c1)
          rw [ih (fun c hc => hpad c (List.mem_cons_of_mem _ hc))
            (by simpa using (List.nodup_cons.1 hnames).2) _ c2
            (Except.ok.inj ((writeAll_of_images b2).symm.trans (writeAll_of_images c2)))]
    subst e
    rw [List.map_nil, List.append_nil, List.map_snd_zip (by rw [List.length_map, h1.length_eq])]
    unfold writeGds
    rw [q1, py_bind_ok]
    simp only [writeAll]
    rw [py_bind_ok, pack_ok _ (by flds_ok), py_bind_ok]
    simp [py_pure, fldsBytes, Fld.bytes, be16]

/-- **C11.** Importing as binary cells is as good as writing the cells: with the same resolution
and time stamp, a file written with the binary cells of another file is the file written with all
the cells. -/
theorem C11_binary_import_equals_cells {div : ℚ → ℚ → ℚ} {trig : ℚ → ℚ × ℚ} (src dst : Lib)
    (hres : div src.unit src.precision = div dst.unit dst.precision)
    (cells others : List Cell) (ts : Timestamp) (file : Bytes)
    (hfile : writeGds div trig src cells ts [] = .ok file)
    (hpad : ∀ c ∈ cells, PadsWell c.name) (hnames : (cells.map Cell.name).Nodup) :
    ∃ d, getBinaryCells file = .ok d ∧
      writeGds div trig dst others ts (d.map Prod.snd)
        = writeGds div trig dst (others ++ cells) ts [] := by
  obtain ⟨images, h1, h2⟩ := C11_written_binary_cells src cells ts [] file (by simp) hfile hpad
    (by simpa using hnames)
  refine ⟨_, h2, ?_⟩
  rw [List.map_nil, List.append_nil, List.map_snd_zip (by rw [List.length_map, h1.length_eq])]
  rw [hres] at h1
  have h3 := writeAll_of_images h1
  unfold writeGds
  cases writeHeader div dst.name dst.unit dst.precision ts with
  | error e => rfl
  | ok hd =>
    rw [py_bind_ok, py_bind_ok]
    have happ : ∀ l : List Cell, writeAll (Cell.toGds trig (div dst.unit dst.precision) ts) (l ++ cells)
        = (do
            let b ← writeAll (Cell.toGds trig (div dst.unit dst.precision) ts) l
            pure (b ++ images.flatten)) := by
      intro l
      induction l with
      | nil => simp only [List.nil_append, writeAll]; rw [py_bind_ok, h3]; rfl
      | cons c l ih =>
        simp only [List.cons_append, writeAll]
        cases c.toGds trig (div dst.unit dst.precision) ts with
        | error e => rfl
        | ok x =>
          rw [py_bind_ok, py_bind_ok, ih]
          cases writeAll (Cell.toGds trig (div dst.unit dst.precision) ts) l with
          | error e => rfl
          | ok y => simp [py_bind_ok, py_pure]
    rw [happ]
    cases writeAll (Cell.toGds trig (div dst.unit dst.precision) ts) others with
    | error e => rfl
    | ok y =>
      rw [py_bind_ok, py_bind_ok, py_pure, py_bind_ok, pack_ok _ (by flds_ok), py_bind_ok,
        py_bind_ok]
      simp

/-! ### written files and the hash -/

/-- Every file written by gdspy from cells is a sequence of items as C06 and C07 require. -/
theorem written_items {div : ℚ → ℚ → ℚ} {trig : ℚ → ℚ × ℚ} {lib : Lib} {cells : List Cell}
    {ts : Timestamp} {file : Bytes} (h : writeGds div trig lib cells ts [] = .ok file) :
    ∃ l : List Item, file = itemsBytes l ∧ (∀ it ∈ l, it.Ok ∧ it.StampsOutside ∧ it.Named) ∧
      Spec.Timestamp.Fits ts ∧
      List.Forall₂ (fun c b => c.toGds trig (div lib.unit lib.precision) ts
        = .ok ((⟨5, 2, stampBytes ts⟩ : Frame).bytes ++ b ++ [0, 4, 7, 0])) cells (cellBodies l) := by
  obtain ⟨hd, images, h1, h2, rfl⟩ := writeGds_inv h
  obtain ⟨t, r, rfl, hr, ht, hts⟩ := header_framed h1
  have hcells : ∃ l : List Item, images.flatten = itemsBytes l ∧
      (∀ it ∈ l, it.Ok ∧ it.StampsOutside ∧ it.Named) ∧
      List.Forall₂ (fun c b => c.toGds trig (div lib.unit lib.precision) ts
        = .ok ((⟨5, 2, stampBytes ts⟩ : Frame).bytes ++ b ++ [0, 4, 7, 0])) cells (cellBodies l) := by
    clear h
    induction h2 with
    | nil => exact ⟨[], rfl, by simp, .nil⟩
    | @cons c i cells images hc _ ih =>
      obtain ⟨l, e1, e2, e3⟩ := ih
      obtain ⟨fs, q1, q2, q3, q4, rfl⟩ := cell_framed hc
      have hname : (⟨6, 6, (padEven c.name).map fun x => UInt8.ofNat x.toNat⟩ : Frame).Fits :=
        ⟨by norm_num, by norm_num, by rw [List.length_map]; exact q4⟩
      refine ⟨.cell (stampBytes ts)
        (⟨6, 6, (padEven c.name).map fun x => UInt8.ofNat x.toNat⟩ :: fs) :: l, ?_, ?_, ?_⟩
      · rw [List.flatten_cons, e1]
        simp [itemsBytes, Item.frames, streamBytes_append, streamBytes_cons, streamBytes_nil]
      · intro it hit
        rcases List.mem_cons.1 hit with rfl | hit
        · refine ⟨⟨stampBytes_length ts, ?_⟩, ?_, _, _, rfl, rfl, ?_⟩
          · intro f hf
            rcases List.mem_cons.1 hf with rfl | hf
            · exact ⟨hname, by simp [Frame.BeginsCell], by simp [Frame.EndsCell]⟩
            · obtain ⟨a1, a2⟩ := q1 f hf
              exact ⟨a1, fun hb => by have := hb.1; omega, fun hb => by have := hb.1; omega⟩
          · intro f hf hb
            rcases List.mem_cons.1 hf with rfl | hf
            · have := hb.2; simp at this
            · obtain ⟨a1, a2⟩ := q1 f hf
              have := hb.2
              omega
          · intro f hf
            obtain ⟨a1, a2⟩ := q1 f hf
            omega
        · exact e2 it hit
      · simp only [cellBodies]
        refine .cons ?_ e3
        rw [hc]
        have he : (⟨7, 0, []⟩ : Frame).bytes = [0, 4, 7, 0] := rfl
        simp [streamBytes_append, streamBytes_cons, streamBytes_nil, he]
  obtain ⟨l, e1, e2, e3⟩ := hcells
  have hb : ∀ (l m : List Item), cellBodies (l ++ m) = cellBodies l ++ cellBodies m := by
    intro l m
    induction l with
    | nil => rfl
    | cons a l ih =>
      cases a with
      | other f => exact ih
      | cell s b => simp only [List.cons_append, cellBodies, ih]
  refine ⟨[.other ⟨0, 2, [2, 0x58]⟩, .other ⟨1, 2, stampBytes ts⟩, .other ⟨2, 6, t⟩,
    .other ⟨3, 5, r⟩] ++ l ++ [.other ⟨4, 0, []⟩], ?_, ?_, hts, ?_⟩
  · rw [e1]
    have he : (⟨4, 0, []⟩ : Frame).bytes = [0, 4, 4, 0] := rfl
    simp [itemsBytes, Item.frames, streamBytes_append, streamBytes_cons, streamBytes_nil, he]
  · intro it hit
    simp only [List.mem_append, List.mem_cons, List.not_mem_nil, or_false] at hit
    rcases hit with ((rfl | rfl | rfl | rfl) | hit) | rfl
    · exact ⟨⟨⟨by norm_num, by norm_num, by simp⟩, by simp [Frame.BeginsCell],
        by simp [Frame.EndsCell]⟩, fun hc => by simp [Frame.Stamped] at hc, trivial⟩
    · exact ⟨⟨⟨by norm_num, by norm_num, by simp [stampBytes_length]⟩, by simp [Frame.BeginsCell],
        by simp [Frame.EndsCell]⟩, fun _ => stampBytes_length ts, trivial⟩
    · exact ⟨⟨⟨by norm_num, by norm_num, ht⟩, by simp [Frame.BeginsCell],
        by simp [Frame.EndsCell]⟩, fun hc => by simp [Frame.Stamped] at hc, trivial⟩
    · exact ⟨⟨⟨by norm_num, by norm_num, by simp [hr]⟩, by simp [Frame.BeginsCell],
        by simp [Frame.EndsCell]⟩, fun hc => by simp [Frame.Stamped] at hc, trivial⟩
    · exact e2 it hit
    · exact ⟨⟨⟨by norm_num, by norm_num, by simp⟩, by simp [Frame.BeginsCell],
        by simp [Frame.EndsCell]⟩, fun hc => by simp [Frame.Stamped] at hc, trivial⟩
  · rw [hb, hb]
    simpa [cellBodies] using e3

/-- **C06.** In particular every file that `write_gds` produces: changing its time stamps with
`set_gdsii_timestamp` leaves the hash input as it was, and no error is raised. -/
theorem C06_written_file {div : ℚ → ℚ → ℚ} {trig : ℚ → ℚ × ℚ} (lib : Lib) (cells : List Cell)
    (ts t : Timestamp) (hT : Spec.Timestamp.Fits t) (file : Bytes)
    (h : writeGds div trig lib cells ts [] = .ok file) :
    (setGdsiiTimestamp file t).2 = none ∧
    ∃ r, HashFeeds file r ∧ HashFeeds (setGdsiiTimestamp file t).1 r := by
  obtain ⟨l, rfl, h1, -, -⟩ := written_items h
  have := C06_hash_ignores_timestamps l [] t (fun it hit => ⟨(h1 it hit).1, (h1 it hit).2.1⟩)
    (Or.inl (by simp)) hT
  simpa using this

/-- **C07.** Two files written by gdspy, whatever the names and units of the libraries and the
order of the cells, feed the hash the same byte stream exactly when their cells are written the
same way, up to order (the time stamp aside). -/
theorem C07_written_files {div : ℚ → ℚ → ℚ} {trig : ℚ → ℚ × ℚ} (lib lib' : Lib)
    (cells cells' : List Cell) (ts ts' : Timestamp) (file file' : Bytes)
    (h : writeGds div trig lib cells ts [] = .ok file)
    (h' : writeGds div trig lib' cells' ts' [] = .ok file') :
    ∃ bodies bodies' fed fed' : List Bytes,
      List.Forall₂ (fun c b => c.toGds trig (div lib.unit lib.precision) ts
        = .ok ((⟨5, 2, stampBytes ts⟩ : Frame).bytes ++ b ++ [0, 4, 7, 0])) cells bodies ∧
      List.Forall₂ (fun c b => c.toGds trig (div lib'.unit lib'.precision) ts'
        = .ok ((⟨5, 2, stampBytes ts'⟩ : Frame).bytes ++ b ++ [0, 4, 7, 0])) cells' bodies' ∧
      HashFeeds file (.ok fed) ∧ HashFeeds file' (.ok fed') ∧
      (fed.flatten = fed'.flatten ↔ bodies.Perm bodies') := by
  obtain ⟨l, rfl, h1, -, h2⟩ := written_items h
  obtain ⟨l', rfl, h1', -, h2'⟩ := written_items h'
  obtain ⟨fed, f1, -, -⟩ := C07_hash_feeds_bodies l (fun it hit => (h1 it hit).1)
  obtain ⟨fed', f1', -, -⟩ := C07_hash_feeds_bodies l' (fun it hit => (h1' it hit).1)
  exact ⟨_, _, fed, fed', h2, h2', f1, f1', C07_hash_stream_injective l l'
    (fun it hit => ⟨(h1 it hit).1, (h1 it hit).2.2⟩)
    (fun it hit => ⟨(h1' it hit).1, (h1' it hit).2.2⟩) fed fed' f1 f1'⟩

/-- Cells that can be written exist, with distinct names that pad well. -/
example : ∃ (cells : List Cell) (file : Bytes),
    writeGds (fun a b => a / b) (fun _ => (1, 0)) ⟨some "L".toList, 1, 1, []⟩ cells
      ⟨2020, 1, 2, 3, 4, 5⟩ [] = .ok file ∧ (cells.map Cell.name).Nodup ∧ cells.length = 2 ∧
      (∀ c ∈ cells, PadsWell c.name) := by
  have hts : Spec.Timestamp.Fits ⟨2020, 1, 2, 3, 4, 5⟩ := by
    intro x hx
    simp only [List.mem_cons, List.not_mem_nil, or_false] at hx
    omega
  have hs : Storable (1 : ℚ) := by
    have := Sample.storable 1 0 (by norm_num) (by norm_num [abs_of_pos]) (by norm_num [abs_of_pos])
    simpa using this
  obtain ⟨b1, b2, l1, l2, -, -, hh⟩ := header_recs (div := fun a b => a / b) "L".toList
    ⟨by decide, by decide, by decide, by decide⟩ 1 1 (by simpa using hs) hs _ hts
  have hc : ∀ n : Str, n = "A".toList ∨ n = "B".toList → ∃ b,
      (⟨n, [], [], [], []⟩ : Cell).toGds (fun _ => (1, 0)) ((1 : ℚ) / 1) ⟨2020, 1, 2, 3, 4, 5⟩
        = .ok b := by
    intro n hn
    have h128 : ∀ c ∈ padEven n, c.toNat < 128 := by rcases hn with rfl | rfl <;> decide
    have hlen : (padEven n).length = 2 := by rcases hn with rfl | rfl <;> rfl
    unfold Cell.toGds
    simp only [writeAll, hlen]
    rw [pack_ok _ (by flds_ok), py_bind_ok, packTs_ok hts, py_bind_ok, pack_ok _ (by flds_ok),
      py_bind_ok, encodeAscii_ok h128, py_bind_ok, py_bind_ok, py_bind_ok, py_bind_ok, py_bind_ok,
      pack_ok _ (by flds_ok), py_bind_ok]
    exact ⟨_, rfl⟩
  obtain ⟨x, hx⟩ := hc "A".toList (Or.inl rfl)
  obtain ⟨y, hy⟩ := hc "B".toList (Or.inr rfl)
  refine ⟨[⟨"A".toList, [], [], [], []⟩, ⟨"B".toList, [], [], [], []⟩], ?_⟩
  unfold writeGds
  rw [hh, py_bind_ok]
  simp only [writeAll]
  rw [hx, py_bind_ok, hy, py_bind_ok, py_bind_ok, py_pure, py_bind_ok, py_pure, py_bind_ok,
    pack_ok _ (by flds_ok), py_bind_ok]
  refine ⟨_, rfl, by decide, rfl, ?_⟩
  intro c hc
  simp only [List.mem_cons, List.not_mem_nil, or_false] at hc
  rcases hc with rfl | rfl <;> exact fun h => by revert h; decide

end Gdspy
