import Verif.Lemmas.Records

/-!
# C03: record framing round trip
-/

namespace Gdspy

open Spec

/-- **C03.** Reading any sequence of well-formed records (followed by at most 3 stray bytes)
yields exactly those records in order, with no error. -/
theorem C03_record_framing (l : List (Frame × Data)) (tail : Bytes)
    (h : ∀ p ∈ l, p.1.Fits ∧ Encodes p.2 p.1.dt p.1.payload) (ht : tail.length < 4) :
    recordReader ((l.map fun p => p.1.bytes).flatten ++ tail)
      = (l.map fun p => ⟨p.1.type, p.2⟩, none) := by
  induction l with
  | nil =>
    simp only [List.map_nil, List.flatten_nil, List.nil_append]
    rw [recordReader.eq_def]
    match tail, ht with
    | [], _ => rfl
    | [_], _ => rfl
    | [_, _], _ => rfl
    | [_, _, _], _ => rfl
  | cons p l ih =>
    obtain ⟨h1, h2⟩ := h p List.mem_cons_self
    have := ih (fun q hq => h q (List.mem_cons_of_mem _ hq))
    rw [List.map_cons, List.flatten_cons, List.append_assoc, recordReader_frame p.1 h1 h2, this]
    rfl

/-- Two records: a LAYER record with the value -3 and a STRING record "ab". -/
example : ∃ l : List (Frame × Data), l.length = 2 ∧
    (∀ p ∈ l, p.1.Fits ∧ Encodes p.2 p.1.dt p.1.payload) ∧
    recordReader [0, 6, 0x0D, 2, 0xFF, 0xFD, 0, 6, 0x19, 6, 97, 98]
      = ([⟨0x0D, .i16 [-3]⟩, ⟨0x19, .str ['a', 'b']⟩], none) := by
  refine ⟨[(⟨0x0D, 2, twosComplement 2 (-3)⟩, .i16 [-3]),
    (⟨0x19, 6, [97, 98]⟩, .str ['a', 'b'])], rfl, ?_, ?_⟩
  · intro p hp
    simp only [List.mem_cons, List.not_mem_nil, or_false] at hp
    rcases hp with rfl | rfl
    · exact ⟨⟨by norm_num, by norm_num, by decide⟩,
        by simpa using Encodes.shorts [-3] (by simp) (by simp)⟩
    · exact ⟨⟨by norm_num, by norm_num, by decide⟩,
        Encodes.textPlain ['a'] 'b' 6 (by norm_num) (by decide) (by decide)⟩
  · have := C03_record_framing [(⟨0x0D, 2, twosComplement 2 (-3)⟩, .i16 [-3]),
      (⟨0x19, 6, [97, 98]⟩, .str ['a', 'b'])] [] (by
        intro p hp
        simp only [List.mem_cons, List.not_mem_nil, or_false] at hp
        rcases hp with rfl | rfl
        · exact ⟨⟨by norm_num, by norm_num, by decide⟩,
            by simpa using Encodes.shorts [-3] (by simp) (by simp)⟩
        · exact ⟨⟨by norm_num, by norm_num, by decide⟩,
            Encodes.textPlain ['a'] 'b' 6 (by norm_num) (by decide) (by decide)⟩) (by simp)
    exact this

/-- **C03.** The raw reader frames the same sequence of records identically: it yields the type
and the exact bytes of each record. -/
theorem C03_raw_framing (l : List Frame) (tail : Bytes) (h : ∀ f ∈ l, f.Fits)
    (ht : tail.length < 4) :
    rawRecordReader ((l.map Frame.bytes).flatten ++ tail) = l.map fun f => (f.type, f.bytes) := by
  induction l with
  | nil =>
    simp only [List.map_nil, List.flatten_nil, List.nil_append]
    rw [rawRecordReader.eq_def]
    match tail, ht with
    | [], _ => rfl
    | [_], _ => rfl
    | [_, _], _ => rfl
    | [_, _, _], _ => rfl
  | cons f l ih =>
    have hf := h f List.mem_cons_self
    have := ih (fun q hq => h q (List.mem_cons_of_mem _ hq))
    obtain ⟨h1, h2, h3⟩ := hf
    rw [List.map_cons, List.flatten_cons, List.append_assoc, List.map_cons,
      frame_bytes f ⟨h1, h2, h3⟩, rawRecordReader.eq_def]
    simp only [be16, List.cons_append, List.nil_append]
    rw [rd16_be16 h3, rd16_be16 (n := f.type * 256 + f.dt) (by omega), if_neg (by omega)]
    have hlen : 4 + f.payload.length - 4 = f.payload.length := by omega
    rw [hlen, List.take_left, List.drop_left, this]
    congr 2
    omega

example : ∀ f ∈ [(⟨5, 2, List.replicate 24 0⟩ : Frame), ⟨7, 0, []⟩], f.Fits := by
  intro f hf
  simp only [List.mem_cons, List.not_mem_nil, or_false] at hf
  rcases hf with rfl | rfl <;> exact ⟨by norm_num, by norm_num, by decide⟩

end Gdspy
