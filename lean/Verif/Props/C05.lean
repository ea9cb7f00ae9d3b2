import Verif.Lemmas.Stream

/-!
# C05: the record readers terminate and never invent or reorder bytes

Termination itself is the acceptance of `recordReader` and `rawRecordReader` as total
functions (well-founded recursion on the number of bytes left).
-/

namespace Gdspy

open Spec

/-- **C05.** On every byte string the raw records, concatenated, are the file without at most
three trailing bytes. -/
theorem C05_raw_concat (s : Bytes) :
    ∃ tail, ((rawRecordReader s).map Prod.snd).flatten ++ tail = s ∧ tail.length < 4 := by
  induction hn : s.length using Nat.strongRecOn generalizing s with
  | ind n ih =>
    rw [rawRecordReader.eq_def]
    match s, hn with
    | [], _ => exact ⟨[], rfl, by simp⟩
    | [a], _ => exact ⟨[a], rfl, by simp⟩
    | [a, b], _ => exact ⟨[a, b], rfl, by simp⟩
    | [a, b, c], _ => exact ⟨[a, b, c], rfl, by simp⟩
    | a :: b :: c :: d :: s', hn =>
      simp only
      split
      · exact ⟨[], by simp, by simp⟩
      · obtain ⟨t, h1, h2⟩ := ih (s'.drop (rd16 a b - 4)).length
          (by subst hn; simp only [List.length_drop, List.length_cons]; omega) _ rfl
        refine ⟨t, ?_, h2⟩
        simp only [List.map_cons, List.flatten_cons, List.cons_append, List.append_assoc, h1,
          List.take_append_drop]

/-- **C05.** Every raw record has at least a header, so a file of `n` bytes has at most `n / 4`
records. -/
theorem C05_raw_count (s : Bytes) :
    (∀ r ∈ rawRecordReader s, 4 ≤ r.2.length) ∧ 4 * (rawRecordReader s).length ≤ s.length := by
  have key : ∀ s, ∀ r ∈ rawRecordReader s, 4 ≤ r.2.length := by
    intro s
    induction hn : s.length using Nat.strongRecOn generalizing s with
    | ind n ih =>
      rw [rawRecordReader.eq_def]
      match s, hn with
      | [], _ => simp
      | [a], _ => simp
      | [a, b], _ => simp
      | [a, b, c], _ => simp
      | a :: b :: c :: d :: s', hn =>
        simp only
        split
        · intro r hr; rw [List.mem_singleton] at hr; subst hr; simp
        · intro r hr
          rcases List.mem_cons.1 hr with rfl | hr
          · simp
          · exact ih (s'.drop (rd16 a b - 4)).length
              (by subst hn; simp only [List.length_drop, List.length_cons]; omega) _ rfl r hr
  refine ⟨key s, ?_⟩
  obtain ⟨t, h1, _⟩ := C05_raw_concat s
  have h2 := key s
  have h3 : ∀ l : List (Nat × Bytes), (∀ r ∈ l, 4 ≤ r.2.length) →
      4 * l.length ≤ ((l.map Prod.snd).flatten).length := by
    intro l
    induction l with
    | nil => simp
    | cons r l ih =>
      intro h
      have := h r List.mem_cons_self
      have := ih (fun q hq => h q (List.mem_cons_of_mem _ hq))
      simp only [List.map_cons, List.flatten_cons, List.length_append, List.length_cons]
      omega
  have h4 := h3 _ h2
  have h5 := congrArg List.length h1
  rw [List.length_append] at h5
  omega

/-- **C05.** The decoding reader stops, with or without an exception, after at most `n / 4`
records. -/
theorem C05_decoded_count (s : Bytes) : 4 * (recordReader s).1.length ≤ s.length := by
  induction hn : s.length using Nat.strongRecOn generalizing s with
  | ind n ih =>
    subst hn
    rw [recordReader.eq_def]
    split
    · rename_i a b c d s'
      split
      · simp
      · rename_i x hx
        have h1 := readPayload_length hx
        have := ih x.2.length (by simp only [List.length_cons]; omega) x.2 rfl
        simp only [List.length_cons]
        omega
    · simp

/-- **C05.** Whatever follows them in the file, well-formed records at the beginning are
delivered. -/
theorem C05_prefix_delivered (l : List (Frame × Data)) (garbage : Bytes)
    (h : ∀ p ∈ l, p.1.Fits ∧ Encodes p.2 p.1.dt p.1.payload) :
    (recordReader (streamBytes (l.map Prod.fst) ++ garbage)).1
      = (l.map fun p => (⟨p.1.type, p.2⟩ : Record)) ++ (recordReader garbage).1 := by
  induction l with
  | nil => rfl
  | cons p l ih =>
    obtain ⟨h1, h2⟩ := h p List.mem_cons_self
    rw [List.map_cons, streamBytes_cons, List.append_assoc, recordReader_frame p.1 h1 h2]
    simp only [List.map_cons, List.cons_append, ih (fun q hq => h q (List.mem_cons_of_mem _ hq))]

/-- A truncated file: the header announces 100 bytes, only 2 are there. -/
example : rawRecordReader [0, 100, 6, 6, 65, 66] = [(6, [0, 100, 6, 6, 65, 66])] := by
  rw [rawRecordReader.eq_def]
  simp [rd16]
  rw [rawRecordReader.eq_def]

end Gdspy
