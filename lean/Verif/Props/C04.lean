import Verif.Lemmas.Write

/-!
# C04: text padding round trip
-/

namespace Gdspy

open Spec

/-- The record with type `t` and text `b` as payload, built from the format definition. -/
def textRecord (t : Nat) (b : Bytes) : Bytes :=
  bigEndian 2 (4 + b.length) ++ bigEndian 2 (t * 256 + 6) ++ b

/-- **C04.** Text that the format can hold is padded to an even number of bytes and is read back
unchanged from its record. -/
theorem C04_text_roundtrip (t : Nat) (ht : t < 256) (s : Str) (hs : GoodText s) (rest : Bytes) :
    ∃ b, encodeAscii (padEven s) = .ok b ∧ b.length % 2 = 0 ∧
      s.length ≤ b.length ∧ b.length ≤ s.length + 1 ∧
      recordReader (textRecord t b ++ rest)
        = (⟨t, .str s⟩ :: (recordReader rest).1, (recordReader rest).2) := by
  have hl := padEven_length_le s
  refine ⟨_, encodeAscii_ok (padEven_ascii hs.2.1), ?_, ?_, ?_, ?_⟩
  · rw [List.length_map]; exact padEven_length_even s
  · rw [List.length_map]; exact hl.1
  · rw [List.length_map]; exact hl.2
  · have h := recordReader_recs [recText t s ht hs] rest
    have e : recsBytes [recText t s ht hs]
        = textRecord t ((padEven s).map fun c => UInt8.ofNat c.toNat) := by
      rw [recsBytes_cons, recsBytes_nil, List.append_nil]
      unfold recText textRecord
      rw [mkFrame_bytes _ _ _ ht (by norm_num), bigEndian_two, bigEndian_two]
    rw [e] at h
    exact h

/-- Text with an odd number of characters, among others. -/
example : GoodText "abc".toList ∧ GoodText "TOP1".toList := by
  constructor <;> exact ⟨by decide, by decide, by decide, by decide⟩

/-- **C04.** The condition on the last character is necessary: *every* even-length ASCII text
that ends in NUL loses that character. -/
theorem C04_trailing_nul_lost (t : Nat) (ht : t < 256) (s : Str) (hs : ∀ c ∈ s, c.toNat < 128)
    (hodd : s.length % 2 = 1) (hlen : s.length ≤ 65530) (rest : Bytes) :
    ∃ b, encodeAscii (padEven (s ++ ['\x00'])) = .ok b ∧
      recordReader (textRecord t b ++ rest)
        = (⟨t, .str s⟩ :: (recordReader rest).1, (recordReader rest).2) := by
  have h0 : s ≠ [] := by rintro rfl; simp at hodd
  have hg : GoodText s := ⟨h0, hs, hlen, fun h => by omega⟩
  obtain ⟨b, h1, -, -, -, h2⟩ := C04_text_roundtrip t ht s hg rest
  refine ⟨b, ?_, h2⟩
  rw [← h1]
  unfold padEven
  rw [if_neg (by rw [List.length_append, List.length_singleton]; omega), if_pos (by omega)]

example : ("a".toList.length % 2 = 1) ∧ ∀ c ∈ "a".toList, c.toNat < 128 := by decide

/-- **C04.** An empty text is written as an empty record, which is read back as `None`. -/
theorem C04_empty_text_none (t : Nat) (ht : t < 256) (rest : Bytes) :
    encodeAscii (padEven []) = .ok [] ∧
      recordReader (textRecord t [] ++ rest)
        = (⟨t, .none⟩ :: (recordReader rest).1, (recordReader rest).2) := by
  refine ⟨rfl, ?_⟩
  have h := recordReader_frame ⟨t, 6, []⟩ ⟨ht, by norm_num, by simp⟩ (.none 6) (rest := rest)
  rw [mkFrame_bytes _ _ _ ht (by norm_num)] at h
  unfold textRecord
  rw [bigEndian_two, bigEndian_two]
  exact h

/-- **C04.** Text with a character outside of ASCII is refused by every writer. -/
theorem C04_non_ascii_refused (s : Str) (h : ∃ c ∈ s, 128 ≤ c.toNat) :
    encodeAscii (padEven s) = .error .unicodeError := by
  obtain ⟨c, hc, h128⟩ := h
  unfold encodeAscii
  rw [if_neg]
  rw [List.all_eq_true]
  intro hall
  have hm : c ∈ padEven s := by
    unfold padEven; split
    · exact List.mem_append_left _ hc
    · exact hc
  have := hall c hm
  simp at this
  omega

example : ∃ c ∈ "aé".toList, 128 ≤ c.toNat := ⟨'é', by decide, by decide⟩

end Gdspy
