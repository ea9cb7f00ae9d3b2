import Verif.Lemmas.Stream
import Verif.Model.Read
import Verif.Spec.Grid
import Verif.Props.C01

namespace Gdspy

open Spec

/-! ### struct.pack -/

def Fld.bytes : Fld → Bytes
  | .H n => be16 n.toNat
  | .h n => be16 (n % 65536).toNat
  | .l n => i4 n

def Fld.Ok : Fld → Prop
  | .H n => 0 ≤ n ∧ n < 65536
  | .h n => -32768 ≤ n ∧ n < 32768
  | .l n => -2147483648 ≤ n ∧ n < 2147483648

def fldsOk : List Fld → Prop
  | [] => True
  | f :: fs => f.Ok ∧ fldsOk fs

def fldsBytes : List Fld → Bytes
  | [] => []
  | f :: fs => f.bytes ++ fldsBytes fs

theorem pack_ok : ∀ fs : List Fld, fldsOk fs → pack fs = .ok (fldsBytes fs) := by
  intro fs
  induction fs with
  | nil => intro _; rfl
  | cons f fs ih =>
    intro h
    obtain ⟨h1, h2⟩ := h
    cases f with
    | H n =>
      simp only [pack]
      rw [packH_ok h1, py_bind_ok, ih h2, py_bind_ok, py_pure]; rfl
    | h n =>
      simp only [pack]
      rw [packh_ok h1, py_bind_ok, ih h2, py_bind_ok, py_pure]; rfl
    | l n =>
      simp only [pack]
      rw [packl_ok h1, py_bind_ok, ih h2, py_bind_ok, py_pure]; rfl

/-! ### frames -/

theorem mkFrame_bytes (t dt : Nat) (p : Bytes) (_ht : t < 256) (hd : dt < 256) :
    (⟨t, dt, p⟩ : Frame).bytes = be16 (4 + p.length) ++ be16 (t * 256 + dt) ++ p := by
  unfold Frame.bytes
  rw [bigEndian_two]
  congr 2
  simp only [be16]
  congr 1
  · congr 1; omega
  · congr 1
    apply UInt8.toNat_inj.1; rw [ofNat_toNat8, ofNat_toNat8]; omega

/-- A record together with what it denotes. -/
structure Rec where
  frame : Frame
  data : Data
  fits : frame.Fits
  enc : Encodes data frame.dt frame.payload

def recsBytes (l : List Rec) : Bytes := streamBytes (l.map Rec.frame)

def recsRecords (l : List Rec) : List Record := l.map fun r => ⟨r.frame.type, r.data⟩

theorem recsBytes_nil : recsBytes [] = [] := rfl

theorem recsBytes_cons (r : Rec) (l : List Rec) :
    recsBytes (r :: l) = r.frame.bytes ++ recsBytes l := by
  simp [recsBytes, streamBytes_cons]

theorem recsBytes_append (l m : List Rec) : recsBytes (l ++ m) = recsBytes l ++ recsBytes m := by
  simp [recsBytes, streamBytes_append]

theorem recsRecords_append (l m : List Rec) :
    recsRecords (l ++ m) = recsRecords l ++ recsRecords m := by simp [recsRecords]

theorem recordReader_recs (l : List Rec) (rest : Bytes) :
    recordReader (recsBytes l ++ rest)
      = (recsRecords l ++ (recordReader rest).1, (recordReader rest).2) := by
  induction l with
  | nil => rfl
  | cons r l ih =>
    rw [recsBytes_cons, List.append_assoc, recordReader_frame r.frame r.fits r.enc, ih]
    rfl

/-- A record without data. -/
def recNone (t : Nat) (ht : t < 256) : Rec :=
  ⟨⟨t, 0, []⟩, .none, ⟨ht, by norm_num, by simp⟩, .none 0⟩

def recShort (t : Nat) (n : Int) (ht : t < 256) (hn : -32768 ≤ n ∧ n < 32768) : Rec :=
  ⟨⟨t, 2, twosComplement 2 n⟩, .i16 [n], ⟨ht, by norm_num, by simp [twosComplement_two]⟩,
    by simpa using Encodes.shorts [n] (by simp) (by simpa using hn)⟩

def recShort2 (t : Nat) (n k : Int) (ht : t < 256) (hn : -32768 ≤ n ∧ n < 32768)
    (hk : -32768 ≤ k ∧ k < 32768) : Rec :=
  ⟨⟨t, 2, twosComplement 2 n ++ twosComplement 2 k⟩, .i16 [n, k],
    ⟨ht, by norm_num, by simp [twosComplement_two]⟩,
    by simpa using Encodes.shorts [n, k] (by simp) (by simpa using ⟨hn, hk⟩)⟩

def recWord (t n : Nat) (ht : t < 256) (hn : n < 65536) : Rec :=
  ⟨⟨t, 1, bigEndian 2 n⟩, .u16 [n], ⟨ht, by norm_num, by simp [bigEndian_two]⟩,
    by simpa using Encodes.words [n] (by simp) (by simpa using hn)⟩

theorem i4Bytes_length (l : List Int) : (i4Bytes l).length = 4 * l.length := by
  unfold i4Bytes
  rw [flatMap_length_const l i4 4 (fun _ _ => rfl)]; ring

def recLongs (t : Nat) (l : List Int) (ht : t < 256) (h0 : l ≠ []) (hlen : 4 + 4 * l.length < 65536)
    (hl : ∀ n ∈ l, -2147483648 ≤ n ∧ n < 2147483648) : Rec :=
  ⟨⟨t, 3, i4Bytes l⟩, .i32 l, ⟨ht, by norm_num, by rw [i4Bytes_length]; exact hlen⟩,
    by
      have := Encodes.longs l h0 hl
      rwa [show twosComplement 4 = i4 from funext twosComplement_four] at this⟩

theorem real_bytes {v : ℚ} (h : Storable v) :
    ∃ b, eightByteReal v = .ok b ∧ b.length = 8 ∧ realValue b = v := by
  obtain ⟨b, h1, h2, h3⟩ := C01_real8_roundtrip h.1 h.2
  refine ⟨b, h1, h2, ?_⟩
  rw [real_decode_spec h2] at h3
  exact Except.ok.inj h3

def recReal (t : Nat) (b : Bytes) (ht : t < 256) (hb : b.length = 8) : Rec :=
  ⟨⟨t, 5, b⟩, .real [realValue b], ⟨ht, by norm_num, by simp [hb]⟩,
    by simpa using Encodes.reals [b] (by simp) (by simpa using hb)⟩

def recReal2 (t : Nat) (b c : Bytes) (ht : t < 256) (hb : b.length = 8) (hc : c.length = 8) : Rec :=
  ⟨⟨t, 5, b ++ c⟩, .real [realValue b, realValue c], ⟨ht, by norm_num, by simp [hb, hc]⟩,
    by simpa using Encodes.reals [b, c] (by simp) (by simpa using ⟨hb, hc⟩)⟩

/-! ### text -/

theorem encodeAscii_ok {s : Str} (h : ∀ c ∈ s, c.toNat < 128) :
    encodeAscii s = .ok (s.map fun c => UInt8.ofNat c.toNat) := by
  unfold encodeAscii
  rw [if_pos]
  rw [List.all_eq_true]
  intro c hc
  simpa using h c hc

theorem padEven_ascii {s : Str} (h : ∀ c ∈ s, c.toNat < 128) : ∀ c ∈ padEven s, c.toNat < 128 := by
  unfold padEven
  split
  · intro c hc
    rcases List.mem_append.1 hc with hc | hc
    · exact h c hc
    · rw [List.mem_singleton] at hc; subst hc; decide
  · exact h

theorem padEven_length_even (s : Str) : (padEven s).length % 2 = 0 := by
  unfold padEven
  split
  · rw [List.length_append, List.length_singleton]; omega
  · omega

theorem padEven_length_le (s : Str) : s.length ≤ (padEven s).length ∧
    (padEven s).length ≤ s.length + 1 := by
  unfold padEven
  split <;> simp

theorem text_encodes {s : Str} (h : GoodText s) :
    Encodes (.str s) 6 ((padEven s).map fun c => UInt8.ofNat c.toNat) := by
  obtain ⟨h0, h1, h2, h3⟩ := h
  unfold padEven
  split
  · rename_i hodd
    have := Encodes.textNul s 6 (by norm_num) h1
    simpa using this
  · rename_i heven
    obtain ⟨t, x, rfl⟩ : ∃ t x, s = t ++ [x] :=
      ⟨s.dropLast, s.getLast h0, (List.dropLast_append_getLast h0).symm⟩
    exact Encodes.textPlain t x 6 (by norm_num) h1 (h3 (by omega) x (by simp))

def recText (t : Nat) (s : Str) (ht : t < 256) (h : GoodText s) : Rec :=
  ⟨⟨t, 6, (padEven s).map fun c => UInt8.ofNat c.toNat⟩, .str s,
    ⟨ht, by norm_num, by
      have := padEven_length_le s
      have := h.2.2.1
      rw [List.length_map]; omega⟩, text_encodes h⟩

/-! ### grid -/

theorem pyRound_eq {x : ℚ} {n : ℤ} (h : |x - n| < 1 / 2) : pyRound x = n := by
  rw [abs_lt] at h
  obtain ⟨h1, h2⟩ := h
  unfold pyRound
  have hf1 := Int.floor_le x
  have hf2 := Int.lt_floor_add_one x
  by_cases hc : (n : ℚ) ≤ x
  · have hfl : ⌊x⌋ = n := by
      rw [Int.floor_eq_iff]; constructor <;> linarith
    rw [hfl, if_pos (by linarith)]
  · push Not at hc
    have hfl : ⌊x⌋ = n - 1 := by
      rw [Int.floor_eq_iff]; push_cast; constructor <;> linarith
    rw [hfl, if_neg (by push_cast; linarith), if_pos (by push_cast; linarith)]
    ring

theorem pyRound_grid {m d x : ℚ} {n : ℤ} (h : OnGridAt m d x n) : pyRound (x * m) = n := by
  obtain ⟨rfl, h, _⟩ := h
  apply pyRound_eq
  have : d * n * m - n = n * (d * m - 1) := by ring
  rw [this, abs_mul]
  exact h

end Gdspy
