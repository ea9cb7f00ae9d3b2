import Verif.Props.C08
import Verif.Props.C11

/-!
# C88: what the functions that work on raw files do with a file that is cut short
-/

namespace Gdspy

open Spec

/-- The number of bytes of a sequence of records. -/
def Spec.streamSize (l : List Frame) : Nat := (streamBytes l).length

/-- The cut is in the header of a record: one, two or three of its four bytes are left. -/
def Spec.CutInHeader (l : List Frame) (n : Nat) : Prop :=
  ∃ whole f rest, l = whole ++ f :: rest ∧ streamSize whole < n ∧ n < streamSize whole + 4

/-! ### Cuts -/

/-- Every cut of a file leaves complete records and the beginning of the next. -/
theorem cut_split : ∀ (l : List Frame) (n : Nat),
    (∃ whole f rest, l = whole ++ f :: rest ∧ streamSize whole ≤ n ∧ n < streamSize whole + f.bytes.length ∧
      (streamBytes l).take n = streamBytes whole ++ f.bytes.take (n - streamSize whole)) ∨
    (streamSize l ≤ n ∧ (streamBytes l).take n = streamBytes l) := by
  intro l
  induction l with
  | nil => intro n; exact .inr ⟨Nat.zero_le _, by simp [streamBytes_nil]⟩
  | cons f l ih =>
    intro n
    by_cases hn : n < f.bytes.length
    · refine .inl ⟨[], f, l, rfl, Nat.zero_le _, by simpa [streamSize, streamBytes_nil] using hn, ?_⟩
      rw [streamBytes_cons, List.take_append_of_le_length hn.le]
      rfl
    · have hs : (streamBytes (f :: l)).take n = f.bytes ++ (streamBytes l).take (n - f.bytes.length) := by
        rw [streamBytes_cons, List.take_append, List.take_of_length_le (by omega)]
      rcases ih (n - f.bytes.length) with ⟨whole, g, rest, rfl, h1, h2, h3⟩ | ⟨h1, h2⟩
      · have hz : streamSize (f :: whole) = f.bytes.length + streamSize whole := by
          simp [streamSize, streamBytes_cons]
        refine .inl ⟨f :: whole, g, rest, rfl, by omega, by omega, ?_⟩
        rw [hs, h3, streamBytes_cons, List.append_assoc, hz, Nat.sub_sub]
      · refine .inr ⟨?_, ?_⟩
        · simp only [streamSize, streamBytes_cons, List.length_append] at h1 ⊢
          omega
        · rw [hs, h2, streamBytes_cons]

theorem streamSize_append (l m : List Frame) : streamSize (l ++ m) = streamSize l + streamSize m := by
  simp [streamSize, streamBytes_append]

theorem streamSize_cons (f : Frame) (l : List Frame) : streamSize (f :: l) = f.bytes.length + streamSize l := by
  simp [streamSize, streamBytes_cons]

theorem cutInHeader_cons (f : Frame) (hf : f.Fits) (l : List Frame) (n : Nat) :
    CutInHeader (f :: l) n ↔ (0 < n ∧ n < 4) ∨ (f.bytes.length ≤ n ∧ CutInHeader l (n - f.bytes.length)) := by
  have hlen := frame_bytes_length f hf
  constructor
  · rintro ⟨whole, g, rest, h, h1, h2⟩
    cases whole with
    | nil =>
      simp only [streamSize, streamBytes_nil, List.length_nil, zero_add] at h1 h2
      exact .inl ⟨h1, h2⟩
    | cons f' whole =>
      simp only [List.cons_append, List.cons.injEq] at h
      obtain ⟨rfl, rfl⟩ := h
      rw [streamSize_cons] at h1 h2
      exact .inr ⟨by omega, whole, g, rest, rfl, by omega, by omega⟩
  · rintro (⟨h1, h2⟩ | ⟨h0, whole, g, rest, rfl, h1, h2⟩)
    · exact ⟨[], f, l, rfl, by simpa [streamSize, streamBytes_nil] using h1, by simpa [streamSize, streamBytes_nil] using h2⟩
    · exact ⟨f :: whole, g, rest, rfl, by rw [streamSize_cons]; omega, by rw [streamSize_cons]; omega⟩

theorem cutInHeader_append (l m : List Frame) (hl : ∀ f ∈ l, f.Fits) (n : Nat) (hn : streamSize l ≤ n) :
    CutInHeader (l ++ m) n ↔ CutInHeader m (n - streamSize l) := by
  induction l generalizing n with
  | nil => simp [streamSize, streamBytes_nil]
  | cons f l ih =>
    have hf := hl f (by simp)
    have hlen := frame_bytes_length f hf
    rw [streamSize_cons] at hn
    rw [List.cons_append, cutInHeader_cons f hf, ih (fun g hg => hl g (by simp [hg])) _ (by omega), streamSize_cons,
      Nat.sub_sub]
    constructor
    · rintro (⟨_, _⟩ | ⟨_, h⟩)
      · omega
      · exact h
    · intro h
      exact .inr ⟨by omega, h⟩

/-- Where a cut inside a record leaves nothing but an incomplete header. -/
theorem cutInHeader_part {whole rest : List Frame} {f : Frame} (hl : ∀ g ∈ whole, g.Fits) (hf : f.Fits) {n : Nat}
    (h1 : streamSize whole ≤ n) (h2 : n < streamSize whole + f.bytes.length) :
    CutInHeader (whole ++ f :: rest) n ↔ 0 < n - streamSize whole ∧ n - streamSize whole < 4 := by
  rw [cutInHeader_append _ _ hl n h1, cutInHeader_cons f hf]
  constructor
  · rintro (h | ⟨h, _⟩)
    · exact h
    · omega
  · exact .inl

/-! ### Binary cells -/

/-- The records of a cut file. -/
theorem rawRecordReader_part {f : Frame} (hf : f.Fits) {p : Nat} (hp : p < f.bytes.length) :
    rawRecordReader (f.bytes.take p) = if p < 4 then [] else [(f.type, f.bytes.take p)] := by
  have hlen := frame_bytes_length f hf
  by_cases h4 : p < 4
  · rw [if_pos h4, rawRecordReader_tail]
    rw [List.length_take]
    omega
  · rw [if_neg h4]
    obtain ⟨a, b, c, d, he, h1, h2⟩ := frame_cons f hf []
    simp only [List.append_nil] at he
    have ht : f.bytes.take p = a :: b :: c :: d :: f.payload.take (p - 4) := by
      rw [he]
      obtain ⟨q, rfl⟩ : ∃ q, p = q + 4 := ⟨p - 4, by omega⟩
      rfl
    rw [ht, rawRecordReader.eq_def]
    simp only [h1, h2]
    obtain ⟨_, hdt, _⟩ := hf
    have hl : (f.payload.take (p - 4)).length ≤ 4 + f.payload.length - 4 := by
      rw [List.length_take]
      omega
    rw [if_neg (by omega), List.take_of_length_le hl, List.drop_of_length_le hl, rawRecordReader_tail (by simp)]
    congr 2
    omega

/-- Every record of a cut file is a record of the file or its beginning. -/
theorem rawRecordReader_cut (l : List Frame) (hl : ∀ f ∈ l, f.Fits) (n : Nat) :
    ∀ r ∈ rawRecordReader ((streamBytes l).take n), ∃ f ∈ l, r.1 = f.type ∧ r.2 <+: f.bytes := by
  rcases cut_split l n with ⟨whole, f, rest, rfl, h1, h2, h3⟩ | ⟨h1, h2⟩
  · rw [h3, rawRecordReader_frames whole (fun g hg => hl g (by simp [hg])),
      rawRecordReader_part (hl f (by simp)) (by omega)]
    intro r hr
    rw [List.mem_append, List.mem_map] at hr
    rcases hr with ⟨g, hg, rfl⟩ | hr
    · exact ⟨g, by simp [hg], rfl, List.prefix_rfl⟩
    · split at hr
      · simp at hr
      · rw [List.mem_singleton] at hr
        subst hr
        exact ⟨f, by simp, rfl, List.take_prefix _ _⟩
  · have := rawRecordReader_frames l hl []
    rw [List.append_nil, rawRecordReader_tail (tail := []) (by simp), List.append_nil] at this
    rw [h2, this]
    intro r hr
    rw [List.mem_map] at hr
    obtain ⟨g, hg, rfl⟩ := hr
    exact ⟨g, hg, rfl, List.prefix_rfl⟩

theorem decodeAscii_ok {b : Bytes} (h : ∀ x ∈ b, x.toNat < 128) : ∃ s, decodeAscii b = .ok s := by
  refine ⟨b.map fun x => Char.ofNat x.toNat, ?_⟩
  unfold decodeAscii
  rw [if_pos]
  simpa using h

/-- An unfinished cell is not returned. -/
theorem binLoop_unfinished : ∀ (rs : List (Nat × Bytes)) (name : Option Str) (cd : List Bytes)
    (cells : List (Option Str × Bytes)),
    (∀ r ∈ rs, r.1 ≠ 7 ∧ (r.1 = 6 → ∀ x ∈ r.2.drop 4, x.toNat < 128)) →
    binLoop rs name (some cd) cells = .ok cells := by
  intro rs
  induction rs with
  | nil => intros; rfl
  | cons r rs ih =>
    intro name cd cells h
    obtain ⟨t, data⟩ := r
    obtain ⟨h7, h6⟩ := h (t, data) (by simp)
    have hr : ∀ r ∈ rs, r.1 ≠ 7 ∧ (r.1 = 6 → ∀ x ∈ r.2.drop 4, x.toNat < 128) := fun r hr => h r (by simp [hr])
    rw [binLoop]
    split
    · exact ih _ _ _ hr
    · split
      · rename_i h6'
        have ha := h6 h6'
        simp only
        obtain ⟨s1, e1⟩ := decodeAscii_ok (b := (data.drop 4).dropLast) fun x hx => ha x (List.mem_of_mem_dropLast hx)
        obtain ⟨s2, e2⟩ := decodeAscii_ok ha
        rw [e1, e2]
        split <;> exact ih _ _ _ hr
      · exact ih _ _ _ hr

/-- A cell that is cut off is not returned, with or without its name. -/
theorem binLoop_cut_cell (c : CellImage) (hc : c.Ok) (n : Nat) (hn : n < c.bytes.length) (name : Option Str)
    (cells : List (Option Str × Bytes)) :
    binLoop (rawRecordReader (c.bytes.take n)) name none cells = .ok cells := by
  obtain ⟨h1, h2, h3, h4⟩ := hc
  have hb : ∀ x ∈ c.namePayload, x.toNat < 128 := by
    obtain ⟨ha, hp⟩ := h3
    have : ∀ x ∈ c.name.map fun c => UInt8.ofNat c.toNat, x.toNat < 128 := by
      intro x hx
      obtain ⟨y, hy, rfl⟩ := List.mem_map.1 hx
      have := ha y hy
      rw [ofNat_toNat8]
      omega
    intro x hx
    rcases hp with hp | ⟨hp, _⟩
    · rw [hp, List.mem_append, List.mem_singleton] at hx
      rcases hx with hx | rfl
      · exact this x hx
      · decide
    · rw [hp] at hx
      exact this x hx
  have f5 : (⟨5, 2, c.stamp⟩ : Frame).Fits := ⟨by norm_num, by norm_num, h1⟩
  have f6 : (⟨6, 6, c.namePayload⟩ : Frame).Fits := ⟨by norm_num, by norm_num, h2⟩
  have hfit : ∀ f ∈ (⟨6, 6, c.namePayload⟩ :: c.body : List Frame), f.Fits := by
    intro f hf
    rw [List.mem_cons] at hf
    rcases hf with rfl | hf
    · exact f6
    · exact (h4 f hf).1
  -- the bytes that are left do not reach the end of ENDSTR
  have h7len : (⟨7, 0, []⟩ : Frame).bytes.length = 4 := frame_bytes_length _ ⟨by norm_num, by norm_num, by simp⟩
  have hbytes : c.bytes = (⟨5, 2, c.stamp⟩ : Frame).bytes ++
      (streamBytes (⟨6, 6, c.namePayload⟩ :: c.body) ++ (⟨7, 0, []⟩ : Frame).bytes) := by
    simp [CellImage.bytes, CellImage.frames, streamBytes]
  by_cases h5 : n < (⟨5, 2, c.stamp⟩ : Frame).bytes.length
  · rw [hbytes, List.take_append_of_le_length h5.le, rawRecordReader_part f5 h5]
    split <;> rfl
  · have hrec : ∀ r ∈ rawRecordReader ((streamBytes (⟨6, 6, c.namePayload⟩ :: c.body) ++
        (⟨7, 0, []⟩ : Frame).bytes).take (n - (⟨5, 2, c.stamp⟩ : Frame).bytes.length)),
        ∃ f ∈ (⟨6, 6, c.namePayload⟩ :: c.body : List Frame), r.1 = f.type ∧ r.2 <+: f.bytes := by
      rw [hbytes] at hn
      simp only [List.length_append] at hn
      generalize hm : n - (⟨5, 2, c.stamp⟩ : Frame).bytes.length = m
      by_cases hle : m ≤ (streamBytes (⟨6, 6, c.namePayload⟩ :: c.body)).length
      · rw [List.take_append_of_le_length hle]
        exact rawRecordReader_cut _ hfit m
      · rw [List.take_append, List.take_of_length_le (by omega), rawRecordReader_frames _ hfit, rawRecordReader_tail
          (by rw [List.length_take]; omega), List.append_nil]
        intro r hr
        obtain ⟨g, hg, rfl⟩ := List.mem_map.1 hr
        exact ⟨g, hg, rfl, List.prefix_rfl⟩
    rw [hbytes, List.take_append, List.take_of_length_le (by omega), rawRecordReader_frame _ f5, binLoop, if_pos rfl]
    refine binLoop_unfinished _ _ _ _ fun r hr => ?_
    obtain ⟨f, hf, ht, hp⟩ := hrec r hr
    rw [List.mem_cons] at hf
    rcases hf with rfl | hf
    · refine ⟨by rw [ht]; norm_num, fun _ x hx => ?_⟩
      have hd : r.2.drop 4 <+: c.namePayload := by
        obtain ⟨u, hu⟩ := hp
        obtain ⟨a, b, c', d, he, _, _⟩ := frame_cons _ f6 []
        simp only [List.append_nil] at he
        rw [he] at hu
        match h : r.2 with
        | [] => simp
        | [_] => simp
        | [_, _] => simp
        | [_, _, _] => simp
        | _ :: _ :: _ :: _ :: q =>
          rw [h] at hu
          simp only [List.cons_append, List.cons.injEq] at hu
          exact ⟨u, hu.2.2.2.2⟩
      exact hb x (hd.subset hx)
    · obtain ⟨_, _, h6', h7'⟩ := h4 f hf
      exact ⟨by rw [ht]; exact h7', fun h => absurd (ht ▸ h) h6'⟩

/-- **C88.** `get_binary_cells` of a file that is cut anywhere returns exactly the cells that are complete, each with
its bytes; never the beginning of a cell, and it does not raise. -/
theorem C88_binary_cells (pre post : List Frame) (cells : List CellImage)
    (hpre : ∀ f ∈ pre, f.Inner) (hpost : ∀ f ∈ post, f.Inner) (hcells : ∀ c ∈ cells, c.Ok)
    (hnames : (cells.map CellImage.name).Nodup) (n : Nat) :
    ∃ k, k ≤ cells.length ∧
      getBinaryCells ((streamBytes (pre ++ cells.flatMap CellImage.frames ++ post)).take n) =
        .ok ((cells.take k).map fun c => (some c.name, c.bytes)) ∧
      (k ≠ 0 → streamSize (pre ++ (cells.take k).flatMap CellImage.frames) ≤ n) ∧
      (k < cells.length → n < streamSize (pre ++ (cells.take (k + 1)).flatMap CellImage.frames)) := by
  have key : ∀ (cs : List CellImage) (_ : ∀ c ∈ cs, c.Ok) (n : Nat) (name : Option Str) (d : List (Option Str × Bytes)),
      ∃ k, k ≤ cs.length ∧
        binLoop (rawRecordReader ((streamBytes (cs.flatMap CellImage.frames ++ post)).take n)) name none d =
          .ok ((cs.take k).foldl (fun d c => binSet d (some c.name) c.bytes) d) ∧
        streamSize ((cs.take k).flatMap CellImage.frames) ≤ n ∧
        (k < cs.length → n < streamSize ((cs.take (k + 1)).flatMap CellImage.frames)) := by
    intro cs
    induction cs with
    | nil =>
      intro _ n name d
      refine ⟨0, le_rfl, ?_, Nat.zero_le _, by simp⟩
      have hr := rawRecordReader_cut post (fun f hf => (hpost f hf).1) n
      simp only [List.flatMap_nil, List.nil_append, List.take_nil, List.foldl_nil]
      generalize rawRecordReader ((streamBytes post).take n) = rs at hr
      induction rs with
      | nil => rfl
      | cons r rs ih =>
        obtain ⟨t, data⟩ := r
        obtain ⟨f, hf, ht, _⟩ := hr (t, data) (by simp)
        obtain ⟨_, h5, h6, h7⟩ := hpost f hf
        simp only at ht
        subst ht
        rw [binLoop, if_neg h5, if_neg h6, if_neg h7]
        exact ih fun r hr' => hr r (by simp [hr'])
    | cons c cs ih =>
      intro h n name d
      have hc := h c (by simp)
      have hb : streamBytes ((c :: cs).flatMap CellImage.frames ++ post) =
          c.bytes ++ streamBytes (cs.flatMap CellImage.frames ++ post) := by
        simp [CellImage.bytes, streamBytes]
      by_cases hn : n < c.bytes.length
      · refine ⟨0, Nat.zero_le _, ?_, Nat.zero_le _, fun _ => ?_⟩
        · rw [hb, List.take_append_of_le_length hn.le, binLoop_cut_cell c hc n hn]
          rfl
        · simpa [streamSize, CellImage.bytes] using hn
      · obtain ⟨k, h1, h2, h3, h4⟩ := ih (fun c hc => h c (by simp [hc])) (n - c.bytes.length) (some c.name)
          (binSet d (some c.name) c.bytes)
        have hz : ∀ m, streamSize (((c :: cs).take (m + 1)).flatMap CellImage.frames) =
            c.bytes.length + streamSize ((cs.take m).flatMap CellImage.frames) := by
          intro m
          simp [streamSize, streamBytes, CellImage.bytes]
        refine ⟨k + 1, by simpa using h1, ?_, by rw [hz]; omega, fun hk => ?_⟩
        · rw [hb, List.take_append, List.take_of_length_le (by omega)]
          have : c.bytes = streamBytes c.frames := rfl
          conv_lhs => rw [this]
          rw [rawRecordReader_frames _ (CellImage.frames_fit hc), binLoop_cell c hc, ← this, h2]
          rfl
        · rw [hz]
          have := h4 (by simpa using hk)
          omega
  have hpre' : ∀ f ∈ pre, f.Fits := fun f hf => (hpre f hf).1
  have hfold : ∀ k, (cells.take k).foldl (fun d c => binSet d (some c.name) c.bytes) [] =
      (cells.take k).map fun c => (some c.name, c.bytes) := by
    intro k
    rw [binSet_fold]
    · rfl
    · have := (hnames.sublist ((List.take_sublist k cells).map CellImage.name)).map (Option.some_injective Str)
      rw [List.map_map] at this
      exact this
  have hlen : streamSize pre = (streamBytes pre).length := rfl
  by_cases hn : n < streamSize pre
  · refine ⟨0, Nat.zero_le _, ?_, fun h => absurd rfl h, fun _ => ?_⟩
    · rw [List.append_assoc, streamBytes_append, List.take_append_of_le_length (by omega)]
      have hr := rawRecordReader_cut pre hpre' n
      unfold getBinaryCells
      generalize rawRecordReader ((streamBytes pre).take n) = rs at hr
      simp only [List.take_zero, List.map_nil]
      induction rs with
      | nil => rfl
      | cons r rs ih =>
        obtain ⟨t, data⟩ := r
        obtain ⟨f, hf, ht, _⟩ := hr (t, data) (by simp)
        obtain ⟨_, h5, h6, h7⟩ := hpre f hf
        simp only at ht
        subst ht
        rw [binLoop, if_neg h5, if_neg h6, if_neg h7]
        exact ih fun r hr' => hr r (by simp [hr'])
    · rw [streamSize_append]
      omega
  · obtain ⟨k, h1, h2, h3, h4⟩ := key cells hcells (n - streamSize pre) none []
    refine ⟨k, h1, ?_, fun _ => by rw [streamSize_append]; omega, fun hk => by rw [streamSize_append]; have := h4 hk; omega⟩
    unfold getBinaryCells
    rw [List.append_assoc, streamBytes_append, List.take_append, List.take_of_length_le (by omega),
      rawRecordReader_frames _ hpre', binLoop_skip _ _ _ _ hpre, ← hlen, h2, hfold]

/-! ### Hash -/

/-- Records that do not close a cell feed nothing. -/
theorem hashLoop_open : ∀ (fs : List Frame) (pre rest : Bytes) (fuel start : Nat) (cs : List Bytes),
    (∀ f ∈ fs, f.Fits ∧ ¬ f.EndsCell) → ∃ start',
    hashLoop (pre ++ (streamBytes fs ++ rest)) (fs.length + fuel) ⟨start, pre.length, cs⟩ =
      hashLoop (pre ++ (streamBytes fs ++ rest)) fuel ⟨start', (pre ++ streamBytes fs).length, cs⟩ := by
  intro fs
  induction fs with
  | nil => intro pre rest fuel start cs _; exact ⟨start, by simp [streamBytes_nil]⟩
  | cons f fs ih =>
    intro pre rest fuel start cs h
    obtain ⟨h1, h2⟩ := h f (by simp)
    obtain ⟨s', hs'⟩ := ih (pre ++ f.bytes) rest fuel (if f.BeginsCell then pre.length + 28 else start) cs
      fun g hg => h g (by simp [hg])
    refine ⟨s', ?_⟩
    rw [streamBytes_cons, List.append_assoc, List.length_cons, show fs.length + 1 + fuel = (fs.length + fuel) + 1 by omega]
    conv_lhs => unfold hashLoop
    rw [hashStep_frame pre f h1, if_neg h2]
    simp only [List.append_assoc] at hs' ⊢
    rw [← hs']
    by_cases hb : f.BeginsCell
    · rw [if_pos hb, if_pos hb]
    · rw [if_neg hb, if_neg hb]

/-- The beginning of a record at the end of the file. -/
theorem hashLoop_part {f : Frame} (hf : f.Fits) {p : Nat} (hp : p < f.bytes.length) (he : f.EndsCell → p < 4)
    (pre : Bytes) (fuel start : Nat) (cs : List Bytes) :
    hashLoop (pre ++ f.bytes.take p) (fuel + 2) ⟨start, pre.length, cs⟩ =
      some (if 0 < p ∧ p < 4 then .error .structError else .ok cs) := by
  have hlen := frame_bytes_length f hf
  by_cases h4 : p < 4
  · rw [hashLoop_padding pre _ (.inl (by rw [List.length_take]; omega)) (fuel + 1)]
    congr 1
    rw [List.length_take, Nat.min_eq_left hp.le]
    by_cases h0 : p = 0
    · rw [if_pos (.inl h0), if_neg (by omega)]
    · rw [if_neg (by omega), if_pos (by omega)]
  · rw [if_neg (by omega)]
    obtain ⟨a, b, c, d, hd, h1, h2⟩ := frame_cons f hf []
    simp only [List.append_nil] at hd
    have ht : f.bytes.take p = a :: b :: c :: d :: f.payload.take (p - 4) := by
      rw [hd]
      obtain ⟨q, rfl⟩ : ∃ q, p = q + 4 := ⟨p - 4, by omega⟩
      rfl
    have hL : (pre ++ f.bytes.take p).length = pre.length + p := by
      rw [List.length_append, List.length_take, Nat.min_eq_left hp.le]
    have hend : ¬ f.EndsCell := fun h => absurd (he h) h4
    obtain ⟨_, hdt, _⟩ := hf
    have hne : ¬ f.type * 256 + f.dt = 0x0700 := by
      intro h
      exact hend ⟨by omega, by omega⟩
    have hfin : ∀ s', hashLoop (pre ++ f.bytes.take p) (fuel + 1) ⟨s', pre.length + (4 + f.payload.length), cs⟩ =
        some (.ok cs) := by
      intro s'
      unfold hashLoop hashStep
      rw [if_neg (by rw [hL]; simp only; omega)]
    unfold hashLoop
    have hstep : ∃ s', hashStep (pre ++ f.bytes.take p) ⟨start, pre.length, cs⟩ =
        .next ⟨s', pre.length + (4 + f.payload.length), cs⟩ := by
      unfold hashStep
      rw [if_pos (by rw [hL]; simp only; omega)]
      simp only [List.drop_left]
      rw [ht]
      simp only [h1, h2]
      by_cases h5 : f.type * 256 + f.dt = 0x0502
      · rw [if_pos h5]
        exact ⟨_, rfl⟩
      · rw [if_neg h5, if_neg hne, if_neg (by omega)]
        exact ⟨_, rfl⟩
    obtain ⟨s', hs'⟩ := hstep
    rw [hs']
    exact hfin s'

/-- The records of an item, up to a cut before its end, feed nothing. -/
theorem hashLoop_cut_item {it : Item} (h : it.Ok) {n : Nat} (hn : n < (streamBytes it.frames).length) :
    ∃ fuel, ∀ (pre : Bytes) (start : Nat) (cs : List Bytes),
    hashLoop (pre ++ (streamBytes it.frames).take n) fuel ⟨start, pre.length, cs⟩ =
        some (.error .structError) ∧ CutInHeader it.frames n ∨
    hashLoop (pre ++ (streamBytes it.frames).take n) fuel ⟨start, pre.length, cs⟩ = some (.ok cs) ∧
      ¬ CutInHeader it.frames n := by
  have hfit : ∀ f ∈ it.frames, f.Fits := by
    cases it with
    | other f =>
      intro g hg
      simp only [Item.frames, List.mem_singleton] at hg
      subst hg
      exact h.1
    | cell stamp body =>
      obtain ⟨h1, h2⟩ := h
      intro g hg
      simp only [Item.frames, List.cons_append, List.nil_append, List.mem_cons, List.mem_append,
        List.not_mem_nil, or_false] at hg
      rcases hg with rfl | hg | rfl
      · exact ⟨by norm_num, by norm_num, by simp [h1]⟩
      · exact (h2 g hg).1
      · exact ⟨by norm_num, by norm_num, by simp⟩
  rcases cut_split it.frames n with ⟨whole, f, rest, hl, h1, h2, h3⟩ | ⟨h1, _⟩
  · have hw : (∀ g ∈ whole, g.Fits ∧ ¬ g.EndsCell) ∧ (f.EndsCell → f.payload = []) := by
      cases it with
      | other g =>
        cases whole with
        | nil =>
          simp only [Item.frames, List.nil_append, List.cons.injEq] at hl
          obtain ⟨rfl, _⟩ := hl
          exact ⟨by simp, fun he => absurd he h.2.2⟩
        | cons w whole =>
          simp only [Item.frames, List.cons_append, List.cons.injEq] at hl
          have := congrArg List.length hl.2
          simp at this
      | cell stamp body =>
        obtain ⟨q1, q2⟩ := h
        have hplain : ∀ g ∈ (⟨5, 2, stamp⟩ :: body : List Frame), ¬ g.EndsCell := by
          intro g hg
          rw [List.mem_cons] at hg
          rcases hg with rfl | hg
          · simp [Frame.EndsCell]
          · exact (q2 g hg).2.2
        have hl' : (⟨5, 2, stamp⟩ :: body) ++ [(⟨7, 0, []⟩ : Frame)] = whole ++ f :: rest := by
          simpa [Item.frames] using hl
        rw [List.append_eq_append_iff] at hl'
        rcases hl' with ⟨u, hu1, hu2⟩ | ⟨u, hu1, hu2⟩
        · -- all of the body is before the cut
          cases u with
          | nil =>
            simp only [List.nil_append, List.cons.injEq] at hu2
            rw [List.append_nil] at hu1
            refine ⟨fun g hg => ⟨hfit g (by rw [hl]; simp [hg]), hplain g (hu1 ▸ hg)⟩, fun _ => by rw [← hu2.1]⟩
          | cons v u =>
            simp only [List.cons_append, List.cons.injEq] at hu2
            have := congrArg List.length hu2.2
            simp at this
        · cases u with
          | nil =>
            simp only [List.nil_append, List.cons.injEq] at hu2
            rw [List.append_nil] at hu1
            refine ⟨fun g hg => ⟨hfit g (by rw [hl]; simp [hg]), hplain g (hu1 ▸ hg)⟩, fun _ => by rw [hu2.1]⟩
          | cons v u =>
            simp only [List.cons_append, List.cons.injEq] at hu2
            refine ⟨fun g hg => ⟨hfit g (by rw [hl]; simp [hg]), hplain g (by rw [hu1]; simp [hg])⟩, fun he => ?_⟩
            exact absurd he (hplain f (by rw [hu1, hu2.1]; simp))
    have hf := hfit f (by rw [hl]; simp)
    have hend : f.EndsCell → n - streamSize whole < 4 := by
      intro he
      have := frame_bytes_length f hf
      rw [hw.2 he, List.length_nil] at this
      omega
    have hcut := cutInHeader_part (rest := rest) (fun g hg => (hw.1 g hg).1) hf h1 h2
    rw [← hl] at hcut
    refine ⟨whole.length + 2, fun pre start cs => ?_⟩
    obtain ⟨s', hs'⟩ := hashLoop_open whole pre (f.bytes.take (n - streamSize whole)) 2 start cs hw.1
    rw [h3, hs']
    have hp := hashLoop_part hf (p := n - streamSize whole) (by omega) hend (pre ++ streamBytes whole) 0 s' cs
    rw [List.append_assoc] at hp
    rw [hp, hcut]
    by_cases hc : 0 < n - streamSize whole ∧ n - streamSize whole < 4
    · rw [if_pos hc]
      exact .inl ⟨rfl, hc⟩
    · rw [if_neg hc]
      exact .inr ⟨rfl, hc⟩
  · exact absurd h1 (by unfold streamSize; omega)

/-- **C88.** `gdsii_hash` of a file that is cut anywhere: the engine sees the bodies of exactly the complete cells, unless
one, two or three bytes of a header are left, for which it raises. -/
theorem C88_hash (l : List Item) (h : ∀ it ∈ l, it.Ok) (n : Nat) :
    ∃ k, k ≤ l.length ∧ (itemsBytes (l.take k)).length ≤ n ∧
      (k < l.length → n < (itemsBytes (l.take (k + 1))).length) ∧
      (¬ CutInHeader (l.flatMap Item.frames) n →
        HashFeeds ((itemsBytes l).take n) (.ok ((cellBodies (l.take k)).mergeSort bytesLe))) ∧
      (CutInHeader (l.flatMap Item.frames) n → HashFeeds ((itemsBytes l).take n) (.error .structError)) := by
  -- the item in which the file is cut
  have hsplit : ∀ (l : List Item) (n : Nat), ∃ k, k ≤ l.length ∧ (itemsBytes (l.take k)).length ≤ n ∧
      (k < l.length → n < (itemsBytes (l.take (k + 1))).length) := by
    intro l
    induction l with
    | nil => intro n; exact ⟨0, le_rfl, Nat.zero_le _, by simp⟩
    | cons it l ih =>
      intro n
      have hz : ∀ m, (itemsBytes ((it :: l).take (m + 1))).length =
          (streamBytes it.frames).length + (itemsBytes (l.take m)).length := by
        intro m
        simp [itemsBytes, streamBytes]
      by_cases hn : n < (streamBytes it.frames).length
      · exact ⟨0, Nat.zero_le _, Nat.zero_le _, fun _ => by rw [hz]; omega⟩
      · obtain ⟨k, h1, h2, h3⟩ := ih (n - (streamBytes it.frames).length)
        refine ⟨k + 1, by simpa using h1, by rw [hz]; omega, fun hk => ?_⟩
        rw [hz]
        have := h3 (by simpa using hk)
        omega
  obtain ⟨k, h1, h2, h3⟩ := hsplit l n
  refine ⟨k, h1, h2, h3, ?_⟩
  have hok : ∀ it ∈ l.take k, it.Ok := fun it hit => h it (List.mem_of_mem_take hit)
  have hfit : ∀ it : Item, it.Ok → ∀ f ∈ it.frames, f.Fits := by
    intro it hi
    cases it with
    | other f =>
      intro g hg
      simp only [Item.frames, List.mem_singleton] at hg
      subst hg
      exact hi.1
    | cell stamp body =>
      obtain ⟨q1, q2⟩ := hi
      intro g hg
      simp only [Item.frames, List.cons_append, List.nil_append, List.mem_cons, List.mem_append,
        List.not_mem_nil, or_false] at hg
      rcases hg with rfl | hg | rfl
      · exact ⟨by norm_num, by norm_num, by simp [q1]⟩
      · exact (q2 g hg).1
      · exact ⟨by norm_num, by norm_num, by simp⟩
  have hfits : ∀ m : List Item, (∀ it ∈ m, it.Ok) → ∀ f ∈ m.flatMap Item.frames, f.Fits := by
    intro m hm f hf
    obtain ⟨it, hit, hf⟩ := List.mem_flatMap.1 hf
    exact hfit it (hm it hit) f hf
  by_cases hk : k < l.length
  · -- the cut is in item k
    obtain ⟨it, hit⟩ : ∃ it, l.drop k = it :: l.drop (k + 1) := ⟨l[k], List.drop_eq_getElem_cons hk⟩
    have hl : l = l.take k ++ it :: l.drop (k + 1) := by rw [← hit, List.take_append_drop]
    have htake : l.take (k + 1) = l.take k ++ [it] := by
      rw [List.take_succ_eq_append_getElem hk]
      congr 2
      have := List.drop_eq_getElem_cons hk
      rw [hit] at this
      exact ((List.cons.injEq _ _ _ _).mp this).1.symm
    have hI : it.Ok := h it (by rw [hl]; simp)
    have hb : itemsBytes l = itemsBytes (l.take k) ++ (streamBytes it.frames ++ itemsBytes (l.drop (k + 1))) := by
      conv_lhs => rw [hl]
      simp [itemsBytes, streamBytes]
    have hn := h3 hk
    rw [htake] at hn
    have hlen : (itemsBytes (l.take k ++ [it])).length = (itemsBytes (l.take k)).length + (streamBytes it.frames).length := by
      simp [itemsBytes, streamBytes]
    rw [hlen] at hn
    have hcut : (itemsBytes l).take n = itemsBytes (l.take k) ++
        (streamBytes it.frames).take (n - (itemsBytes (l.take k)).length) := by
      rw [hb, List.take_append, List.take_of_length_le h2, List.take_append_of_le_length (by omega)]
    have hhead : CutInHeader (l.flatMap Item.frames) n ↔ CutInHeader it.frames (n - (itemsBytes (l.take k)).length) := by
      conv_lhs => rw [hl]
      rw [List.flatMap_append, List.flatMap_cons, cutInHeader_append _ _ (hfits _ hok) n h2]
      show CutInHeader _ (n - (itemsBytes (l.take k)).length) ↔ _
      generalize hm : n - (itemsBytes (l.take k)).length = m
      have hm' : m < streamSize it.frames := by unfold streamSize; omega
      constructor
      · rintro ⟨whole, f, rest, he, h5, h6⟩
        rw [List.append_eq_append_iff] at he
        rcases he with ⟨u, hu1, hu2⟩ | ⟨u, hu1, hu2⟩
        · rw [hu1, streamSize_append] at h5
          omega
        · cases u with
          | nil =>
            rw [List.append_nil] at hu1
            rw [hu1] at hm'
            omega
          | cons v u =>
            simp only [List.cons_append, List.cons.injEq] at hu2
            exact ⟨whole, v, u, hu1, h5, h6⟩
      · rintro ⟨whole, f, rest, he, h5, h6⟩
        exact ⟨whole, f, rest ++ _, by rw [he]; simp; rfl, h5, h6⟩
    obtain ⟨fuel, hf⟩ := hashLoop_cut_item hI (n := n - (itemsBytes (l.take k)).length) (by omega)
    obtain ⟨s', hs'⟩ := hashLoop_items (l.take k) [] ((streamBytes it.frames).take (n - (itemsBytes (l.take k)).length))
      fuel 0 [] hok
    simp only [List.nil_append, List.length_nil] at hs'
    replace hf := hf (itemsBytes (l.take k)) s' (cellBodies (l.take k))
    rw [hhead]
    rw [← hs', ← hcut] at hf
    rcases hf with ⟨hf, hc⟩ | ⟨hf, hc⟩
    · refine ⟨fun h => absurd hc h, fun _ => ⟨((l.take k).flatMap Item.frames).length + fuel, ?_⟩⟩
      unfold hashUpdates
      rw [hf]
    · refine ⟨fun _ => ⟨((l.take k).flatMap Item.frames).length + fuel, ?_⟩, fun h => absurd h hc⟩
      unfold hashUpdates
      rw [hf]
  · -- nothing is cut off
    have hk' : l.take k = l := List.take_of_length_le (by omega)
    rw [hk'] at h2 ⊢
    rw [List.take_of_length_le h2]
    have hu := hashUpdates_items l [] h (.inl (by simp))
    rw [List.append_nil] at hu
    refine ⟨fun _ => ⟨_, by rw [hu]; rfl⟩, fun hc => ?_⟩
    exfalso
    obtain ⟨whole, f, rest, he, h5, h6⟩ := hc
    have hff : f.Fits := hfits l h f (by rw [he]; simp)
    have hlen := frame_bytes_length f hff
    have : (itemsBytes l).length = streamSize whole + (f.bytes.length + streamSize rest) := by
      show streamSize (l.flatMap Item.frames) = _
      rw [he, streamSize_append, streamSize_cons]
    omega

/-! ### Time stamps -/

/-- The record with the new time stamp, if it has one. -/
def Spec.Frame.restamp (t : Timestamp) (f : Frame) : Frame :=
  if f.Stamped then ⟨f.type, f.dt, stampBytes t⟩ else f

theorem setTsLoop_cut (ts : Bytes) (hts : ts.length = 24) {f : Frame} (hf : f.Fits) (hs : f.StampOk) {p : Nat}
    (hp : p < f.bytes.length) :
    setTsLoop ts (f.bytes.take p) =
      ((if f.Stamped ∧ 4 ≤ p then ({ f with payload := ts } : Frame).bytes else f.bytes.take p), none) := by
  have hlen := frame_bytes_length f hf
  by_cases h4 : p < 4
  · rw [if_neg (by omega)]
    exact setTsLoop_padding ts (.inl (by rw [List.length_take]; omega))
  · obtain ⟨a, b, c, d, hd, h1, h2⟩ := frame_cons f hf []
    simp only [List.append_nil] at hd
    have ht : f.bytes.take p = a :: b :: c :: d :: f.payload.take (p - 4) := by
      rw [hd]
      obtain ⟨q, rfl⟩ : ∃ q, p = q + 4 := ⟨p - 4, by omega⟩
      rfl
    have hnil : setTsLoop ts [] = ([], none) := setTsLoop_padding ts (.inl (by simp))
    have hf' := hf
    obtain ⟨hh1, hh2, hh3⟩ := hf
    by_cases hst : f.Stamped
    · have hpl := hs hst
      rw [if_pos ⟨hst, by omega⟩, ht, setTsLoop.eq_def]
      simp only [h1, h2]
      obtain ⟨hdt, hty⟩ := hst
      rw [if_pos (by rw [hdt]; omega), if_pos (by omega), List.drop_of_length_le (by rw [List.length_take]; omega), hnil,
        List.append_nil]
      have h0' := frame_bytes ({ f with payload := ts } : Frame) ⟨hh1, hh2, by simp; omega⟩
      have h0 := frame_bytes f hf'
      rw [h0'] ; rw [h0] at hd
      simp only [be16, List.cons_append, List.nil_append, List.cons.injEq] at hd ⊢
      obtain ⟨q1, q2, q3, q4, _⟩ := hd
      rw [show ts.length = f.payload.length by omega]
      simp only [q1, q2, q3, q4]
    · have htag : ¬ (f.type * 256 + f.dt = 0x0102 ∨ f.type * 256 + f.dt = 0x0502) := by
        intro hcon
        apply hst
        unfold Frame.Stamped
        omega
      have hl : (f.payload.take (p - 4)).length ≤ 4 + f.payload.length - 4 := by
        rw [List.length_take]
        omega
      rw [if_neg (fun h => hst h.1), ht, setTsLoop.eq_def]
      simp only [h1, h2]
      rw [if_neg htag]
      by_cases h0 : 4 + f.payload.length > 4
      · rw [if_pos h0, List.take_of_length_le hl, List.drop_of_length_le hl, hnil, List.append_nil]
      · omega

theorem setTsLoop_whole (ts : Bytes) (hts : ts.length = 24) : ∀ (l : List Frame) (rest : Bytes),
    (∀ f ∈ l, f.Fits ∧ f.StampOk) →
    setTsLoop ts (streamBytes l ++ rest) =
      (streamBytes (l.map fun f => if f.Stamped then { f with payload := ts } else f) ++ (setTsLoop ts rest).1,
        (setTsLoop ts rest).2) := by
  intro l
  induction l with
  | nil => intro rest _; rfl
  | cons f l ih =>
    intro rest h
    obtain ⟨h1, h2⟩ := h f List.mem_cons_self
    rw [streamBytes_cons, List.append_assoc, setTsLoop_frame ts f h1 h2 hts,
      ih rest (fun g hg => h g (List.mem_cons_of_mem _ hg)), List.map_cons, streamBytes_cons,
      List.append_assoc]

/-- **C88.** `set_gdsii_timestamp` of a file that is cut inside of a record does not raise and sets the time stamps of
the complete records; the beginning of the next one is left as it is, but if it is a time stamp record whose header is
complete, it is completed. -/
theorem C88_set_timestamp (whole rest : List Frame) (f : Frame) (t : Timestamp)
    (h : ∀ g ∈ whole ++ f :: rest, g.Fits ∧ g.StampOk) (hT : Spec.Timestamp.Fits t) (p : Nat) (hp : p < f.bytes.length) :
    setGdsiiTimestamp ((streamBytes (whole ++ f :: rest)).take (streamSize whole + p)) t =
      (streamBytes (whole.map (Frame.restamp t)) ++
        (if f.Stamped ∧ 4 ≤ p then (f.restamp t).bytes else f.bytes.take p), none) := by
  have hcut : (streamBytes (whole ++ f :: rest)).take (streamSize whole + p) = streamBytes whole ++ f.bytes.take p := by
    rw [streamBytes_append, streamBytes_cons, List.take_append, List.take_of_length_le (by unfold streamSize; omega)]
    congr 1
    unfold streamSize
    rw [Nat.add_sub_cancel_left, List.take_append_of_le_length hp.le]
  obtain ⟨h1, h2⟩ := h f (by simp)
  unfold setGdsiiTimestamp
  rw [packTs_ok hT, hcut]
  simp only
  rw [setTsLoop_whole _ (stampBytes_length t) _ _ (fun g hg => h g (by simp [hg])),
    setTsLoop_cut _ (stampBytes_length t) h1 h2 hp]
  congr 2
  by_cases hc : f.Stamped ∧ 4 ≤ p
  · rw [if_pos hc, if_pos hc]
    unfold Frame.restamp
    rw [if_pos hc.1]
  · rw [if_neg hc, if_neg hc]

/-- **C88**, consequence: a file that is cut inside of a time stamp becomes longer; others keep their length. -/
theorem C88_set_timestamp_length (whole rest : List Frame) (f : Frame) (t : Timestamp)
    (h : ∀ g ∈ whole ++ f :: rest, g.Fits ∧ g.StampOk) (hT : Spec.Timestamp.Fits t) (p : Nat) (hp : p < f.bytes.length) :
    (setGdsiiTimestamp ((streamBytes (whole ++ f :: rest)).take (streamSize whole + p)) t).1.length =
      streamSize whole + if f.Stamped ∧ 4 ≤ p then 28 else p := by
  rw [C88_set_timestamp whole rest f t h hT p hp]
  have hr : ∀ g : Frame, g.Fits ∧ g.StampOk → (g.restamp t).bytes.length = g.bytes.length := by
    intro g hg
    unfold Frame.restamp
    split
    · rename_i hs
      have hfit : (⟨g.type, g.dt, stampBytes t⟩ : Frame).Fits := ⟨hg.1.1, hg.1.2.1, by simp [stampBytes_length]⟩
      rw [frame_bytes_length _ hfit, frame_bytes_length g hg.1, hg.2 hs, stampBytes_length]
    · rfl
  have hw : ∀ l : List Frame, (∀ g ∈ l, g.Fits ∧ g.StampOk) →
      (streamBytes (l.map (Frame.restamp t))).length = streamSize l := by
    intro l
    induction l with
    | nil => intro _; rfl
    | cons g l ih =>
      intro hl
      rw [List.map_cons, streamBytes_cons, List.length_append, ih (fun x hx => hl x (by simp [hx])), hr g (hl g (by simp)),
        streamSize_cons]
  rw [List.length_append, hw whole fun g hg => h g (by simp [hg])]
  congr 1
  by_cases hc : f.Stamped ∧ 4 ≤ p
  · obtain ⟨h1, h2⟩ := h f (by simp)
    rw [if_pos hc, if_pos hc, hr f ⟨h1, h2⟩, frame_bytes_length f h1, h2 hc.1]
  · rw [if_neg hc, if_neg hc, List.length_take, Nat.min_eq_left hp.le]

/-! ### Units -/

theorem unpack_short {b : Bytes} (h : b.length < 8) : eightByteRealToFloat b = .error .structError := by
  unfold eightByteRealToFloat
  split
  · simp at h
  · rfl

/-- **C88.** `get_gds_units` of a file that is cut: nothing is found before the record with the units, `struct.error` in the
middle of it, and the units of the whole file behind it. -/
theorem C88_units {div : ℚ → ℚ → ℚ} (pre post : List Frame) (u : Frame) (hpre : ∀ f ∈ pre, f.Fits ∧ f.type ≠ 3)
    (hu : u.Fits) (h3 : u.type = 3) (h16 : u.payload.length = 16) (n : Nat) :
    getGdsUnits div ((streamBytes (pre ++ u :: post)).take n) =
      if n < streamSize pre + 4 then .ok none
      else if n < streamSize pre + 20 then .error .structError
      else getGdsUnits div (streamBytes (pre ++ u :: post)) := by
  have hskip : ∀ (l : List Frame) (rs : List (Nat × Bytes)), (∀ f ∈ l, f.type ≠ 3) →
      getGdsUnits.go div ((l.map fun f => (f.type, f.bytes)) ++ rs) = getGdsUnits.go div rs := by
    intro l rs
    induction l with
    | nil => intro _; rfl
    | cons f l ih =>
      intro h
      rw [List.map_cons, List.cons_append, getGdsUnits.go, if_neg (h f (by simp))]
      exact ih fun g hg => h g (by simp [hg])
  have hlen := frame_bytes_length u hu
  rw [h16] at hlen
  have hpf : ∀ f ∈ pre, f.Fits := fun f hf => (hpre f hf).1
  have hsz : streamSize pre = (streamBytes pre).length := rfl
  unfold getGdsUnits
  by_cases h0 : n < streamSize pre
  · rw [if_pos (by omega), streamBytes_append, List.take_append_of_le_length (by omega)]
    have hr := rawRecordReader_cut pre hpf n
    generalize rawRecordReader ((streamBytes pre).take n) = rs at hr
    induction rs with
    | nil => rfl
    | cons r rs ih =>
      obtain ⟨t, data⟩ := r
      obtain ⟨f, hf, ht, _⟩ := hr (t, data) (by simp)
      simp only at ht
      subst ht
      rw [getGdsUnits.go, if_neg (hpre f hf).2]
      exact ih fun r hr' => hr r (by simp [hr'])
  · rw [streamBytes_append, List.take_append, List.take_of_length_le (by omega), streamBytes_cons]
    rw [rawRecordReader_frames _ hpf, hskip _ _ fun f hf => (hpre f hf).2]
    by_cases h20 : n < streamSize pre + 20
    · rw [List.take_append_of_le_length (by omega), rawRecordReader_part hu (by omega)]
      by_cases h4 : n < streamSize pre + 4
      · rw [if_pos (by omega), if_pos h4]
        rfl
      · rw [if_neg (by omega), if_neg h4, if_pos h20, getGdsUnits.go, if_pos h3]
        by_cases h8 : n - (streamBytes pre).length < 12
        · rw [unpack_short (b := pySlice _ 4 12)]
          · rfl
          · simp only [pySlice, List.length_drop, List.length_take]
            omega
        · cases he : eightByteRealToFloat (pySlice (u.bytes.take (n - (streamBytes pre).length)) 4 12) with
          | error e =>
            rw [show e = .structError by
              unfold eightByteRealToFloat at he
              split at he
              · simp only at he
                split at he <;> simp at he
              · simpa using he.symm]
            rfl
          | ok x =>
            rw [unpack_short (b := List.drop 12 _)]
            · rfl
            · simp only [List.length_drop, List.length_take]
              omega
    · rw [if_neg (by omega), if_neg h20, List.take_append, List.take_of_length_le (l := u.bytes) (by omega),
        rawRecordReader_frame _ hu, rawRecordReader_frames _ hpf, hskip _ _ fun f hf => (hpre f hf).2,
        rawRecordReader_frame _ hu, getGdsUnits.go, if_pos h3, getGdsUnits.go, if_pos h3]

/-! ### Padding -/

theorem rawRecordReader_zeros (k : Nat) : rawRecordReader (List.replicate k 0) =
    if k < 4 then [] else [(0, List.replicate k 0)] := by
  by_cases hk : k < 4
  · rw [if_pos hk, rawRecordReader_tail (by simpa using hk)]
  · obtain ⟨m, rfl⟩ : ∃ m, k = m + 4 := ⟨k - 4, by omega⟩
    rw [if_neg hk]
    have : List.replicate (m + 4) (0 : UInt8) = 0 :: 0 :: 0 :: 0 :: List.replicate m 0 := rfl
    rw [this, rawRecordReader.eq_def]
    simp only
    have h00 : rd16 0 0 = 0 := by decide
    rw [h00, if_pos (by omega)]

/-- **C88.** Null bytes behind the last record have no effect on `get_binary_cells` and `get_gds_units` (for `gdsii_hash`
and `set_gdsii_timestamp` see C06 and C08). -/
theorem C88_padding {div : ℚ → ℚ → ℚ} (pre post : List Frame) (cells : List CellImage) (k : Nat)
    (hpre : ∀ f ∈ pre, f.Inner) (hpost : ∀ f ∈ post, f.Inner) (hcells : ∀ c ∈ cells, c.Ok) :
    let file := streamBytes (pre ++ cells.flatMap CellImage.frames ++ post)
    getBinaryCells (file ++ List.replicate k 0) = getBinaryCells file ∧
    getGdsUnits div (file ++ List.replicate k 0) = getGdsUnits div file := by
  intro file
  have hfit : ∀ f ∈ pre ++ cells.flatMap CellImage.frames ++ post, f.Fits := by
    intro f hf
    simp only [List.mem_append, List.mem_flatMap] at hf
    rcases hf with (hf | ⟨c, hc, hf⟩) | hf
    · exact (hpre f hf).1
    · exact CellImage.frames_fit (hcells c hc) f hf
    · exact (hpost f hf).1
  have h0 := rawRecordReader_frames _ hfit []
  rw [List.append_nil, rawRecordReader_tail (tail := []) (by simp)] at h0
  have hk := rawRecordReader_frames _ hfit (List.replicate k 0)
  rw [rawRecordReader_zeros] at hk
  constructor
  · unfold getBinaryCells
    rw [hk, h0]
    simp only [List.map_append, List.append_assoc]
    rw [binLoop_skip _ _ _ _ hpre, binLoop_skip _ _ _ _ hpre]
    obtain ⟨n1, e1⟩ := binLoop_cells cells hcells none []
      ((post.map fun f => (f.type, f.bytes)) ++ if k < 4 then [] else [(0, List.replicate k 0)])
    obtain ⟨n2, e2⟩ := binLoop_cells cells hcells none [] ((post.map fun f => (f.type, f.bytes)) ++ [])
    rw [e1, e2, binLoop_skip _ _ _ _ hpost, binLoop_skip _ _ _ _ hpost]
    split <;> rfl
  · unfold getGdsUnits
    rw [hk, h0]
    generalize (pre ++ cells.flatMap CellImage.frames ++ post).map (fun f => (f.type, f.bytes)) = rs
    induction rs with
    | nil => simp only [List.nil_append]; split <;> rfl
    | cons r rs ih =>
      obtain ⟨t, data⟩ := r
      simp only [List.cons_append]
      rw [getGdsUnits.go, getGdsUnits.go, ih]

/-! ### Examples -/

/-- Two small cells. -/
private def exA : CellImage := ⟨List.replicate 24 2, ['A'], [65, 0], [⟨0x0D, 2, [0, 3]⟩]⟩

private def exB : CellImage := ⟨List.replicate 24 2, ['B'], [66, 0], [⟨0x0E, 2, [0, 9]⟩, ⟨0x11, 0, []⟩]⟩

/-- The hypotheses of `C88_binary_cells` and of `C88_padding` can be met. -/
example : (∀ f ∈ [(⟨0, 2, [2, 88]⟩ : Frame), ⟨1, 2, List.replicate 24 1⟩], f.Inner) ∧ (∀ f ∈ [(⟨4, 0, []⟩ : Frame)], f.Inner) ∧
    (∀ c ∈ [exA, exB], c.Ok) ∧ ([exA, exB].map CellImage.name).Nodup := by
  refine ⟨?_, ?_, ?_, by decide⟩
  · intro f hf
    simp only [List.mem_cons, List.not_mem_nil, or_false] at hf
    rcases hf with rfl | rfl <;> exact ⟨⟨by norm_num, by norm_num, by decide⟩, by decide, by decide, by decide⟩
  · intro f hf
    simp only [List.mem_cons, List.not_mem_nil, or_false] at hf
    rcases hf with rfl
    exact ⟨⟨by norm_num, by norm_num, by decide⟩, by decide, by decide, by decide⟩
  · intro c hc
    simp only [List.mem_cons, List.not_mem_nil, or_false] at hc
    rcases hc with rfl | rfl
    · refine ⟨by decide, by decide, by unfold NamePayload exA; simp, ?_⟩
      intro f hf
      simp only [exA, List.mem_cons, List.not_mem_nil, or_false] at hf
      rcases hf with rfl
      exact ⟨⟨by norm_num, by norm_num, by decide⟩, by decide, by decide, by decide⟩
    · refine ⟨by decide, by decide, by unfold NamePayload exB; simp, ?_⟩
      intro f hf
      simp only [exB, List.mem_cons, List.not_mem_nil, or_false] at hf
      rcases hf with rfl | rfl <;> exact ⟨⟨by norm_num, by norm_num, by decide⟩, by decide, by decide, by decide⟩

/-- A file with two cells, cut in the second one: the first cell is complete after 44 bytes, the second one after 92. -/
example : streamSize exA.frames = 44 ∧ streamSize (exA.frames ++ exB.frames) = 92 ∧
    CutInHeader (exA.frames ++ exB.frames) 46 ∧ ¬ CutInHeader (exA.frames ++ exB.frames) 50 := by
  refine ⟨by decide, by decide, ⟨exA.frames, ⟨5, 2, exB.stamp⟩, exB.frames.tail, rfl, by decide, by decide⟩, ?_⟩
  simp only [exA, exB, CellImage.frames, List.cons_append, List.nil_append]
  have hf : ∀ (t d : Nat) (p : Bytes), t < 256 → d < 256 → 4 + p.length < 65536 → (⟨t, d, p⟩ : Frame).Fits :=
    fun t d p h1 h2 h3 => ⟨h1, h2, h3⟩
  rw [cutInHeader_cons _ (hf _ _ _ (by decide) (by decide) (by decide)),
    cutInHeader_cons _ (hf _ _ _ (by decide) (by decide) (by decide)),
    cutInHeader_cons _ (hf _ _ _ (by decide) (by decide) (by decide)),
    cutInHeader_cons _ (hf _ _ _ (by decide) (by decide) (by decide)),
    cutInHeader_cons _ (hf _ _ _ (by decide) (by decide) (by decide))]
  rintro (⟨_, h⟩ | ⟨_, ⟨_, h⟩ | ⟨_, ⟨_, h⟩ | ⟨_, ⟨_, h⟩ | ⟨_, ⟨_, h⟩ | ⟨h, _⟩⟩⟩⟩⟩)
  all_goals revert h; decide

/-- The hypotheses of `C88_units` can be met. -/
example : ∃ (pre : List Frame) (u : Frame), pre.length = 2 ∧ (∀ f ∈ pre, f.Fits ∧ f.type ≠ 3) ∧ u.Fits ∧ u.type = 3 ∧
    u.payload.length = 16 ∧ streamSize pre = 34 := by
  refine ⟨[⟨0, 2, [2, 88]⟩, ⟨1, 2, List.replicate 24 1⟩],
    ⟨3, 5, [0x3E, 0x41, 0x89, 0x37, 0x4B, 0xC6, 0xA7, 0xF0, 0x39, 0x44, 0xB8, 0x2F, 0xA0, 0x9B, 0x5A, 0x54]⟩, rfl, ?_,
    ⟨by norm_num, by norm_num, by decide⟩, rfl, rfl, by decide⟩
  intro f hf
  simp only [List.mem_cons, List.not_mem_nil, or_false] at hf
  rcases hf with rfl | rfl <;> exact ⟨⟨by norm_num, by norm_num, by decide⟩, by decide⟩

/-- `set_gdsii_timestamp` makes a file longer that is cut inside BGNLIB: of 10 bytes it makes 28. -/
theorem C88_set_timestamp_grows :
    ((setGdsiiTimestamp (((⟨1, 2, List.replicate 24 1⟩ : Frame).bytes).take 10) ⟨2026, 11, 16, 23, 59, 59⟩).1.length = 28) := by
  have h := C88_set_timestamp_length [] [] ⟨1, 2, List.replicate 24 1⟩ ⟨2026, 11, 16, 23, 59, 59⟩
    (by
      intro g hg
      simp only [List.nil_append, List.mem_cons, List.not_mem_nil, or_false] at hg
      subst hg
      exact ⟨⟨by norm_num, by norm_num, by decide⟩, fun _ => by simp⟩)
    (by
      intro x hx
      simp only [List.mem_cons, List.not_mem_nil, or_false] at hx
      omega) 10 (by decide)
  have hs : (⟨1, 2, List.replicate 24 1⟩ : Frame).Stamped ∧ 4 ≤ 10 := ⟨by simp [Frame.Stamped], by norm_num⟩
  rw [if_pos hs] at h
  simpa [streamSize, streamBytes] using h

end Gdspy
