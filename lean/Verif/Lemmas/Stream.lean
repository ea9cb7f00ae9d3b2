import Verif.Spec.Stream
import Verif.Lemmas.Records
import Mathlib.Data.List.Sort

namespace Gdspy

open Spec

theorem streamBytes_cons (f : Frame) (l : List Frame) :
    streamBytes (f :: l) = f.bytes ++ streamBytes l := by
  simp [streamBytes]

theorem streamBytes_append (l m : List Frame) :
    streamBytes (l ++ m) = streamBytes l ++ streamBytes m := by
  simp [streamBytes]

theorem streamBytes_nil : streamBytes [] = [] := rfl

theorem frame_bytes_length (f : Frame) (hf : f.Fits) : f.bytes.length = 4 + f.payload.length := by
  rw [frame_bytes f hf]; simp [be16]; omega

/-- The four header bytes of a record. -/
theorem frame_cons (f : Frame) (hf : f.Fits) (rest : Bytes) :
    ∃ a b c d, f.bytes ++ rest = a :: b :: c :: d :: (f.payload ++ rest) ∧
      rd16 a b = 4 + f.payload.length ∧ rd16 c d = f.type * 256 + f.dt := by
  obtain ⟨h1, h2, h3⟩ := hf
  refine ⟨_, _, _, _, ?_, rd16_be16 h3, rd16_be16 (n := f.type * 256 + f.dt) (by omega)⟩
  rw [frame_bytes f ⟨h1, h2, h3⟩]
  simp [be16]

theorem packTs_ok {t : Timestamp} (h : Spec.Timestamp.Fits t) : packTs t = .ok (stampBytes t) := by
  have h1 := h t.year (by simp)
  have h2 := h t.month (by simp)
  have h3 := h t.day (by simp)
  have h4 := h t.hour (by simp)
  have h5 := h t.minute (by simp)
  have h6 := h t.second (by simp)
  unfold packTs
  rw [packh_ok h1, py_bind_ok, packh_ok h2, py_bind_ok, packh_ok h3, py_bind_ok, packh_ok h4,
    py_bind_ok, packh_ok h5, py_bind_ok, packh_ok h6, py_bind_ok, py_pure]
  refine congrArg Except.ok ?_
  simp only [stampBytes, twosComplement_two, List.flatMap_cons, List.flatMap_nil,
    List.append_assoc, List.append_nil]

theorem stampBytes_length (t : Timestamp) : (stampBytes t).length = 24 := by
  simp [stampBytes, twosComplement_two, be16]

/-! ### set_gdsii_timestamp -/

theorem setTsLoop_frame (ts : Bytes) (f : Frame) (hf : f.Fits) (hs : f.StampOk)
    (hts : ts.length = 24) (rest : Bytes) :
    setTsLoop ts (f.bytes ++ rest) =
      ((if f.Stamped then { f with payload := ts } else f).bytes ++ (setTsLoop ts rest).1,
        (setTsLoop ts rest).2) := by
  obtain ⟨a, b, c, d, he, h1, h2⟩ := frame_cons f hf rest
  have hf' := hf
  obtain ⟨hh1, hh2, hh3⟩ := hf
  rw [he, setTsLoop.eq_def]
  simp only [h1, h2]
  by_cases hst : f.Stamped
  · have hp := hs hst
    rw [if_pos hst]
    obtain ⟨hd, ht⟩ := hst
    rw [if_pos (by rw [hd]; omega), if_pos (by omega)]
    have hlen : ts.length = f.payload.length := by omega
    rw [hlen, List.drop_left]
    have hbytes : ({ f with payload := ts } : Frame).bytes = a :: b :: c :: d :: ts := by
      have h0 := frame_bytes f hf'
      have h0' := frame_bytes ({ f with payload := ts } : Frame) ⟨hh1, hh2, by simp; omega⟩
      rw [h0'] ; rw [h0] at he
      simp only [be16, List.cons_append, List.nil_append, List.cons.injEq] at he ⊢
      obtain ⟨q1, q2, q3, q4, _⟩ := he
      rw [hlen]
      exact ⟨q1, q2, q3, q4, trivial⟩
    rw [hbytes]
    simp
  · have htag : ¬ (f.type * 256 + f.dt = 0x0102 ∨ f.type * 256 + f.dt = 0x0502) := by
      intro hcon
      apply hst
      unfold Frame.Stamped
      omega
    rw [if_neg htag, if_neg hst]
    have hbytes : f.bytes = a :: b :: c :: d :: f.payload := by
      have h0 : f.bytes ++ rest = (a :: b :: c :: d :: f.payload) ++ rest := by simpa using he
      exact List.append_cancel_right h0
    by_cases hp : f.payload.length = 0
    · have : f.payload = [] := List.eq_nil_of_length_eq_zero hp
      rw [if_neg (by omega), hbytes, this]; simp
    · rw [if_pos (by omega), show 4 + f.payload.length - 4 = f.payload.length by omega,
        List.take_left, List.drop_left, hbytes]
      simp

theorem setTsLoop_zeros (ts : Bytes) : ∀ n k, k ≤ n →
    setTsLoop ts (List.replicate k 0) = (List.replicate k 0, none) := by
  intro n
  induction n with
  | zero => intro k hk; obtain rfl : k = 0 := by omega
            rw [setTsLoop.eq_def]; rfl
  | succ n ih =>
    intro k hk
    match k with
    | 0 => rw [setTsLoop.eq_def]; rfl
    | 1 => rw [setTsLoop.eq_def]; rfl
    | 2 => rw [setTsLoop.eq_def]; rfl
    | 3 => rw [setTsLoop.eq_def]; rfl
    | k + 4 =>
      have hr : List.replicate (k + 4) (0 : UInt8) = 0 :: 0 :: 0 :: 0 :: List.replicate k 0 := by
        simp [List.replicate_succ]
      rw [setTsLoop.eq_def, hr]
      simp only [show rd16 0 0 = 0 from rfl]
      rw [if_neg (by norm_num), if_neg (by norm_num), ih k (by omega)]

theorem setTsLoop_padding (ts : Bytes) {tail : Bytes} (h : Padding tail) :
    setTsLoop ts tail = (tail, none) := by
  rcases h with h | ⟨k, rfl⟩
  · match tail, h with
    | [], _ => rw [setTsLoop.eq_def]
    | [_], _ => rw [setTsLoop.eq_def]
    | [_, _], _ => rw [setTsLoop.eq_def]
    | [_, _, _], _ => rw [setTsLoop.eq_def]
  · exact setTsLoop_zeros ts k k le_rfl

theorem setTsLoop_stream (ts : Bytes) (hts : ts.length = 24) (l : List Frame) (tail : Bytes)
    (h : ∀ f ∈ l, f.Fits ∧ f.StampOk) (ht : Padding tail) :
    setTsLoop ts (streamBytes l ++ tail) =
      (streamBytes (l.map fun f => if f.Stamped then { f with payload := ts } else f) ++ tail,
        none) := by
  induction l with
  | nil => rw [streamBytes_nil, List.nil_append, setTsLoop_padding ts ht]; rfl
  | cons f l ih =>
    obtain ⟨h1, h2⟩ := h f List.mem_cons_self
    rw [streamBytes_cons, List.append_assoc, setTsLoop_frame ts f h1 h2 hts,
      ih (fun g hg => h g (List.mem_cons_of_mem _ hg)), List.map_cons, streamBytes_cons,
      List.append_assoc]

/-! ### gdsii_hash -/

theorem hashStep_frame (pre : Bytes) (f : Frame) (hf : f.Fits) (rest : Bytes) (start : Nat)
    (cs : List Bytes) :
    hashStep (pre ++ (f.bytes ++ rest)) ⟨start, pre.length, cs⟩ =
      if f.BeginsCell then .next ⟨pre.length + 28, (pre ++ f.bytes).length, cs⟩
      else if f.EndsCell then
        .next ⟨start, (pre ++ f.bytes).length, cs ++ [pre.drop start]⟩
      else .next ⟨start, (pre ++ f.bytes).length, cs⟩ := by
  have hlen := frame_bytes_length f hf
  obtain ⟨a, b, c, d, he, h1, h2⟩ := frame_cons f hf rest
  obtain ⟨hh1, hh2, hh3⟩ := hf
  unfold hashStep
  have hlt : pre.length < (pre ++ (f.bytes ++ rest)).length := by
    simp only [List.length_append]; omega
  rw [if_pos hlt]
  simp only [List.drop_left]
  rw [he]
  simp only [h1, h2]
  have hpos : (pre ++ f.bytes).length = pre.length + (4 + f.payload.length) := by
    rw [List.length_append, hlen]
  rw [hpos]
  by_cases hb : f.BeginsCell
  · rw [if_pos hb, if_pos (by obtain ⟨x, y⟩ := hb; omega)]
  · have hb' : ¬ (f.type * 256 + f.dt = 0x0502) := by
      intro hcon; apply hb; unfold Frame.BeginsCell; omega
    rw [if_neg hb, if_neg hb']
    by_cases he' : f.EndsCell
    · rw [if_pos he', if_pos (by obtain ⟨x, y⟩ := he'; omega)]
      simp only [pySlice, List.take_left']
    · have he'' : ¬ (f.type * 256 + f.dt = 0x0700) := by
        intro hcon; apply he'; unfold Frame.EndsCell; omega
      rw [if_neg he', if_neg he'', if_neg (by omega)]

theorem hashLoop_mono {data : Bytes} {r : Py (List Bytes)} : ∀ {n : Nat} {st : HashState},
    hashLoop data n st = some r → ∀ m, n ≤ m → hashLoop data m st = some r := by
  intro n
  induction n with
  | zero => intro st h; simp [hashLoop] at h
  | succ n ih =>
    intro st h m hm
    obtain ⟨m, rfl⟩ : ∃ k, m = k + 1 := ⟨m - 1, by omega⟩
    unfold hashLoop at h ⊢
    cases hs : hashStep data st with
    | next st' => simp only [hs] at h ⊢; exact ih h m (by omega)
    | finish c => simp only [hs] at h ⊢; exact h
    | raise e => simp only [hs] at h ⊢; exact h

theorem hashLoop_frames_plain : ∀ (l : List Frame) (pre rest : Bytes) (fuel start : Nat)
    (cs : List Bytes), (∀ f ∈ l, f.Plain) →
    hashLoop (pre ++ (streamBytes l ++ rest)) (l.length + fuel) ⟨start, pre.length, cs⟩ =
      hashLoop (pre ++ (streamBytes l ++ rest)) fuel
        ⟨start, (pre ++ streamBytes l).length, cs⟩ := by
  intro l
  induction l with
  | nil => intro pre rest fuel start cs _; simp [streamBytes_nil]
  | cons f l ih =>
    intro pre rest fuel start cs h
    obtain ⟨h1, h2, h3⟩ := h f List.mem_cons_self
    have := ih (pre ++ f.bytes) rest fuel start cs (fun g hg => h g (List.mem_cons_of_mem _ hg))
    rw [streamBytes_cons, List.append_assoc, List.length_cons,
      show l.length + 1 + fuel = (l.length + fuel) + 1 by omega]
    conv_lhs => unfold hashLoop
    rw [hashStep_frame pre f h1, if_neg h2, if_neg h3]
    simp only [List.append_assoc] at this ⊢
    exact this

theorem hashLoop_item (it : Item) (h : it.Ok) (pre rest : Bytes) (fuel start : Nat)
    (cs : List Bytes) : ∃ start',
    hashLoop (pre ++ (streamBytes it.frames ++ rest)) (it.frames.length + fuel)
        ⟨start, pre.length, cs⟩ =
      hashLoop (pre ++ (streamBytes it.frames ++ rest)) fuel
        ⟨start', (pre ++ streamBytes it.frames).length, cs ++ cellBodies [it]⟩ := by
  cases it with
  | other f =>
    refine ⟨start, ?_⟩
    have := hashLoop_frames_plain [f] pre rest fuel start cs
      (by intro g hg; rw [List.mem_singleton] at hg; subst hg; exact h)
    simpa [Item.frames, cellBodies] using this
  | cell stamp body =>
    obtain ⟨h1, h2⟩ := h
    refine ⟨pre.length + 28, ?_⟩
    have fits1 : (⟨5, 2, stamp⟩ : Frame).Fits := ⟨by norm_num, by norm_num, by simp [h1]⟩
    have fits2 : (⟨7, 0, []⟩ : Frame).Fits := ⟨by norm_num, by norm_num, by simp⟩
    have hb1 : (⟨5, 2, stamp⟩ : Frame).BeginsCell := ⟨rfl, rfl⟩
    have hb2 : ¬ (⟨7, 0, []⟩ : Frame).BeginsCell := by simp [Frame.BeginsCell]
    have he2 : (⟨7, 0, []⟩ : Frame).EndsCell := ⟨rfl, rfl⟩
    have hl1 : (⟨5, 2, stamp⟩ : Frame).bytes.length = 28 := by
      rw [frame_bytes_length _ fits1, h1]
    simp only [Item.frames, streamBytes_append, streamBytes_cons, streamBytes_nil,
      List.append_nil, List.length_append, List.length_cons, List.length_nil, List.append_assoc,
      List.cons_append, List.nil_append, cellBodies]
    rw [show body.length + (0 + 1) + 1 + fuel = (body.length + (fuel + 1)) + 1 by omega]
    conv_lhs => unfold hashLoop
    rw [hashStep_frame pre _ fits1, if_pos hb1]
    simp only
    have hmid := hashLoop_frames_plain body (pre ++ (⟨5, 2, stamp⟩ : Frame).bytes)
      ((⟨7, 0, []⟩ : Frame).bytes ++ rest) (fuel + 1) (pre.length + 28) cs h2
    simp only [List.append_assoc] at hmid
    rw [hmid]
    conv_lhs => unfold hashLoop
    have hend := hashStep_frame (pre ++ ((⟨5, 2, stamp⟩ : Frame).bytes ++ streamBytes body))
      ⟨7, 0, []⟩ fits2 rest (pre.length + 28) cs
    rw [if_neg hb2, if_pos he2] at hend
    simp only [List.append_assoc] at hend
    rw [hend]
    have hdrop : List.drop (pre.length + 28)
        (pre ++ ((⟨5, 2, stamp⟩ : Frame).bytes ++ streamBytes body)) = streamBytes body := by
      rw [← List.append_assoc, List.drop_left' (by simp [hl1])]
    rw [hdrop]
    simp only [List.length_append]

theorem cellBodies_cons (it : Item) (l : List Item) :
    cellBodies (it :: l) = cellBodies [it] ++ cellBodies l := by
  cases it <;> rfl

theorem hashLoop_items : ∀ (l : List Item) (pre rest : Bytes) (fuel start : Nat)
    (cs : List Bytes), (∀ it ∈ l, it.Ok) → ∃ start',
    hashLoop (pre ++ (itemsBytes l ++ rest)) ((l.flatMap Item.frames).length + fuel)
        ⟨start, pre.length, cs⟩ =
      hashLoop (pre ++ (itemsBytes l ++ rest)) fuel
        ⟨start', (pre ++ itemsBytes l).length, cs ++ cellBodies l⟩ := by
  intro l
  induction l with
  | nil => intro pre rest fuel start cs _; exact ⟨start, by simp [itemsBytes, streamBytes, cellBodies]⟩
  | cons it l ih =>
    intro pre rest fuel start cs h
    have hc : itemsBytes (it :: l) = streamBytes it.frames ++ itemsBytes l := by
      simp only [itemsBytes, List.flatMap_cons, streamBytes_append]
    obtain ⟨s1, e1⟩ := hashLoop_item it (h it List.mem_cons_self) pre (itemsBytes l ++ rest)
      ((l.flatMap Item.frames).length + fuel) start cs
    obtain ⟨s2, e2⟩ := ih (pre ++ streamBytes it.frames) rest fuel s1 (cs ++ cellBodies [it])
      (fun g hg => h g (List.mem_cons_of_mem _ hg))
    refine ⟨s2, ?_⟩
    rw [hc, List.flatMap_cons, List.length_append, Nat.add_assoc, List.append_assoc, e1]
    rw [cellBodies_cons it l, ← List.append_assoc]
    simp only [List.append_assoc] at e2 ⊢
    exact e2

/-- Result of the hash collector at the end of the records. -/
theorem hashLoop_padding (pre tail : Bytes) (ht : Padding tail) (fuel start : Nat)
    (cs : List Bytes) :
    hashLoop (pre ++ tail) (fuel + 1) ⟨start, pre.length, cs⟩ =
      some (if tail.length = 0 ∨ 4 ≤ tail.length then .ok cs else .error .structError) := by
  unfold hashLoop hashStep
  simp only [List.length_append, List.drop_left]
  by_cases h0 : tail.length = 0
  · rw [if_neg (by omega)]
    simp [h0]
  · rw [if_pos (by omega)]
    rcases ht with h | ⟨k, rfl⟩
    · match tail, h with
      | [], _ => simp at h0
      | [_], _ => simp
      | [_, _], _ => simp
      | [_, _, _], _ => simp
    · match k with
      | 0 => simp at h0
      | 1 => simp
      | 2 => simp [List.replicate_succ]
      | 3 => simp [List.replicate_succ]
      | k + 4 =>
        simp [List.replicate_succ, rd16]

/-- The byte strings fed to the hash engine for a well-framed file. -/
theorem hashUpdates_items (l : List Item) (tail : Bytes) (h : ∀ it ∈ l, it.Ok)
    (ht : Padding tail) :
    hashUpdates ((l.flatMap Item.frames).length + 1) (itemsBytes l ++ tail) =
      some (if tail.length = 0 ∨ 4 ≤ tail.length
        then .ok ((cellBodies l).mergeSort bytesLe) else .error .structError) := by
  obtain ⟨s', e⟩ := hashLoop_items l [] tail 1 0 [] h
  simp only [List.nil_append, List.length_nil] at e
  unfold hashUpdates
  rw [e, hashLoop_padding _ _ ht 0]
  split <;> rename_i hh <;> split at hh <;> simp_all

theorem hashUpdates_mono {data : Bytes} {r : Py (List Bytes)} {n : Nat}
    (h : hashUpdates n data = some r) {m : Nat} (hm : n ≤ m) : hashUpdates m data = some r := by
  unfold hashUpdates at h ⊢
  cases hl : hashLoop data n ⟨0, 0, []⟩ with
  | none => simp [hl] at h
  | some v => rw [hashLoop_mono hl m hm]; rw [hl] at h; exact h

/-! ### order on byte strings -/

theorem bytesLe_total : ∀ a b : Bytes, bytesLe a b || bytesLe b a := by
  intro a
  induction a with
  | nil => intro b; simp [bytesLe]
  | cons x a ih =>
    intro b
    cases b with
    | nil => simp [bytesLe]
    | cons y b =>
      have := ih b
      simp only [bytesLe, Bool.or_eq_true, Bool.and_eq_true, decide_eq_true_eq, beq_iff_eq] at this ⊢
      rcases (show x < y ∨ x = y ∨ y < x by
        rw [UInt8.lt_iff_toNat_lt, UInt8.lt_iff_toNat_lt, ← UInt8.toNat_inj]; omega) with h | h | h
      · left; left; exact h
      · subst h; rcases this with h | h
        · left; right; exact ⟨rfl, h⟩
        · right; right; exact ⟨rfl, h⟩
      · right; left; exact h

theorem bytesLe_trans : ∀ a b c : Bytes, bytesLe a b → bytesLe b c → bytesLe a c := by
  intro a
  induction a with
  | nil => intro b c _ _; simp [bytesLe]
  | cons x a ih =>
    intro b c h1 h2
    cases b with
    | nil => simp [bytesLe] at h1
    | cons y b =>
      cases c with
      | nil => simp [bytesLe] at h2
      | cons z c =>
        simp only [bytesLe, Bool.or_eq_true, Bool.and_eq_true, decide_eq_true_eq, beq_iff_eq]
          at h1 h2 ⊢
        rcases h1 with h1 | ⟨rfl, h1⟩
        · rcases h2 with h2 | ⟨rfl, h2⟩
          · left; exact UInt8.lt_trans h1 h2
          · left; exact h1
        · rcases h2 with h2 | ⟨rfl, h2⟩
          · left; exact h2
          · right; exact ⟨rfl, ih b c h1 h2⟩

theorem bytesLe_antisymm : ∀ a b : Bytes, bytesLe a b → bytesLe b a → a = b := by
  intro a
  induction a with
  | nil => intro b _ h; cases b with
    | nil => rfl
    | cons y b => simp [bytesLe] at h
  | cons x a ih =>
    intro b h1 h2
    cases b with
    | nil => simp [bytesLe] at h1
    | cons y b =>
      simp only [bytesLe, Bool.or_eq_true, Bool.and_eq_true, decide_eq_true_eq, beq_iff_eq]
          at h1 h2
      rcases h1 with h1 | ⟨rfl, h1⟩
      · rcases h2 with h2 | ⟨rfl, h2⟩
        · exact absurd h2 (UInt8.lt_asymm h1)
        · exact absurd h1 (UInt8.lt_irrefl _)
      · rcases h2 with h2 | ⟨_, h2⟩
        · exact absurd h2 (UInt8.lt_irrefl _)
        · rw [ih b h1 h2]

theorem sort_perm {l m : List Bytes} (h : l.Perm m) :
    l.mergeSort bytesLe = m.mergeSort bytesLe := by
  have h1 := List.pairwise_mergeSort (le := bytesLe) bytesLe_trans bytesLe_total l
  have h2 := List.pairwise_mergeSort (le := bytesLe) bytesLe_trans bytesLe_total m
  have hp : (l.mergeSort bytesLe).Perm (m.mergeSort bytesLe) :=
    ((List.mergeSort_perm l _).trans h).trans (List.mergeSort_perm m _).symm
  exact hp.eq_of_pairwise (fun a b _ _ => bytesLe_antisymm a b) h1 h2

/-! ### unique framing -/

theorem frame_bytes_inj (f g : Frame) (hf : f.Fits) (hg : g.Fits) (r s : Bytes)
    (h : f.bytes ++ r = g.bytes ++ s) : f = g ∧ r = s := by
  obtain ⟨a, b, c, d, e, h1, h2⟩ := frame_cons f hf r
  obtain ⟨a', b', c', d', e', h1', h2'⟩ := frame_cons g hg s
  rw [e, e'] at h
  simp only [List.cons.injEq] at h
  obtain ⟨rfl, rfl, rfl, rfl, h⟩ := h
  have hlen : f.payload.length = g.payload.length := by omega
  obtain ⟨hp, hr⟩ := List.append_inj h hlen
  obtain ⟨q1, q2, _⟩ := hf
  obtain ⟨q3, q4, _⟩ := hg
  refine ⟨?_, hr⟩
  cases f; cases g
  simp only at *
  subst hp
  congr 1 <;> omega

theorem streamBytes_inj : ∀ (l m : List Frame), (∀ f ∈ l, f.Fits) → (∀ f ∈ m, f.Fits) →
    streamBytes l = streamBytes m → l = m := by
  intro l
  induction l with
  | nil =>
    intro m _ hm h
    cases m with
    | nil => rfl
    | cons g m =>
      have := congrArg List.length h
      rw [streamBytes_cons, List.length_append, frame_bytes_length g (hm g List.mem_cons_self)]
        at this
      simp [streamBytes_nil] at this
      omega
  | cons f l ih =>
    intro m hl hm h
    cases m with
    | nil =>
      have := congrArg List.length h
      rw [streamBytes_cons, List.length_append, frame_bytes_length f (hl f List.mem_cons_self)]
        at this
      simp [streamBytes_nil] at this
    | cons g m =>
      rw [streamBytes_cons, streamBytes_cons] at h
      obtain ⟨rfl, h'⟩ := frame_bytes_inj f g (hl f List.mem_cons_self) (hm g List.mem_cons_self)
        _ _ h
      rw [ih m (fun x hx => hl x (List.mem_cons_of_mem _ hx))
        (fun x hx => hm x (List.mem_cons_of_mem _ hx)) h']

end Gdspy
