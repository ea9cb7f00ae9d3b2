import Verif.Lemmas.Stream

/-!
# C08, C09: time stamp rewriting; termination of the hash
-/

namespace Gdspy

open Spec

/-- **C08.** On a well-framed file, `set_gdsii_timestamp` succeeds and replaces exactly the
payload of every time stamp record by the given date and time (twice); every other record and
the padding is unchanged. -/
theorem C08_set_timestamp (l : List Frame) (tail : Bytes) (t : Timestamp)
    (h : ∀ f ∈ l, f.Fits ∧ f.StampOk) (ht : Padding tail) (hT : Spec.Timestamp.Fits t) :
    setGdsiiTimestamp (streamBytes l ++ tail) t =
      (streamBytes (l.map fun f => if f.Stamped then ⟨f.type, f.dt, stampBytes t⟩ else f) ++ tail,
        none) := by
  unfold setGdsiiTimestamp
  rw [packTs_ok hT]
  exact setTsLoop_stream (stampBytes t) (stampBytes_length t) l tail h ht

/-- **C08.** The file keeps its length, and a second call wins over the first. -/
theorem C08_set_timestamp_last_wins (l : List Frame) (tail : Bytes) (t u : Timestamp)
    (h : ∀ f ∈ l, f.Fits ∧ f.StampOk) (ht : Padding tail) (hT : Spec.Timestamp.Fits t)
    (hU : Spec.Timestamp.Fits u) :
    setGdsiiTimestamp (setGdsiiTimestamp (streamBytes l ++ tail) u).1 t =
      setGdsiiTimestamp (streamBytes l ++ tail) t ∧
    (setGdsiiTimestamp (streamBytes l ++ tail) t).1.length = (streamBytes l ++ tail).length := by
  rw [C08_set_timestamp l tail u h ht hU, C08_set_timestamp l tail t h ht hT]
  constructor
  · rw [C08_set_timestamp _ tail t ?_ ht hT]
    · rw [List.map_map]
      congr 3
      apply List.map_congr_left
      intro f _
      simp only [Function.comp]
      by_cases hs : f.Stamped
      · have : (⟨f.type, f.dt, stampBytes u⟩ : Frame).Stamped := hs
        simp only [if_pos hs, if_pos this]
      · simp only [if_neg hs]
    · intro f hf
      obtain ⟨g, hg, rfl⟩ := List.mem_map.1 hf
      obtain ⟨h1, h2⟩ := h g hg
      by_cases hs : g.Stamped
      · simp only [if_pos hs]
        refine ⟨⟨h1.1, h1.2.1, ?_⟩, fun _ => stampBytes_length u⟩
        simp only [stampBytes_length]; norm_num
      · simp only [if_neg hs]; exact ⟨h1, h2⟩
  · simp only [List.length_append, Nat.add_right_cancel_iff]
    induction l with
    | nil => rfl
    | cons f l ih =>
      obtain ⟨h1, h2⟩ := h f List.mem_cons_self
      rw [List.map_cons, streamBytes_cons, streamBytes_cons, List.length_append,
        List.length_append, ih (fun g hg => h g (List.mem_cons_of_mem _ hg))]
      congr 1
      by_cases hs : f.Stamped
      · have hfit : (⟨f.type, f.dt, stampBytes t⟩ : Frame).Fits :=
          ⟨h1.1, h1.2.1, by simp only [stampBytes_length]; norm_num⟩
        rw [if_pos hs, frame_bytes_length _ hfit, frame_bytes_length f h1, h2 hs,
          stampBytes_length]
      · rw [if_neg hs]

/-- **C08.** A time stamp record of the wrong size stops the rewriting with an
`AssertionError`: records before it are rewritten, it and everything after it are left alone. -/
theorem C08_set_timestamp_bad_record (l : List Frame) (bad : Frame) (rest : Bytes) (t : Timestamp)
    (h : ∀ f ∈ l, f.Fits ∧ f.StampOk) (hb : bad.Fits) (hs : bad.Stamped)
    (hlen : bad.payload.length ≠ 24) (hT : Spec.Timestamp.Fits t) :
    setGdsiiTimestamp (streamBytes l ++ (bad.bytes ++ rest)) t =
      (streamBytes (l.map fun f => if f.Stamped then ⟨f.type, f.dt, stampBytes t⟩ else f) ++
        (bad.bytes ++ rest), some .assertionError) := by
  unfold setGdsiiTimestamp
  rw [packTs_ok hT]
  simp only
  induction l with
  | nil =>
    obtain ⟨a, b, c, d, he, h1, h2⟩ := frame_cons bad hb rest
    simp only [streamBytes_nil, List.nil_append, List.map_nil]
    rw [he, setTsLoop.eq_def]
    simp only [h1, h2]
    obtain ⟨q1, q2⟩ := hs
    rw [if_pos (by omega), if_neg (by omega)]
  | cons f l ih =>
    obtain ⟨h1, h2⟩ := h f List.mem_cons_self
    rw [streamBytes_cons, List.append_assoc, setTsLoop_frame _ f h1 h2 (stampBytes_length t),
      ih (fun g hg => h g (List.mem_cons_of_mem _ hg)), List.map_cons, streamBytes_cons,
      List.append_assoc]

example : ∃ l : List Frame, l.length = 3 ∧ (∀ f ∈ l, f.Fits ∧ f.StampOk) ∧
    Spec.Timestamp.Fits ⟨2026, 11, 16, 23, 59, 59⟩ := by
  refine ⟨[⟨0, 2, [2, 88]⟩, ⟨1, 2, List.replicate 24 1⟩, ⟨4, 0, []⟩], rfl, ?_, ?_⟩
  · intro f hf
    simp only [List.mem_cons, List.not_mem_nil, or_false] at hf
    rcases hf with rfl | rfl | rfl
    · exact ⟨⟨by norm_num, by norm_num, by decide⟩, fun hs => by simp [Frame.Stamped] at hs⟩
    · exact ⟨⟨by norm_num, by norm_num, by decide⟩, fun _ => by simp⟩
    · exact ⟨⟨by norm_num, by norm_num, by decide⟩, fun hs => by simp [Frame.Stamped] at hs⟩
  · intro x hx
    simp only [List.mem_cons, List.not_mem_nil, or_false] at hx
    rcases hx with rfl | rfl | rfl | rfl | rfl | rfl <;> norm_num

/-- **C09 (negation).** `gdsii_hash` does not terminate on every file: a zero-length ENDSTR
record makes it loop forever (and collect memory at every turn). -/
theorem C09_hash_diverges : ∀ fuel, hashUpdates fuel [0, 0, 7, 0] = none := by
  have key : ∀ fuel start cs, hashLoop [0, 0, 7, 0] fuel ⟨start, 0, cs⟩ = none := by
    intro fuel
    induction fuel with
    | zero => intros; rfl
    | succ n ih =>
      intro start cs
      unfold hashLoop
      have : hashStep [0, 0, 7, 0] ⟨start, 0, cs⟩
          = .next ⟨start, 0, cs ++ [pySlice [0, 0, 7, 0] start 0]⟩ := by
        simp [hashStep, rd16]
      rw [this]
      exact ih _ _
  intro fuel
  unfold hashUpdates
  rw [key]

/-- **C09 (partial).** The full property ("`gdsii_hash` ends on every file") is false, see
`C09_hash_diverges`. It does end, returning or raising `struct.error`, on every file in which
no zero-length header of a BGNSTR or ENDSTR record occurs at any offset. -/
theorem C09_hash_terminates_partial (data : Bytes)
    (h : ∀ (pos : Nat) (rest : Bytes), data.drop pos ≠ 0 :: 0 :: 5 :: 2 :: rest ∧
      data.drop pos ≠ 0 :: 0 :: 7 :: 0 :: rest) :
    ∃ r, hashUpdates (data.length + 1) data = some r ∧ ∀ e, r = .error e → e = .structError := by
  have key : ∀ fuel st, 1 ≤ fuel → data.length < st.pos + fuel →
      ∃ r, hashLoop data fuel st = some r ∧ ∀ e, r = .error e → e = .structError := by
    intro fuel
    induction fuel with
    | zero => intro st h1; omega
    | succ n ih =>
      intro st _ hst
      have stepd : (∃ c, hashStep data st = .finish c) ∨ hashStep data st = .raise .structError ∨
          ∃ st', hashStep data st = .next st' ∧ 1 ≤ n ∧ st.pos < st'.pos := by
        unfold hashStep
        by_cases hp : st.pos < data.length
        · rw [if_pos hp]
          have hhd := h st.pos
          split
          · rename_i a b c d rest hd
            rw [hd] at hhd
            have hz : rd16 a b = 0 → a = 0 ∧ b = 0 := by
              intro hz
              simp only [rd16] at hz
              constructor <;> (apply UInt8.toNat_inj.1; simp; omega)
            have hv : ∀ x y : UInt8, ∀ u v : Nat, u < 256 → v < 256 →
                rd16 x y = u * 256 + v → x = UInt8.ofNat u ∧ y = UInt8.ofNat v := by
              intro x y u v hu hv hxy
              simp only [rd16] at hxy
              have := x.toNat_lt; have := y.toNat_lt
              constructor <;> (apply UInt8.toNat_inj.1; rw [ofNat_toNat8]; omega)
            simp only
            by_cases h5 : rd16 c d = 0x0502
            · rw [if_pos h5]
              have hne : rd16 a b ≠ 0 := by
                intro h0
                obtain ⟨rfl, rfl⟩ := hz h0
                obtain ⟨rfl, rfl⟩ := hv c d 5 2 (by norm_num) (by norm_num) h5
                exact (hhd rest).1 rfl
              right; right; exact ⟨_, rfl, by omega, by simp only; omega⟩
            · rw [if_neg h5]
              by_cases h7 : rd16 c d = 0x0700
              · rw [if_pos h7]
                have hne : rd16 a b ≠ 0 := by
                  intro h0
                  obtain ⟨rfl, rfl⟩ := hz h0
                  obtain ⟨rfl, rfl⟩ := hv c d 7 0 (by norm_num) (by norm_num) h7
                  exact (hhd rest).2 rfl
                right; right; exact ⟨_, rfl, by omega, by simp only; omega⟩
              · rw [if_neg h7]
                by_cases h0 : rd16 a b = 0
                · rw [if_pos h0]; left; exact ⟨_, rfl⟩
                · rw [if_neg h0]; right; right; exact ⟨_, rfl, by omega, by simp only; omega⟩
          · right; left; rfl
        · rw [if_neg hp]; left; exact ⟨_, rfl⟩
      unfold hashLoop
      rcases stepd with ⟨c, hc⟩ | hr | ⟨st', hn, h1, h2⟩
      · rw [hc]; exact ⟨_, rfl, by intro e he; cases he⟩
      · rw [hr]; exact ⟨_, rfl, by intro e he; cases he; rfl⟩
      · rw [hn]; exact ih st' h1 (by omega)
  obtain ⟨r, h1, h2⟩ := key (data.length + 1) ⟨0, 0, []⟩ (by omega) (by simp)
  unfold hashUpdates
  rw [h1]
  cases r with
  | error e => exact ⟨_, rfl, h2⟩
  | ok c => exact ⟨_, rfl, by intro e he; cases he⟩

/-- A file that meets the hypothesis (one cell) and one that raises. -/
example : hashUpdates 10 [0, 4, 5, 2, 0, 4, 7, 0] = some (.ok [[]]) ∧
    hashUpdates 10 [0, 4, 4] = some (.error .structError) := by
  constructor <;> simp [hashUpdates, hashLoop, hashStep, rd16, pySlice]

end Gdspy
