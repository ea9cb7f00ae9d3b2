import Verif.Spec.Cut
import Verif.Props.C05
import Verif.Props.C47
import Verif.Lemmas.Blocks

/-!
# C85: files that were cut short

A user whose file was cut short (a full disk, an interrupted transfer) wants to be told, or at least
not to get a layout that differs from the original other than by missing parts.
-/

namespace Gdspy

open Spec

/-! ### Records -/

theorem unpackHs_len : ∀ {k : Nat} {b : Bytes} {l : List Nat}, unpackHs k b = .ok l → b.length = 2 * k
  | 0, [], _, _ => rfl
  | 0, _ :: _, _, h => by simp [unpackHs] at h
  | k + 1, [], _, h => by simp [unpackHs] at h
  | k + 1, [_], _, h => by simp [unpackHs] at h
  | k + 1, a :: b :: r, l, h => by
    simp only [unpackHs, bind, Except.bind] at h
    cases hr : unpackHs k r with
    | error e => rw [hr] at h; simp at h
    | ok t =>
      have := unpackHs_len hr
      simp only [List.length_cons]
      omega

theorem unpackls_len : ∀ {k : Nat} {b : Bytes} {l : List Int}, unpackls k b = .ok l → b.length = 4 * k
  | 0, [], _, _ => rfl
  | 0, _ :: _, _, h => by simp [unpackls] at h
  | k + 1, [], _, h => by simp [unpackls] at h
  | k + 1, [_], _, h => by simp [unpackls] at h
  | k + 1, [_, _], _, h => by simp [unpackls] at h
  | k + 1, [_, _, _], _, h => by simp [unpackls] at h
  | k + 1, a :: b :: c :: d :: r, l, h => by
    simp only [unpackls, bind, Except.bind] at h
    cases hr : unpackls k r with
    | error e => rw [hr] at h; simp at h
    | ok t =>
      have := unpackls_len hr
      simp only [List.length_cons]
      omega

theorem real_len {b : Bytes} {x : ℚ} (h : eightByteRealToFloat b = .ok x) : b.length = 8 := by
  unfold eightByteRealToFloat at h
  split at h
  · rfl
  · simp at h

/-- Cutting a sequence of reals: the same numbers or an exception. -/
theorem readReals_take : ∀ {k : Nat} {s : Bytes} {l : List ℚ} {r : Bytes} (m : Nat),
    readReals k s = .ok (l, r) →
    (∃ m', readReals k (s.take m) = .ok (l, r.take m')) ∨ ∃ e, readReals k (s.take m) = .error e := by
  intro k
  induction k with
  | zero =>
    intro s l r m h
    simp only [readReals, Except.ok.injEq, Prod.mk.injEq] at h
    obtain ⟨rfl, rfl⟩ := h
    exact Or.inl ⟨m, rfl⟩
  | succ k ih =>
    intro s l r m h
    simp only [readReals, bind, Except.bind] at h ⊢
    cases hx : eightByteRealToFloat (s.take 8) with
    | error e => rw [hx] at h; simp at h
    | ok x =>
      rw [hx] at h
      simp only at h
      cases hr : readReals k (s.drop 8) with
      | error e => rw [hr] at h; simp at h
      | ok q =>
        obtain ⟨l', r'⟩ := q
        rw [hr] at h
        simp only [pure, Except.pure, Except.ok.injEq, Prod.mk.injEq] at h
        obtain ⟨rfl, rfl⟩ := h
        by_cases hm : 8 ≤ m
        · have e1 : (s.take m).take 8 = s.take 8 := by rw [List.take_take, Nat.min_eq_left hm]
          have e2 : (s.take m).drop 8 = (s.drop 8).take (m - 8) := by rw [List.drop_take]
          rw [e1, hx, e2]
          simp only
          rcases ih (m - 8) hr with ⟨m', h'⟩ | ⟨e, h'⟩
          · rw [h']
            exact Or.inl ⟨m', rfl⟩
          · rw [h']
            exact Or.inr ⟨e, rfl⟩
        · right
          cases hc : eightByteRealToFloat ((s.take m).take 8) with
          | error e => exact ⟨e, rfl⟩
          | ok y =>
            have := real_len hc
            simp only [List.length_take] at this
            omega

theorem decodeAscii_prefix {b c : Bytes} {t : Str} (hp : b <+: c) (h : decodeAscii c = .ok t) :
    ∃ t', decodeAscii b = .ok t' ∧ t' <+: t := by
  unfold decodeAscii at h ⊢
  split at h
  · rename_i ha
    have hb : b.all (fun x => decide (x.toNat < 128)) = true := by
      rw [List.all_eq_true] at ha ⊢
      exact fun x hx => ha x (hp.subset hx)
    rw [if_pos hb]
    simp only [Except.ok.injEq] at h
    subst h
    exact ⟨_, rfl, hp.map _⟩
  · simp at h

theorem readText_prefix {b c : Bytes} {t : Str} (hp : b <+: c) (hne : b ≠ c) (h : readText c = .ok t) :
    (∃ t', readText b = .ok t' ∧ t' <+: t) ∨ ∃ e, readText b = .error e := by
  obtain ⟨d, hd⟩ := hp
  have hdne : d ≠ [] := by
    rintro rfl
    exact hne (by simpa using hd)
  -- what is decoded in the whole contains everything of the part
  obtain ⟨w, hw, hbw⟩ : ∃ w, decodeAscii w = .ok t ∧ b <+: w := by
    unfold readText at h
    split at h
    · simp at h
    · split at h
      · refine ⟨_, h, ?_⟩
        rw [← hd, List.dropLast_append_of_ne_nil hdne]
        exact List.prefix_append _ _
      · exact ⟨_, h, ⟨d, hd⟩⟩
  unfold readText
  cases hl : b.getLast? with
  | none => exact Or.inr ⟨_, rfl⟩
  | some l =>
    left
    simp only
    split
    · exact decodeAscii_prefix ((List.dropLast_prefix b).trans hbw) hw
    · exact decodeAscii_prefix hbw hw

/-- Cutting the data of a record: the same data, a string that is cut short, or an exception. -/
theorem readPayload_take {size dt : Nat} {s : Bytes} {d : Data} {r : Bytes} (m : Nat)
    (h : readPayload size dt s = .ok (d, r)) :
    (∃ m', readPayload size dt (s.take m) = .ok (d, r.take m')) ∨
    (∃ e, readPayload size dt (s.take m) = .error e) ∨
    ∃ t t', d = .str t ∧ t' <+: t ∧ readPayload size dt (s.take m) = .ok (.str t', []) := by
  unfold readPayload at h ⊢
  by_cases hs : size > 4
  swap
  · rw [if_neg hs] at h ⊢
    simp only [Except.ok.injEq, Prod.mk.injEq] at h
    obtain ⟨rfl, rfl⟩ := h
    exact Or.inl ⟨m, rfl⟩
  rw [if_pos hs] at h ⊢
  simp only at h ⊢
  generalize size - 4 = n at h ⊢
  -- either the data is not cut, or it is
  have hcut : ((s.take m).take n = s.take n ∧ (s.take m).drop n = (s.drop n).take (m - n)) ∨
      (((s.take m).take n).length < (s.take n).length ∧ (s.take m).drop n = [] ∧
        (s.take m).take n <+: s.take n) := by
    by_cases hm : n ≤ m
    · left
      exact ⟨by rw [List.take_take, Nat.min_eq_left hm], by rw [List.drop_take]⟩
    · by_cases hl : s.length ≤ m
      · left
        rw [List.take_of_length_le hl]
        refine ⟨rfl, ?_⟩
        rw [List.drop_eq_nil_of_le (by omega), List.take_nil]
      · right
        refine ⟨?_, ?_, ?_⟩
        · simp only [List.length_take]
          omega
        · rw [List.drop_eq_nil_of_le]
          simp only [List.length_take]
          omega
        · rw [List.take_take, Nat.min_eq_right (by omega)]
          exact List.take_prefix_take_left (by omega)
  split at h
  · rename_i h1
    simp only [bind, Except.bind] at h ⊢
    rw [if_pos h1]
    cases hu : unpackHs (n / 2) (s.take n) with
    | error e => rw [hu] at h; simp at h
    | ok l =>
      rw [hu] at h
      simp only [pure, Except.pure, Except.ok.injEq, Prod.mk.injEq] at h
      obtain ⟨rfl, rfl⟩ := h
      rcases hcut with ⟨e1, e2⟩ | ⟨e1, -, -⟩
      · rw [e1, hu, e2]
        exact Or.inl ⟨_, rfl⟩
      · right; left
        cases hc : unpackHs (n / 2) ((s.take m).take n) with
        | error e => exact ⟨e, rfl⟩
        | ok l' =>
          have a1 := unpackHs_len hu
          have a2 := unpackHs_len hc
          omega
  · rename_i h1
    split at h
    · rename_i h2
      rw [if_neg h1, if_pos h2]
      simp only [bind, Except.bind] at h ⊢
      cases hu : unpackHs (n / 2) (s.take n) with
      | error e => rw [hu] at h; simp at h
      | ok l =>
        rw [hu] at h
        simp only [pure, Except.pure, Except.ok.injEq, Prod.mk.injEq] at h
        obtain ⟨rfl, rfl⟩ := h
        rcases hcut with ⟨e1, e2⟩ | ⟨e1, -, -⟩
        · rw [e1, hu, e2]
          exact Or.inl ⟨_, rfl⟩
        · right; left
          cases hc : unpackHs (n / 2) ((s.take m).take n) with
          | error e => exact ⟨e, rfl⟩
          | ok l' =>
            have a1 := unpackHs_len hu
            have a2 := unpackHs_len hc
            omega
    · rename_i h2
      split at h
      · rename_i h3
        rw [if_neg h1, if_neg h2, if_pos h3]
        simp only [bind, Except.bind] at h ⊢
        cases hu : unpackls (n / 4) (s.take n) with
        | error e => rw [hu] at h; simp at h
        | ok l =>
          rw [hu] at h
          simp only [pure, Except.pure, Except.ok.injEq, Prod.mk.injEq] at h
          obtain ⟨rfl, rfl⟩ := h
          rcases hcut with ⟨e1, e2⟩ | ⟨e1, -, -⟩
          · rw [e1, hu, e2]
            exact Or.inl ⟨_, rfl⟩
          · right; left
            cases hc : unpackls (n / 4) ((s.take m).take n) with
            | error e => exact ⟨e, rfl⟩
            | ok l' =>
              have a1 := unpackls_len hu
              have a2 := unpackls_len hc
              omega
      · rename_i h3
        split at h
        · rename_i h4
          rw [if_neg h1, if_neg h2, if_neg h3, if_pos h4]
          simp only [bind, Except.bind] at h ⊢
          cases hu : readReals (n / 8) s with
          | error e => rw [hu] at h; simp at h
          | ok q =>
            obtain ⟨l, r'⟩ := q
            rw [hu] at h
            simp only [pure, Except.pure, Except.ok.injEq, Prod.mk.injEq] at h
            obtain ⟨rfl, rfl⟩ := h
            rcases readReals_take m hu with ⟨m', h'⟩ | ⟨e, h'⟩
            · rw [h']
              exact Or.inl ⟨m', rfl⟩
            · rw [h']
              exact Or.inr (Or.inl ⟨e, rfl⟩)
        · rename_i h4
          rw [if_neg h1, if_neg h2, if_neg h3, if_neg h4]
          simp only [bind, Except.bind] at h ⊢
          cases hu : readText (s.take n) with
          | error e => rw [hu] at h; simp at h
          | ok t =>
            rw [hu] at h
            simp only [pure, Except.pure, Except.ok.injEq, Prod.mk.injEq] at h
            obtain ⟨rfl, rfl⟩ := h
            rcases hcut with ⟨e1, e2⟩ | ⟨e1, e2, e3⟩
            · rw [e1, hu, e2]
              exact Or.inl ⟨_, rfl⟩
            · right
              have hne : (s.take m).take n ≠ s.take n := by
                intro he
                rw [he] at e1
                omega
              rcases readText_prefix e3 hne hu with ⟨t', h', hp⟩ | ⟨e, h'⟩
              · right
                refine ⟨t, t', rfl, hp, ?_⟩
                rw [h', e2]
                rfl
              · left
                rw [h']
                exact ⟨e, rfl⟩

theorem recordReader_short {b : Bytes} (h : b.length < 4) : recordReader b = ([], none) := by
  rw [recordReader.eq_def]
  match b, h with
  | [], _ => rfl
  | [_], _ => rfl
  | [_, _], _ => rfl
  | [_, _, _], _ => rfl

theorem recordReader_ok {x y z w : UInt8} {u : Bytes} {d : Data} {r : Bytes}
    (hu : readPayload (rd16 x y) (rd16 z w &&& 0x00FF) u = .ok (d, r)) :
    recordReader (x :: y :: z :: w :: u)
      = (⟨rd16 z w / 256, d⟩ :: (recordReader r).1, (recordReader r).2) := by
  conv_lhs => rw [recordReader.eq_def]
  simp only
  split
  · rename_i e he
    rw [hu] at he
    cases he
  · rename_i q hq
    rw [hu] at hq
    cases hq
    rfl

theorem recordReader_error {x y z w : UInt8} {u : Bytes} {e : PyErr}
    (hu : readPayload (rd16 x y) (rd16 z w &&& 0x00FF) u = .error e) :
    recordReader (x :: y :: z :: w :: u) = ([], some e) := by
  conv_lhs => rw [recordReader.eq_def]
  simp only
  split
  · rename_i e' he
    rw [hu] at he
    cases he
    rfl
  · rename_i q hq
    rw [hu] at hq
    cases hq

theorem readReals_exact : ∀ {k : Nat} {s : Bytes} {l : List ℚ} {r : Bytes} (n : Nat),
    readReals k s = .ok (l, r) → ∃ m, readReals k (s.take m) = .ok (l, r.take n) := by
  intro k
  induction k with
  | zero =>
    intro s l r n h
    simp only [readReals, Except.ok.injEq, Prod.mk.injEq] at h
    obtain ⟨rfl, rfl⟩ := h
    exact ⟨n, rfl⟩
  | succ k ih =>
    intro s l r n h
    simp only [readReals, bind, Except.bind] at h ⊢
    cases hx : eightByteRealToFloat (s.take 8) with
    | error e => rw [hx] at h; simp at h
    | ok x =>
      rw [hx] at h
      simp only at h
      cases hr : readReals k (s.drop 8) with
      | error e => rw [hr] at h; simp at h
      | ok q =>
        obtain ⟨l', r'⟩ := q
        rw [hr] at h
        simp only [pure, Except.pure, Except.ok.injEq, Prod.mk.injEq] at h
        obtain ⟨rfl, rfl⟩ := h
        obtain ⟨m, hm⟩ := ih n hr
        refine ⟨m + 8, ?_⟩
        have e1 : (s.take (m + 8)).take 8 = s.take 8 := by
          rw [List.take_take, Nat.min_eq_left (by omega)]
        have e2 : (s.take (m + 8)).drop 8 = (s.drop 8).take m := by
          rw [List.drop_take, Nat.add_sub_cancel]
        rw [e1, hx, e2]
        simp only
        rw [hm]
        rfl

/-- A cut behind the data of a record does not affect it. -/
theorem readPayload_exact {size dt : Nat} {s : Bytes} {d : Data} {r : Bytes}
    (h : readPayload size dt s = .ok (d, r)) (n : Nat) :
    ∃ m, readPayload size dt (s.take m) = .ok (d, r.take n) := by
  unfold readPayload at h ⊢
  by_cases hs : size > 4
  swap
  · rw [if_neg hs] at h
    simp only [Except.ok.injEq, Prod.mk.injEq] at h
    obtain ⟨rfl, rfl⟩ := h
    exact ⟨n, by rw [if_neg hs]⟩
  simp only [if_pos hs] at h ⊢
  generalize size - 4 = k at h ⊢
  have e1 : (s.take (n + k)).take k = s.take k := by rw [List.take_take, Nat.min_eq_left (by omega)]
  have e2 : (s.take (n + k)).drop k = (s.drop k).take n := by rw [List.drop_take, Nat.add_sub_cancel]
  by_cases h5 : dt ≠ 1 ∧ dt ≠ 2 ∧ dt ≠ 3 ∧ dt = 5
  · obtain ⟨h1, h2, h3, h4⟩ := h5
    simp only [if_neg h1, if_neg h2, if_neg h3, if_pos h4, bind, Except.bind] at h ⊢
    cases hu : readReals (k / 8) s with
    | error e => rw [hu] at h; simp at h
    | ok q =>
      obtain ⟨l, r'⟩ := q
      rw [hu] at h
      simp only [pure, Except.pure, Except.ok.injEq, Prod.mk.injEq] at h
      obtain ⟨rfl, rfl⟩ := h
      obtain ⟨m, hm⟩ := readReals_exact n hu
      exact ⟨m, by rw [hm]; rfl⟩
  · refine ⟨n + k, ?_⟩
    rw [e1, e2]
    split at h
    · rename_i h1
      rw [if_pos h1]
      obtain ⟨l, hl, h⟩ := bind_ok_inv h
      obtain ⟨rfl, rfl⟩ := Prod.mk.inj (Except.ok.inj h)
      rw [hl]
      rfl
    · rename_i h1
      rw [if_neg h1]
      split at h
      · rename_i h2
        rw [if_pos h2]
        obtain ⟨l, hl, h⟩ := bind_ok_inv h
        obtain ⟨rfl, rfl⟩ := Prod.mk.inj (Except.ok.inj h)
        rw [hl]
        rfl
      · rename_i h2
        rw [if_neg h2]
        split at h
        · rename_i h3
          rw [if_pos h3]
          obtain ⟨l, hl, h⟩ := bind_ok_inv h
          obtain ⟨rfl, rfl⟩ := Prod.mk.inj (Except.ok.inj h)
          rw [hl]
          rfl
        · rename_i h3
          rw [if_neg h3]
          split at h
          · rename_i h4
            exact absurd ⟨h1, h2, h3, h4⟩ h5
          · rename_i h4
            rw [if_neg h4]
            obtain ⟨l, hl, h⟩ := bind_ok_inv h
            obtain ⟨rfl, rfl⟩ := Prod.mk.inj (Except.ok.inj h)
            rw [hl]
            rfl

/-- How the records of a file that was cut short compare with those of the whole file. -/
def Spec.CutRecords (part whole : List Record) : Prop :=
  part <+: whole ∨
    ∃ init t s s', part = init ++ [⟨t, .str s'⟩] ∧ init ++ [⟨t, .str s⟩] <+: whole ∧ s' <+: s

/-- **C85.** The records read from a file that was cut short are the first ones of the whole file; if
no exception is raised, a string in the last one of them may be cut short. -/
theorem C85_records (b : Bytes) : (recordReader b).2 = none → ∀ n,
    CutRecords (recordReader (b.take n)).1 (recordReader b).1 := by
  induction hk : b.length using Nat.strongRecOn generalizing b with
  | ind k ih =>
    subst hk
    intro hok n
    by_cases hn : n < 4
    · have : (recordReader (b.take n)).1 = [] := by
        rw [recordReader_short]
        simp only [List.length_take]
        omega
      rw [this]
      exact Or.inl (List.nil_prefix)
    · match b, ih, hok with
      | [], _, _ => simp only [List.take_nil]; exact Or.inl (List.prefix_rfl)
      | [_], _, _ => rw [List.take_of_length_le (by simp; omega)]; exact Or.inl (List.prefix_rfl)
      | [_, _], _, _ => rw [List.take_of_length_le (by simp; omega)]; exact Or.inl (List.prefix_rfl)
      | [_, _, _], _, _ => rw [List.take_of_length_le (by simp; omega)]; exact Or.inl (List.prefix_rfl)
      | x :: y :: z :: w :: s, ih, hok =>
        obtain ⟨m, rfl⟩ : ∃ m, n = m + 4 := ⟨n - 4, by omega⟩
        have htake : (x :: y :: z :: w :: s).take (m + 4) = x :: y :: z :: w :: s.take m := by
          simp [List.take_succ_cons]
        rw [htake]
        cases hp : readPayload (rd16 x y) (rd16 z w &&& 0x00FF) s with
        | error e =>
          rw [recordReader_error hp] at hok
          simp at hok
        | ok q =>
          obtain ⟨d, r⟩ := q
          have hlen := readPayload_length hp
          simp only at hlen
          rw [recordReader_ok hp] at hok ⊢
          simp only at hok
          rcases readPayload_take m hp with ⟨m', h'⟩ | ⟨e, h'⟩ | ⟨t, t', rfl, ht, h'⟩
          · rw [recordReader_ok h']
            simp only
            rcases ih r.length (by simp only [List.length_cons]; omega) r rfl hok m' with h | h
            · exact Or.inl (List.cons_prefix_cons.2 ⟨rfl, h⟩)
            · obtain ⟨init, tt, ss, ss', h1, h2, h3⟩ := h
              refine Or.inr ⟨⟨rd16 z w / 256, d⟩ :: init, tt, ss, ss', ?_, ?_, h3⟩
              · rw [h1]
                rfl
              · exact List.cons_prefix_cons.2 ⟨rfl, h2⟩
          · rw [recordReader_error h']
            exact Or.inl List.nil_prefix
          · rw [recordReader_ok h']
            refine Or.inr ⟨[], rd16 z w / 256, t, t', ?_, ?_, ht⟩
            · rw [recordReader.eq_def]
              rfl
            · exact List.cons_prefix_cons.2 ⟨rfl, List.nil_prefix⟩

/-! ### Parts of libraries -/

theorem refPart_refl (r : Ref) : RefPart r r := Or.inl rfl

theorem refPart_trans {r s t : Ref} (h1 : RefPart r s) (h2 : RefPart s t) : RefPart r t := by
  rcases h1 with rfl | ⟨n, hn, rfl⟩
  · exact h2
  · rcases h2 with rfl | ⟨m, hm, rfl⟩
    · exact Or.inr ⟨n, hn, rfl⟩
    · simp at hm

theorem forall₂_prefix_trans {α : Type} {R : α → α → Prop}
    (ht : ∀ a b c, R a b → R b c → R a c) {a b c : List α}
    (h1 : ∃ l, List.Forall₂ R a l ∧ l <+: b) (h2 : ∃ l, List.Forall₂ R b l ∧ l <+: c) :
    ∃ l, List.Forall₂ R a l ∧ l <+: c := by
  obtain ⟨l, hl, x, hx⟩ := h1
  obtain ⟨m, hm, y, hy⟩ := h2
  subst hx
  obtain ⟨m1, m2, h1, h2, rfl⟩ : ∃ m1 m2, List.Forall₂ R l m1 ∧ List.Forall₂ R x m2 ∧ m = m1 ++ m2 := by
    refine ⟨m.take l.length, m.drop l.length, ?_, ?_, (List.take_append_drop _ _).symm⟩
    · exact (List.forall₂_take_append m l x hm.flip).flip
    · exact (List.forall₂_drop_append m l x hm.flip).flip
  refine ⟨m1, ?_, ⟨m2 ++ y, by rw [← hy, List.append_assoc]⟩⟩
  have : ∀ {a l m1 : List α}, List.Forall₂ R a l → List.Forall₂ R l m1 → List.Forall₂ R a m1 := by
    intro a l m1 h
    induction h generalizing m1 with
    | nil => intro h; exact h
    | cons hab _ ih =>
      intro h
      cases h with
      | cons hbc h => exact List.Forall₂.cons (ht _ _ _ hab hbc) (ih h)
  exact this hl h1

theorem cellPart_refl (c : Cell) : CellPart c c :=
  ⟨rfl, List.prefix_rfl, List.prefix_rfl, List.prefix_rfl,
    c.references, List.forall₂_same.2 fun _ _ => refPart_refl _, List.prefix_rfl⟩

theorem cellPart_trans {c d e : Cell} (h1 : CellPart c d) (h2 : CellPart d e) : CellPart c e :=
  ⟨h1.1.trans h2.1, h1.2.1.trans h2.2.1, h1.2.2.1.trans h2.2.2.1, h1.2.2.2.1.trans h2.2.2.2.1,
    forall₂_prefix_trans (R := RefPart) (fun _ _ _ h h' => refPart_trans h h') h1.2.2.2.2 h2.2.2.2.2⟩

theorem cellsPart_refl (c : List Cell) : CellsPart c c :=
  ⟨c, List.forall₂_same.2 fun _ _ => cellPart_refl _, List.prefix_rfl⟩

theorem cellsPart_trans {c d e : List Cell} (h1 : CellsPart c d) (h2 : CellsPart d e) : CellsPart c e :=
  forall₂_prefix_trans (R := CellPart) (fun _ _ _ h h' => cellPart_trans h h') h1 h2

theorem cellsPart_map (cs : List Cell) (f : Cell → Cell) (h : ∀ c, CellPart c (f c)) :
    CellsPart cs (cs.map f) := by
  refine ⟨cs.map f, ?_, List.prefix_rfl⟩
  induction cs with
  | nil => exact List.Forall₂.nil
  | cons c cs ih => exact List.Forall₂.cons (h c) ih

theorem cell_add_part (c : Cell) (e : El) : CellPart c (c.add e) := by
  obtain ⟨h1, h2, h3, h4, h5⟩ := cellPart_refl c
  cases e with
  | polygon s => exact ⟨h1, List.prefix_append _ _, h3, h4, h5⟩
  | path p => exact ⟨h1, h2, List.prefix_append _ _, h4, h5⟩
  | label b => exact ⟨h1, h2, h3, List.prefix_append _ _, h5⟩
  | ref r =>
    exact ⟨h1, h2, h3, h4, c.references, List.forall₂_same.2 fun _ _ => refPart_refl _,
      List.prefix_append _ _⟩

theorem updateCell_part (cs : List Cell) (name : Str) (e : El) :
    CellsPart cs (updateCell cs name (·.add e)) := by
  unfold updateCell
  refine cellsPart_map cs _ fun c => ?_
  split
  · exact cell_add_part c e
  · exact cellPart_refl c

theorem resolveRefs_part (created : List Str) (cs : List Cell) :
    CellsPart cs (resolveRefs created cs) := by
  unfold resolveRefs
  refine cellsPart_map cs _ fun c => ?_
  split
  · obtain ⟨h1, h2, h3, h4, -⟩ := cellPart_refl c
    refine ⟨h1, h2, h3, h4, _, ?_, List.prefix_rfl⟩
    generalize c.references = l
    induction l with
    | nil => exact List.Forall₂.nil
    | cons r l ih =>
      refine List.Forall₂.cons ?_ ih
      show RefPart r (match r.target with
        | .name s => if s ∈ _ then { r with target := .cell s } else r
        | .cell _ => r)
      cases ht : r.target with
      | name s =>
        simp only
        split
        · exact Or.inr ⟨s, ht, rfl⟩
        · exact Or.inl rfl
      | cell s => exact Or.inl rfl
  · exact cellPart_refl c

variable {div : ℚ → ℚ → ℚ} {trig : ℚ → ℚ × ℚ} {a : ReadArgs}

/-- The cells after one record, apart from the ones that have an effect on cells. -/
theorem readStep_cells {st st' : ReadState} {r : Record} (h : readStep div trig a st r = .ok st')
    (h11 : r.type ≠ 0x11) (h06 : r.type ≠ 0x06) (h04 : r.type ≠ 0x04) : st'.lib.cells = st.lib.cells := by
  by_cases hq : Quiet r
  · exact (quiet_step hq h).2.2.1
  · unfold Quiet at hq
    rw [not_not] at hq
    obtain ⟨t, d⟩ := r
    simp only [List.mem_cons, List.not_mem_nil, or_false] at hq h11 h06 h04
    rcases hq with rfl | rfl | rfl | rfl | rfl | rfl | rfl | rfl | rfl | rfl | rfl | rfl
    all_goals first
      | exact absurd rfl h11
      | exact absurd rfl h06
      | exact absurd rfl h04
      | (obtain rfl := Except.ok.inj h; rfl)
      | (obtain ⟨n, -, h⟩ := bind_ok_inv (show _ >>= _ = _ from h); obtain rfl := Except.ok.inj h; rfl)

/-- ENDEL with any data. -/
theorem readStep_endel (st : ReadState) (d : Data) :
    readStep div trig a st ⟨0x11, d⟩ = readStep div trig a st ⟨0x11, .none⟩ := rfl

/-- ENDLIB with any data. -/
theorem readStep_endlib (st : ReadState) (d : Data) :
    readStep div trig a st ⟨0x04, d⟩
      = .ok { st with lib := { st.lib with cells := resolveRefs st.created st.lib.cells } } := rfl

/-- STRNAME. -/
theorem readStep_strname {st st' : ReadState} {d : Data}
    (h : readStep div trig a st ⟨0x06, d⟩ = .ok st') :
    ∃ s, d.text = .ok s ∧ st'.lib.cells = st.lib.cells ++ [⟨a.rename s, [], [], [], []⟩] := by
  obtain ⟨s, hs, h⟩ := bind_ok_inv (show d.text >>= _ = _ from h)
  refine ⟨s, hs, ?_⟩
  simp only at h
  split at h
  · cases h
  · obtain rfl := Except.ok.inj h
    rfl

/-- One record only adds elements and cells and replaces names by cells. -/
theorem readStep_part {st st' : ReadState} {r : Record} (h : readStep div trig a st r = .ok st') :
    CellsPart st.lib.cells st'.lib.cells := by
  by_cases h11 : r.type = 0x11
  · obtain ⟨t, d⟩ := r
    simp only at h11
    subst h11
    change (match st.create with
      | none => pure { st with kwargs := {} }
      | some c => _) = _ at h
    split at h
    · obtain rfl := Except.ok.inj h
      exact cellsPart_refl _
    · obtain ⟨el, -, h⟩ := bind_ok_inv h
      simp only at h
      split at h
      · cases h
      · obtain rfl := Except.ok.inj h
        exact updateCell_part _ _ _
  · by_cases h06 : r.type = 0x06
    · obtain ⟨t, d⟩ := r
      simp only at h06
      subst h06
      obtain ⟨s, -, hs⟩ := readStep_strname h
      rw [hs]
      exact ⟨_, List.forall₂_same.2 fun _ _ => cellPart_refl _, List.prefix_append _ _⟩
    · by_cases h04 : r.type = 0x04
      · obtain ⟨t, d⟩ := r
        simp only at h04
        subst h04
        rw [readStep_endlib] at h
        obtain rfl := Except.ok.inj h
        exact resolveRefs_part _ _
      · rw [readStep_cells h h11 h06 h04]
        exact cellsPart_refl _

theorem readRecords_part : ∀ (rs : List Record) (st : ReadState),
    CellsPart st.lib.cells (readRecords div trig a st rs).1.lib.cells
  | [], st => cellsPart_refl _
  | r :: rs, st => by
    unfold readRecords
    split
    · rename_i st' h
      exact cellsPart_trans (readStep_part h) (readRecords_part rs st')
    · exact cellsPart_refl _

theorem readRecords_append (rs rs' : List Record) : ∀ (st : ReadState),
    readRecords div trig a st (rs ++ rs') = match readRecords div trig a st rs with
      | (st', none) => readRecords div trig a st' rs'
      | (st', some e) => (st', some e) := by
  induction rs with
  | nil => intro st; rfl
  | cons r rs ih =>
    intro st
    rw [List.cons_append, readRecords, readRecords]
    cases readStep div trig a st r with
    | ok st' => exact ih st'
    | error e => rfl

/-- A beginning of a sequence of records that can be read can be read. -/
theorem readRecords_prefix {rs rs' : List Record} {st w : ReadState}
    (h : readRecords div trig a st (rs ++ rs') = (w, none)) :
    ∃ st', readRecords div trig a st rs = (st', none) ∧ readRecords div trig a st' rs' = (w, none) := by
  rw [readRecords_append] at h
  rcases hr : readRecords div trig a st rs with ⟨st', _ | e⟩
  · rw [hr] at h
    exact ⟨st', rfl, h⟩
  · rw [hr] at h
    simp at h

theorem readGds_ok {lib w : Lib} {b : Bytes} (h : readGds div trig a lib b = (w, none)) :
    (recordReader b).2 = none ∧ ∃ st, readRecords div trig a { lib := lib } (recordReader b).1 = (st, none) ∧
      st.lib = w := by
  unfold readGds at h
  simp only at h
  rcases hr : readRecords div trig a { lib := lib } (recordReader b).1 with ⟨st, _ | e⟩
  · rw [hr] at h
    simp only [Prod.mk.injEq] at h
    exact ⟨h.2, st, rfl, h.1⟩
  · rw [hr] at h
    simp at h

theorem readGds_lib (lib : Lib) (b : Bytes) : (readGds div trig a lib b).1
    = (readRecords div trig a { lib := lib } (recordReader b).1).1.lib := by
  unfold readGds
  simp only
  rcases readRecords div trig a { lib := lib } (recordReader b).1 with ⟨st, _ | e⟩ <;> rfl

/-- **C85.** For every file that can be read and every place where it is cut: the cells read from the
cut file are the first ones of the whole file, with the first ones of their elements (references
may still be names); except that the last cell, if it has no elements, may have a name that was
cut short. Whether or not an exception is raised. -/
theorem C85_cut_partial {lib w : Lib} {b : Bytes} (h : readGds div trig a lib b = (w, none)) (n : Nat) :
    CellsPart (readGds div trig a lib (b.take n)).1.cells w.cells ∨
    ∃ cs s s', s' <+: s ∧
      (readGds div trig a lib (b.take n)).1.cells = cs ++ [⟨a.nameMap s', [], [], [], []⟩] ∧
      CellsPart (cs ++ [⟨a.nameMap s, [], [], [], []⟩]) w.cells := by
  obtain ⟨hrec, stw, hread, rfl⟩ := readGds_ok h
  rw [readGds_lib]
  rcases C85_records b hrec n with ⟨rest, hrest⟩ | ⟨init, t, s, s', h1, ⟨rest, hrest⟩, hp⟩
  · left
    rw [← hrest] at hread
    obtain ⟨st', hr1, hr2⟩ := readRecords_prefix hread
    rw [hr1]
    have := readRecords_part (div := div) (trig := trig) (a := a) rest st'
    rw [hr2] at this
    exact this
  · rw [← hrest, List.append_assoc] at hread
    obtain ⟨st1, hr1, hr2⟩ := readRecords_prefix hread
    obtain ⟨st2, hr3, hr4⟩ := readRecords_prefix hr2
    have hpart : CellsPart st2.lib.cells stw.lib.cells := by
      have := readRecords_part (div := div) (trig := trig) (a := a) rest st2
      rw [hr4] at this
      exact this
    have hstep2 : readStep div trig a st1 ⟨t, .str s⟩ = .ok st2 := by
      unfold readRecords at hr3
      cases hs : readStep div trig a st1 ⟨t, .str s⟩ with
      | error e => rw [hs] at hr3; simp at hr3
      | ok st =>
        rw [hs] at hr3
        simp only [readRecords, Prod.mk.injEq] at hr3
        rw [hr3.1]
    rw [h1, readRecords_append, hr1]
    simp only
    unfold readRecords
    cases hs : readStep div trig a st1 ⟨t, .str s'⟩ with
    | error e =>
      left
      exact cellsPart_trans (readStep_part hstep2) hpart
    | ok st3 =>
      simp only [readRecords]
      by_cases h06 : t = 0x06
      · right
        subst h06
        obtain ⟨x, hx, hc⟩ := readStep_strname hs
        obtain ⟨y, hy, hd⟩ := readStep_strname hstep2
        simp only [Data.text, Except.ok.injEq] at hx hy
        subst hx hy
        refine ⟨st1.lib.cells, s, s', hp, hc, ?_⟩
        rw [hd] at hpart
        exact hpart
      · left
        have : st3.lib.cells = st2.lib.cells := by
          by_cases h11 : t = 0x11
          · subst h11
            rw [readStep_endel] at hs hstep2
            rw [hs] at hstep2
            rw [Except.ok.inj hstep2]
          · by_cases h04 : t = 0x04
            · subst h04
              rw [readStep_endlib] at hs hstep2
              rw [← Except.ok.inj hs, ← Except.ok.inj hstep2]
            · rw [readStep_cells hs h11 h06 h04, readStep_cells hstep2 h11 h06 h04]
        rw [this]
        exact hpart

/-- **C85 (violated).** A file that was cut is not recognised: every beginning of the records of a file
that can be read is what is read, without an exception, from the file cut at some place. -/
theorem C85_unnoticed {lib w : Lib} {b : Bytes} (h : readGds div trig a lib b = (w, none)) (k : Nat) :
    ∃ n, recordReader (b.take n) = ((recordReader b).1.take k, none) ∧
      (readGds div trig a lib (b.take n)).2 = none := by
  obtain ⟨hrec, stw, hread, rfl⟩ := readGds_ok h
  have key : ∀ (k : Nat) (b : Bytes), (recordReader b).2 = none →
      ∃ n, recordReader (b.take n) = ((recordReader b).1.take k, none) := by
    intro k
    induction k with
    | zero =>
      intro b _
      refine ⟨0, ?_⟩
      rw [List.take_zero, List.take_zero, recordReader.eq_def]
    | succ k ih =>
      intro b hb
      match b, hb with
      | [], _ => exact ⟨0, by rw [recordReader_short (by simp), recordReader_short (by simp)]; rfl⟩
      | [_], _ => exact ⟨0, by rw [recordReader_short (by simp), recordReader_short (by simp)]; rfl⟩
      | [_, _], _ => exact ⟨0, by rw [recordReader_short (by simp), recordReader_short (by simp)]; rfl⟩
      | [_, _, _], _ => exact ⟨0, by rw [recordReader_short (by simp), recordReader_short (by simp)]; rfl⟩
      | x :: y :: z :: w :: s, hb =>
        cases hp : readPayload (rd16 x y) (rd16 z w &&& 0x00FF) s with
        | error e =>
          rw [recordReader_error hp] at hb
          simp at hb
        | ok q =>
          obtain ⟨d, r⟩ := q
          rw [recordReader_ok hp] at hb
          obtain ⟨n, hn⟩ := ih r hb
          obtain ⟨m, hm⟩ := readPayload_exact hp n
          refine ⟨m + 4, ?_⟩
          have htake : (x :: y :: z :: w :: s).take (m + 4) = x :: y :: z :: w :: s.take m := by
            simp [List.take_succ_cons]
          rw [htake, recordReader_ok hm, recordReader_ok hp, hn]
          rfl
  obtain ⟨n, hn⟩ := key k b hrec
  refine ⟨n, hn, ?_⟩
  rw [← List.take_append_drop k (recordReader b).1] at hread
  obtain ⟨st', h1, -⟩ := readRecords_prefix hread
  unfold readGds
  rw [hn]
  simp only [h1]

/-- The records of a stream of well-formed records followed by anything. -/
theorem recordReader_frames (l : List (Frame × Data)) (garbage : Bytes)
    (h : ∀ p ∈ l, p.1.Fits ∧ Encodes p.2 p.1.dt p.1.payload) :
    recordReader (streamBytes (l.map Prod.fst) ++ garbage)
      = ((l.map fun p => (⟨p.1.type, p.2⟩ : Record)) ++ (recordReader garbage).1,
          (recordReader garbage).2) := by
  induction l with
  | nil => rfl
  | cons p l ih =>
    obtain ⟨h1, h2⟩ := h p List.mem_cons_self
    rw [List.map_cons, streamBytes_cons, List.append_assoc, recordReader_frame p.1 h1 h2]
    simp only [List.map_cons, List.cons_append, ih (fun q hq => h q (List.mem_cons_of_mem _ hq))]

theorem readText_plain {u : Str} (hu : u ≠ []) (h : ∀ c ∈ u, c.toNat < 128 ∧ c.toNat ≠ 0) :
    readText (u.map fun c => UInt8.ofNat c.toNat) = .ok u := by
  unfold readText
  rw [List.getLast?_map, List.getLast?_eq_some_getLast hu]
  have hx := h _ (List.getLast_mem hu)
  have hne : UInt8.ofNat (u.getLast hu).toNat ≠ 0 := by
    intro hcon
    have := congrArg UInt8.toNat hcon
    rw [ofNat_toNat8, Nat.mod_eq_of_lt (by omega)] at this
    exact hx.2 this
  simp only [Option.map_some, if_neg hne]
  exact decodeAscii_map fun c hc => (h c hc).1

/-- **C85 (violated).** A file that is cut inside of the name of a cell: if `u` is the beginning of
the name and the library has no cell of this name, it gets one, although there is none in the file,
and no exception is raised. -/
theorem C85_cut_name (l : List (Frame × Data)) (hl : ∀ p ∈ l, p.1.Fits ∧ Encodes p.2 p.1.dt p.1.payload)
    (u v : Str) (hu : u ≠ []) (hlen : (u ++ v).length < 65532)
    (hascii : ∀ c ∈ u ++ v, c.toNat < 128 ∧ c.toNat ≠ 0) (rest : Bytes) (lib : Lib) (st : ReadState)
    (hread : readRecords div trig a { lib := lib } (l.map fun p => ⟨p.1.type, p.2⟩) = (st, none))
    (hnew : a.nameMap u ∉ st.lib.cells.map Cell.name) :
    ∃ n, (readGds div trig a lib ((streamBytes (l.map Prod.fst) ++
        Frame.bytes ⟨6, 6, (u ++ v).map fun c => UInt8.ofNat c.toNat⟩ ++ rest).take n))
      = ({ st.lib with cells := st.lib.cells ++ [⟨a.nameMap u, [], [], [], []⟩] }, none) := by
  set f : Frame := ⟨6, 6, (u ++ v).map fun c => UInt8.ofNat c.toNat⟩ with hf
  have hfits : f.Fits := ⟨by norm_num, by norm_num, by rw [hf]; simp only [List.length_map]; omega⟩
  set hd : Bytes := be16 (4 + f.payload.length) ++ be16 (f.type * 256 + f.dt) with hhd
  set ub : Bytes := u.map fun c => UInt8.ofNat c.toNat with hub
  refine ⟨(streamBytes (l.map Prod.fst) ++ (hd ++ ub)).length, ?_⟩
  have hcut : (streamBytes (l.map Prod.fst) ++ f.bytes ++ rest).take
      (streamBytes (l.map Prod.fst) ++ (hd ++ ub)).length = streamBytes (l.map Prod.fst) ++ (hd ++ ub) := by
    have : streamBytes (l.map Prod.fst) ++ f.bytes ++ rest
        = (streamBytes (l.map Prod.fst) ++ (hd ++ ub)) ++ ((v.map fun c => UInt8.ofNat c.toNat) ++ rest) := by
      rw [frame_bytes f hfits]
      simp only [hf, hhd, hub, List.map_append, List.append_assoc]
    rw [this, List.take_left']
    rfl
  rw [hcut]
  have hpay : readPayload (4 + f.payload.length) ((f.type * 256 + f.dt) % 256) ub = .ok (.str u, []) := by
    have hle : ub.length ≤ f.payload.length := by simp [hf, hub]
    have hpos : 0 < u.length := List.length_pos_of_ne_nil hu
    have hub' : ub.length = u.length := by simp [hub]
    unfold readPayload
    rw [if_pos (by omega)]
    have ht : (f.type * 256 + f.dt) % 256 = 6 := by simp [hf]
    simp only [Nat.add_sub_cancel_left, List.take_of_length_le hle, List.drop_eq_nil_of_le hle, ht]
    norm_num
    rw [hub, readText_plain hu fun c hc => hascii c (List.mem_append_left _ hc)]
    rfl
  have hgar : recordReader (hd ++ ub) = ([⟨6, .str u⟩], none) := by
    rw [recordReader_step hfits.2.2 (by simp [hf]) hpay, recordReader_short (b := []) (by simp)]
    simp [hf]
  unfold readGds
  rw [recordReader_frames l _ hl, hgar]
  simp only
  rw [readRecords_append, hread]
  have hstep : readStep div trig a st ⟨6, .str u⟩ = .ok { st with
      lib := { st.lib with cells := st.lib.cells ++ [⟨a.nameMap u, [], [], [], []⟩] }
      cell := some (a.nameMap u)
      created := a.nameMap u :: st.created } := by
    show (if a.nameMap u ∈ st.lib.cells.map Cell.name then _ else _) = _
    rw [if_neg hnew]
    rfl
  simp only [readRecords, hstep]

/-- **C85.** Null bytes behind the last record, with which tapes and some programs fill up their
blocks, have no effect on `read_gds`. -/
theorem C85_padding (l : List (Frame × Data)) (hl : ∀ p ∈ l, p.1.Fits ∧ Encodes p.2 p.1.dt p.1.payload)
    (lib : Lib) (k : Nat) :
    readGds div trig a lib (streamBytes (l.map Prod.fst) ++ List.replicate k 0)
      = readGds div trig a lib (streamBytes (l.map Prod.fst)) := by
  have hz : ∀ k, recordReader (List.replicate k 0) = (List.replicate (k / 4) ⟨0, .none⟩, none) := by
    intro k
    induction k using Nat.strongRecOn with
    | ind k ih =>
      by_cases hk : k < 4
      · rw [recordReader_short (by simpa using hk), Nat.div_eq_of_lt hk]
        rfl
      · obtain ⟨m, rfl⟩ : ∃ m, k = m + 4 := ⟨k - 4, by omega⟩
        have hp : readPayload (rd16 0 0) (rd16 0 0 &&& 0x00FF) (List.replicate m 0)
            = .ok (.none, List.replicate m 0) := by
          unfold readPayload
          rw [if_neg (by decide)]
        have : List.replicate (m + 4) (0 : UInt8) = 0 :: 0 :: 0 :: 0 :: List.replicate m 0 := rfl
        rw [this, recordReader_ok hp, ih m (by omega), Nat.add_div_right _ (by norm_num),
          List.replicate_succ]
        rfl
  have hq : ∀ (j : Nat) (st : ReadState),
      readRecords div trig a st (List.replicate j ⟨0, .none⟩) = (st, none) := by
    intro j
    induction j with
    | zero => intro st; rfl
    | succ j ih =>
      intro st
      rw [List.replicate_succ, readRecords]
      exact ih st
  have h0 := recordReader_frames l [] hl
  rw [List.append_nil, recordReader_short (b := []) (by simp), List.append_nil] at h0
  unfold readGds
  rw [recordReader_frames l _ hl, h0, hz]
  simp only
  rw [readRecords_append]
  generalize readRecords div trig a { lib := lib } _ = q
  obtain ⟨st, _ | e⟩ := q
  · simp only [hq]
  · rfl

theorem readReals_len : ∀ {k : Nat} {s : Bytes} {x : List ℚ × Bytes}, readReals k s = .ok x →
    8 * k ≤ s.length := by
  intro k
  induction k with
  | zero => intro s x _; omega
  | succ k ih =>
    intro s x h
    obtain ⟨y, hy, h⟩ := bind_ok_inv (show eightByteRealToFloat (s.take 8) >>= _ = _ from h)
    obtain ⟨z, hz, -⟩ := bind_ok_inv h
    have h1 := real_len hy
    have h2 := ih hz
    simp only [List.length_take, List.length_drop] at h1 h2
    omega

/-- **C85.** A cut inside of the numbers of a record is noticed: an exception is raised. -/
theorem C85_noticed (l : List (Frame × Data)) (hl : ∀ p ∈ l, p.1.Fits ∧ Encodes p.2 p.1.dt p.1.payload)
    (f : Frame) (d : Data) (hf : f.Fits) (hd : Encodes d f.dt f.payload)
    (hdt : f.dt = 1 ∨ f.dt = 2 ∨ f.dt = 3 ∨ f.dt = 5) (m : Nat) (hm4 : 4 ≤ m) (hm : m < f.bytes.length)
    (rest : Bytes) (lib : Lib) :
    (readGds div trig a lib ((streamBytes (l.map Prod.fst) ++ (f.bytes ++ rest)).take
      ((streamBytes (l.map Prod.fst)).length + m))).2 ≠ none := by
  have hcut : (streamBytes (l.map Prod.fst) ++ (f.bytes ++ rest)).take
      ((streamBytes (l.map Prod.fst)).length + m) = streamBytes (l.map Prod.fst) ++
      (be16 (4 + f.payload.length) ++ be16 (f.type * 256 + f.dt) ++ f.payload.take (m - 4)) := by
    rw [List.take_append, List.take_of_length_le (by omega), Nat.add_sub_cancel_left,
      List.take_append_of_le_length (by omega), frame_bytes f hf, List.take_append,
      List.take_of_length_le (by simp [be16]; omega)]
    congr 1
  have hlen : f.bytes.length = 4 + f.payload.length := by
    rw [frame_bytes f hf]
    simp only [List.length_append, be16, List.length_cons, List.length_nil]
  have hmod : (f.type * 256 + f.dt) % 256 = f.dt := by
    have := hf.2.1
    omega
  -- the data cannot be read
  have hpay : ∀ x, readPayload (4 + f.payload.length) f.dt (f.payload.take (m - 4)) ≠ .ok x := by
    intro x hx
    have hlt : (f.payload.take (m - 4)).length < f.payload.length := by
      simp only [List.length_take]
      omega
    have htk : (f.payload.take (m - 4)).take f.payload.length = f.payload.take (m - 4) :=
      List.take_of_length_le (by omega)
    unfold readPayload at hx
    rw [if_pos (by omega)] at hx
    simp only [Nat.add_sub_cancel_left, htk] at hx
    obtain ⟨ft, fdt, fp⟩ := f
    simp only at *
    cases hd with
    | none => simp at hlt
    | words q h0 h =>
      have hl' : (q.flatMap (bigEndian 2)).length = q.length * 2 :=
        flatMap_length_const _ _ _ (fun a _ => by rw [bigEndian_two]; rfl)
      obtain ⟨y, hy, -⟩ := bind_ok_inv hx
      have := unpackHs_len hy
      omega
    | shorts q h0 h =>
      have hl' : (q.flatMap (twosComplement 2)).length = q.length * 2 :=
        flatMap_length_const _ _ _ (fun a _ => by rw [twosComplement_two]; rfl)
      obtain ⟨y, hy, -⟩ := bind_ok_inv hx
      have := unpackHs_len hy
      omega
    | longs q h0 h =>
      have hl' : (q.flatMap (twosComplement 4)).length = q.length * 4 :=
        flatMap_length_const _ _ _ (fun a _ => by rw [twosComplement_four]; rfl)
      obtain ⟨y, hy, -⟩ := bind_ok_inv hx
      have := unpackls_len hy
      omega
    | reals bs h0 h =>
      have hl' : bs.flatten.length = bs.length * 8 := by
        rw [← List.flatMap_id]; exact flatMap_length_const bs id 8 h
      obtain ⟨y, hy, -⟩ := bind_ok_inv hx
      have := readReals_len hy
      omega
    | textPlain t x dt hdt' h hx =>
      obtain ⟨h1, h2, h3, h5⟩ := hdt'
      omega
    | textNul t dt hdt' h =>
      obtain ⟨h1, h2, h3, h5⟩ := hdt'
      omega
  have hgar : (recordReader (be16 (4 + f.payload.length) ++ be16 (f.type * 256 + f.dt)
      ++ f.payload.take (m - 4))).2 ≠ none := by
    simp only [be16, List.cons_append, List.nil_append]
    cases hp : readPayload (4 + f.payload.length) f.dt (f.payload.take (m - 4)) with
    | ok x => exact absurd hp (hpay x)
    | error e =>
      have htag : f.type * 256 + f.dt < 65536 := by
        have := hf.1
        have := hf.2.1
        omega
      have := recordReader_error (x := UInt8.ofNat ((4 + f.payload.length) / 256))
        (y := UInt8.ofNat (4 + f.payload.length)) (z := UInt8.ofNat ((f.type * 256 + f.dt) / 256))
        (w := UInt8.ofNat (f.type * 256 + f.dt)) (u := f.payload.take (m - 4)) (e := e)
        (by rw [rd16_be16 hf.2.2, rd16_be16 htag, and_FF, hmod]; exact hp)
      rw [this]
      simp
  rw [hcut]
  unfold readGds
  rw [recordReader_frames l _ hl]
  simp only
  generalize readRecords div trig a { lib := lib } _ = q
  obtain ⟨st, _ | e⟩ := q
  · exact hgar
  · simp

/-- References made by `read_gds` hold names. -/
theorem createElement_ref {c : Create} {kw : Kwargs} {r : Ref}
    (h : createElement trig c kw = .ok (.ref r)) : ∃ n, r.target = .name n := by
  cases c with
  | polygon =>
    simp only [createElement, createPolygon] at h
    repeat' split at h
    all_goals cases h
  | path =>
    simp only [createElement, createPath] at h
    repeat' split at h
    all_goals cases h
  | label =>
    simp only [createElement, createLabel] at h
    repeat' split at h
    all_goals cases h
  | reference =>
    simp only [createElement, createReference] at h
    repeat' split at h
    all_goals first
      | (cases h; done)
      | (cases h; exact ⟨_, rfl⟩)
  | array =>
    simp only [createElement, createArray] at h
    repeat' split at h
    all_goals first
      | (cases h; done)
      | (cases h; exact ⟨_, rfl⟩)

/-- **C85 (violated).** In the cells read from a file that was cut before its ENDLIB record, all
references hold names and not cells: nothing that they refer to is drawn, measured or listed. -/
theorem C85_unlinked {lib : Lib} {b : Bytes} (hno : ∀ r ∈ (recordReader b).1, r.type ≠ 0x04) :
    ∀ c ∈ (readGds div trig a lib b).1.cells, c.name ∉ lib.cells.map Cell.name →
      ∀ r ∈ c.references, ∃ n, r.target = .name n := by
  rw [readGds_lib]
  have key : ∀ (rs : List Record) (st : ReadState), (∀ r ∈ rs, r.type ≠ 0x04) →
      (∀ c ∈ st.lib.cells, c.name ∉ lib.cells.map Cell.name → ∀ r ∈ c.references, ∃ n, r.target = .name n) →
      ∀ c ∈ (readRecords div trig a st rs).1.lib.cells, c.name ∉ lib.cells.map Cell.name →
        ∀ r ∈ c.references, ∃ n, r.target = .name n := by
    intro rs
    induction rs with
    | nil => intro st _ h; exact h
    | cons r rs ih =>
      intro st hno hst
      rw [readRecords]
      cases hs : readStep div trig a st r with
      | error e => exact hst
      | ok st' =>
        refine ih st' (fun x hx => hno x (List.mem_cons_of_mem _ hx)) ?_
        have h04 := hno r List.mem_cons_self
        by_cases h11 : r.type = 0x11
        · obtain ⟨t, d⟩ := r
          simp only at h11
          subst h11
          change (match st.create with
            | none => pure { st with kwargs := {} }
            | some c => _) = _ at hs
          split at hs
          · obtain rfl := Except.ok.inj hs
            exact hst
          · obtain ⟨el, hel, hs⟩ := bind_ok_inv hs
            simp only at hs
            split at hs
            · cases hs
            · obtain rfl := Except.ok.inj hs
              intro c hc hcn x hx
              simp only [updateCell] at hc
              obtain ⟨c0, hc0, rfl⟩ := List.mem_map.1 hc
              split at hx
              · rename_i hname
                rw [if_pos hname] at hcn
                have hadd : ∀ e : El, (∀ q, e = .ref q → ∃ n, q.target = .name n) →
                    (c0.add e).name ∉ lib.cells.map Cell.name →
                    ∀ x ∈ (c0.add e).references, ∃ n, x.target = .name n := by
                  intro e he hn x hx
                  cases e with
                  | polygon _ => exact hst c0 hc0 hn x hx
                  | path _ => exact hst c0 hc0 hn x hx
                  | label _ => exact hst c0 hc0 hn x hx
                  | ref q =>
                    rcases List.mem_append.1 hx with hx | hx
                    · exact hst c0 hc0 hn x hx
                    · rw [List.mem_singleton] at hx
                      subst hx
                      exact he _ rfl
                refine hadd _ ?_ hcn x hx
                intro q hq
                split at hq
                · cases el with
                  | ref q0 =>
                    cases hq
                    exact createElement_ref (r := q0) hel
                  | _ => cases hq
                · subst hq
                  exact createElement_ref hel
              · rename_i hname
                rw [if_neg hname] at hcn
                exact hst c0 hc0 hcn x hx
        · by_cases h06 : r.type = 0x06
          · obtain ⟨t, d⟩ := r
            simp only at h06
            subst h06
            obtain ⟨s, -, hc⟩ := readStep_strname hs
            rw [hc]
            intro c hc hcn x hx
            rcases List.mem_append.1 hc with hc | hc
            · exact hst c hc hcn x hx
            · rw [List.mem_singleton] at hc
              subst hc
              simp at hx
          · rw [readStep_cells hs h11 h06 h04]
            exact hst
  refine key _ _ hno ?_
  intro c hc hcn
  exact absurd (List.mem_map_of_mem hc) hcn

/-- A file with the cell TOP, cut behind the second letter of the name. -/
def topFile : Bytes := streamBytes [⟨6, 6, [84, 79, 80, 0]⟩, ⟨7, 0, []⟩, ⟨4, 0, []⟩]

def plainArgs : ReadArgs := ⟨.skip, id, fun _ => none, fun _ => none, fun _ => none⟩

example : readGds (fun x y => x / y) (fun _ => (1, 0)) plainArgs ⟨none, 1, 1, []⟩ topFile
    = (⟨none, 1, 1, [⟨['T', 'O', 'P'], [], [], [], []⟩]⟩, none) := by
  have h := recordReader_frames [(⟨6, 6, [84, 79, 80, 0]⟩, .str ['T', 'O', 'P']), (⟨7, 0, []⟩, .none),
    (⟨4, 0, []⟩, .none)] [] (by
      intro p hp
      simp only [List.mem_cons, List.not_mem_nil, or_false] at hp
      rcases hp with rfl | rfl | rfl
      · exact ⟨by simp [Frame.Fits], Encodes.textNul ['T', 'O', 'P'] 6 (by decide) (by decide)⟩
      · exact ⟨by simp [Frame.Fits], Encodes.none 0⟩
      · exact ⟨by simp [Frame.Fits], Encodes.none 0⟩)
  rw [List.append_nil, recordReader_short (b := []) (by simp)] at h
  unfold readGds topFile
  simp only [List.map_cons, List.map_nil] at h
  rw [h]
  rfl

example : recordReader (topFile.take 6) = ([⟨6, .str ['T', 'O']⟩], none) := by
  have : topFile.take 6 = 0 :: 8 :: 6 :: 6 :: [84, 79] := by decide +kernel
  have hp : readPayload (rd16 0 8) (rd16 6 6 &&& 0x00FF) [84, 79] = .ok (.str ['T', 'O'], []) := by
    decide +kernel
  rw [this, recordReader_ok hp, recordReader_short (by simp)]
  decide +kernel

/-- A LAYER record cut behind the first byte of the number. -/
example : (readGds (fun x y => x / y) (fun _ => (1, 0)) plainArgs ⟨none, 1, 1, []⟩
    ((streamBytes [⟨6, 6, [84, 79, 80, 0]⟩] ++ ((⟨13, 2, [0, 1]⟩ : Frame).bytes ++ [])).take (8 + 5))).2 ≠ none :=
  C85_noticed (a := plainArgs) [(⟨6, 6, [84, 79, 80, 0]⟩, .str ['T', 'O', 'P'])] (by
      intro p hp
      rw [List.mem_singleton] at hp
      subst hp
      exact ⟨by simp [Frame.Fits], Encodes.textNul ['T', 'O', 'P'] 6 (by decide) (by decide)⟩)
    ⟨13, 2, [0, 1]⟩ (.i16 [1]) (by simp [Frame.Fits])
    (by simpa [twosComplement, bigEndian] using Encodes.shorts [1] (by decide) (by decide))
    (Or.inr (Or.inl rfl)) 5 (by decide) (by decide) [] _

end Gdspy
