import Verif.Lemmas.Stream

/-!
# C06, C07: the content hash
-/

namespace Gdspy

open Spec

/-- `gdsii_hash` finishes and feeds exactly these byte strings, in this order, to the engine
(or raises). -/
def HashFeeds (data : Bytes) (r : Py (List Bytes)) : Prop :=
  ∃ fuel, hashUpdates fuel data = some r

/-- The result of `gdsii_hash` is unique, so `HashFeeds` is a partial function. -/
theorem hashFeeds_unique {data : Bytes} {r s : Py (List Bytes)} (h1 : HashFeeds data r)
    (h2 : HashFeeds data s) : r = s := by
  obtain ⟨n, h1⟩ := h1
  obtain ⟨m, h2⟩ := h2
  have e1 := hashUpdates_mono h1 (Nat.le_max_left n m)
  have e2 := hashUpdates_mono h2 (Nat.le_max_right n m)
  rw [e1] at e2
  exact Option.some.inj e2

/-- No time stamp record inside of a cell (BGNLIB occurs only outside). -/
def Spec.Item.StampsOutside : Item → Prop
  | .other f => f.StampOk
  | .cell _ body => ∀ f ∈ body, ¬ f.Stamped

/-- **C06.** For every well-framed file (cells, other records, padding) and every time stamp,
`set_gdsii_timestamp` succeeds and the byte strings fed to the hash engine, in order, are the
same before and after. -/
theorem C06_hash_ignores_timestamps (l : List Item) (tail : Bytes) (t : Timestamp)
    (h : ∀ it ∈ l, it.Ok ∧ it.StampsOutside) (ht : Padding tail) (hT : Spec.Timestamp.Fits t) :
    (setGdsiiTimestamp (itemsBytes l ++ tail) t).2 = none ∧
    ∃ r, HashFeeds (itemsBytes l ++ tail) r ∧
      HashFeeds (setGdsiiTimestamp (itemsBytes l ++ tail) t).1 r := by
  have hfits1 : ∀ stamp : Bytes, stamp.length = 24 → (⟨5, 2, stamp⟩ : Frame).Fits :=
    fun stamp h1 => ⟨by norm_num, by norm_num, by simp [h1]⟩
  have hframes : ∀ f ∈ l.flatMap Item.frames, f.Fits ∧ f.StampOk := by
    intro f hf
    obtain ⟨it, hit, hf⟩ := List.mem_flatMap.1 hf
    obtain ⟨h1, h2⟩ := h it hit
    cases it with
    | other g =>
      simp only [Item.frames, List.mem_singleton] at hf
      subst hf
      exact ⟨h1.1, h2⟩
    | cell stamp body =>
      simp only [Item.frames, List.cons_append, List.nil_append, List.mem_cons, List.mem_append,
        List.not_mem_nil, or_false] at hf
      rcases hf with rfl | hf | rfl
      · exact ⟨hfits1 _ h1.1, fun _ => h1.1⟩
      · exact ⟨(h1.2 f hf).1, fun hs => absurd hs (h2 f hf)⟩
      · exact ⟨⟨by norm_num, by norm_num, by simp⟩, fun hs => by simp [Frame.Stamped] at hs⟩
  have hset := setTsLoop_stream (stampBytes t) (stampBytes_length t) _ tail hframes ht
  unfold setGdsiiTimestamp
  rw [packTs_ok hT]
  simp only [itemsBytes]
  rw [hset]
  refine ⟨rfl, ?_⟩
  -- the stamped file is again made of items, with the same bodies
  let l' : List Item := l.map fun it => match it with
    | .other f => .other (if f.Stamped then { f with payload := stampBytes t } else f)
    | .cell _ body => .cell (stampBytes t) body
  have e1 : (l.flatMap Item.frames).map
      (fun f => if f.Stamped then { f with payload := stampBytes t } else f)
      = l'.flatMap Item.frames := by
    simp only [l']
    clear hset hframes
    induction l with
    | nil => rfl
    | cons it l ih =>
      rw [List.flatMap_cons, List.map_append, ih (fun g hg => h g (List.mem_cons_of_mem _ hg)),
        List.map_cons, List.flatMap_cons]
      congr 1
      obtain ⟨h1, h2⟩ := h it List.mem_cons_self
      cases it with
      | other f => rfl
      | cell stamp body =>
        simp only [Item.frames, List.cons_append, List.nil_append, List.map_cons, List.map_append,
          List.map_nil]
        rw [if_pos ⟨rfl, Or.inr rfl⟩, if_neg (by simp [Frame.Stamped])]
        congr 2
        conv_rhs => rw [← List.map_id body]
        apply List.map_congr_left
        intro f hf
        rw [if_neg (h2 f hf)]; rfl
  have e2 : cellBodies l' = cellBodies l := by
    simp only [l']
    clear hset hframes e1 h l'
    induction l with
    | nil => rfl
    | cons it l ih => cases it <;> simp [cellBodies, ih]
  have hok' : ∀ it ∈ l', it.Ok := by
    intro it hit
    obtain ⟨it0, hit0, rfl⟩ := List.mem_map.1 hit
    obtain ⟨h1, h2⟩ := h it0 hit0
    cases it0 with
    | other f =>
      by_cases hs : f.Stamped
      · simp only [if_pos hs]
        obtain ⟨q1, q2, q3⟩ := h1
        obtain ⟨q4, q5, q6⟩ := q1
        exact ⟨⟨q4, q5, by simp [stampBytes_length]⟩, q2, q3⟩
      · simp only [if_neg hs]; exact h1
    | cell stamp body => exact ⟨stampBytes_length t, h1.2⟩
  have r1 := hashUpdates_items l tail (fun it hit => (h it hit).1) ht
  have r2 := hashUpdates_items l' tail hok' ht
  refine ⟨_, ⟨_, r1⟩, ⟨(l'.flatMap Item.frames).length + 1, ?_⟩⟩
  · rw [e1]
    simp only [itemsBytes] at r2
    rw [r2, e2]

/-- A library with a stamped BGNLIB, one cell with two records, and 8 bytes of padding. -/
example : ∃ l : List Item, l.length = 3 ∧ (∀ it ∈ l, it.Ok ∧ it.StampsOutside) ∧
    Padding (List.replicate 8 0) := by
  refine ⟨[.other ⟨1, 2, List.replicate 24 1⟩,
    .cell (List.replicate 24 2) [⟨6, 6, [65, 0]⟩, ⟨0x0D, 2, [0, 3]⟩], .other ⟨4, 0, []⟩], rfl, ?_,
    Or.inr ⟨8, rfl⟩⟩
  intro it hit
  simp only [List.mem_cons, List.not_mem_nil, or_false] at hit
  rcases hit with rfl | rfl | rfl
  · refine ⟨⟨⟨by norm_num, by norm_num, by decide⟩, by simp [Frame.BeginsCell],
      by simp [Frame.EndsCell]⟩, fun _ => by simp⟩
  · refine ⟨⟨by simp, ?_⟩, ?_⟩
    · intro f hf
      simp only [List.mem_cons, List.not_mem_nil, or_false] at hf
      rcases hf with rfl | rfl <;>
        exact ⟨⟨by norm_num, by norm_num, by decide⟩, by simp [Frame.BeginsCell],
          by simp [Frame.EndsCell]⟩
    · intro f hf
      simp only [List.mem_cons, List.not_mem_nil, or_false] at hf
      rcases hf with rfl | rfl <;> simp [Frame.Stamped]
  · exact ⟨⟨⟨by norm_num, by norm_num, by decide⟩, by simp [Frame.BeginsCell],
      by simp [Frame.EndsCell]⟩, fun hs => by simp [Frame.Stamped] at hs⟩

/-- **C07.** What is fed to the engine for a well-framed file: the cell bodies (everything
between the BGNSTR and ENDSTR records) and nothing else, sorted. -/
theorem C07_hash_feeds_bodies (l : List Item) (h : ∀ it ∈ l, it.Ok) :
    ∃ fed, HashFeeds (itemsBytes l) (.ok fed) ∧ fed.Perm (cellBodies l) ∧
      fed.Pairwise (fun a b => bytesLe a b) := by
  refine ⟨_, ⟨(l.flatMap Item.frames).length + 1, ?_⟩, List.mergeSort_perm _ bytesLe,
    List.pairwise_mergeSort (le := bytesLe) bytesLe_trans bytesLe_total (cellBodies l)⟩
  · have := hashUpdates_items l [] h (Or.inl (by simp))
    simpa using this

/-- **C07.** Files with the same cell bodies up to order feed the engine identically: cell
order, library name, units and any record outside of cells are irrelevant. -/
theorem C07_hash_order_independent (l m : List Item) (h : ∀ it ∈ l, it.Ok) (h' : ∀ it ∈ m, it.Ok)
    (hp : (cellBodies l).Perm (cellBodies m)) (r : Py (List Bytes)) :
    HashFeeds (itemsBytes l) r ↔ HashFeeds (itemsBytes m) r := by
  have e1 := hashUpdates_items l [] h (Or.inl (by simp))
  have e2 := hashUpdates_items m [] h' (Or.inl (by simp))
  simp only [List.append_nil, List.length_nil, true_or, if_true] at e1 e2
  rw [sort_perm hp] at e1
  constructor
  · intro hr
    rw [hashFeeds_unique hr ⟨_, e1⟩]; exact ⟨_, e2⟩
  · intro hr
    rw [hashFeeds_unique hr ⟨_, e2⟩]; exact ⟨_, e1⟩

/-- A cell body as written by every GDSII writer: the name record first, and only there. -/
def Spec.Item.Named : Item → Prop
  | .other _ => True
  | .cell _ body => ∃ name rest, body = name :: rest ∧ name.type = 6 ∧ ∀ f ∈ rest, f.type ≠ 6

theorem split_named : ∀ (A B : List (Frame × List Frame)),
    (∀ p ∈ A, p.1.type = 6 ∧ ∀ f ∈ p.2, f.type ≠ 6) →
    (∀ p ∈ B, p.1.type = 6 ∧ ∀ f ∈ p.2, f.type ≠ 6) →
    (A.flatMap fun p => p.1 :: p.2) = (B.flatMap fun p => p.1 :: p.2) → A = B := by
  intro A
  induction A with
  | nil =>
    intro B _ _ h
    cases B with
    | nil => rfl
    | cons q B => simp at h
  | cons p A ih =>
    intro B hA hB h
    cases B with
    | nil => simp at h
    | cons q B =>
      obtain ⟨p1, p2⟩ := p
      obtain ⟨q1, q2⟩ := q
      obtain ⟨_, hp2⟩ := hA (p1, p2) List.mem_cons_self
      obtain ⟨_, hq2⟩ := hB (q1, q2) List.mem_cons_self
      simp only [List.flatMap_cons, List.cons_append, List.cons.injEq] at h
      obtain ⟨rfl, h⟩ := h
      have hA' : ∀ p ∈ A, p.1.type = 6 ∧ ∀ f ∈ p.2, f.type ≠ 6 :=
        fun x hx => hA x (List.mem_cons_of_mem _ hx)
      have hB' : ∀ p ∈ B, p.1.type = 6 ∧ ∀ f ∈ p.2, f.type ≠ 6 :=
        fun x hx => hB x (List.mem_cons_of_mem _ hx)
      have key : ∀ (u v : List Frame) (A B : List (Frame × List Frame)),
          (∀ f ∈ u, f.type ≠ 6) → (∀ f ∈ v, f.type ≠ 6) →
          (∀ p ∈ A, p.1.type = 6 ∧ ∀ f ∈ p.2, f.type ≠ 6) →
          (∀ p ∈ B, p.1.type = 6 ∧ ∀ f ∈ p.2, f.type ≠ 6) →
          u ++ (A.flatMap fun p => p.1 :: p.2) = v ++ (B.flatMap fun p => p.1 :: p.2) →
          u = v := by
        intro u
        induction u with
        | nil =>
          intro v A B _ hv hA hB h
          cases v with
          | nil => rfl
          | cons g v =>
            cases A with
            | nil => simp at h
            | cons a A =>
              simp only [List.nil_append, List.flatMap_cons, List.cons_append,
                List.cons.injEq] at h
              have := (hA a List.mem_cons_self).1
              rw [h.1] at this
              exact absurd this (hv g List.mem_cons_self)
        | cons f u ihu =>
          intro v A B hu hv hA hB h
          cases v with
          | nil =>
            cases B with
            | nil => simp at h
            | cons b B =>
              simp only [List.nil_append, List.flatMap_cons, List.cons_append,
                List.cons.injEq] at h
              have := (hB b List.mem_cons_self).1
              rw [← h.1] at this
              exact absurd this (hu f List.mem_cons_self)
          | cons g v =>
            simp only [List.cons_append, List.cons.injEq] at h
            rw [h.1, ihu v A B (fun x hx => hu x (List.mem_cons_of_mem _ hx))
              (fun x hx => hv x (List.mem_cons_of_mem _ hx)) hA hB h.2]
      have e := key p2 q2 A B hp2 hq2 hA' hB' h
      subst e
      rw [ih B hA' hB' (List.append_cancel_left h)]

theorem bodies_as_frames (l : List Item) (h : ∀ it ∈ l, it.Ok ∧ it.Named) :
    ∀ b ∈ cellBodies l, ∃ p : Frame × List Frame, (p.1.type = 6 ∧ ∀ f ∈ p.2, f.type ≠ 6) ∧
      (∀ f ∈ p.1 :: p.2, f.Fits) ∧ b = streamBytes (p.1 :: p.2) := by
  induction l with
  | nil => simp [cellBodies]
  | cons it l ih =>
    have ih' := ih (fun g hg => h g (List.mem_cons_of_mem _ hg))
    obtain ⟨h1, h2⟩ := h it List.mem_cons_self
    cases it with
    | other f => exact ih'
    | cell stamp body =>
      intro b hb
      rcases List.mem_cons.1 hb with rfl | hb
      · obtain ⟨name, rest, rfl, h3, h4⟩ := h2
        exact ⟨(name, rest), ⟨h3, h4⟩, fun f hf => (h1.2 f hf).1, rfl⟩
      · exact ih' b hb

theorem lift_bodies (L : List Bytes) (h : ∀ b ∈ L, ∃ p : Frame × List Frame,
      (p.1.type = 6 ∧ ∀ f ∈ p.2, f.type ≠ 6) ∧
      (∀ f ∈ p.1 :: p.2, f.Fits) ∧ b = streamBytes (p.1 :: p.2)) :
    ∃ A : List (Frame × List Frame), L = A.map (fun p => streamBytes (p.1 :: p.2)) ∧
      (∀ p ∈ A, p.1.type = 6 ∧ ∀ f ∈ p.2, f.type ≠ 6) ∧
      (∀ f ∈ A.flatMap (fun p => p.1 :: p.2), f.Fits) ∧
      L.flatten = streamBytes (A.flatMap fun p => p.1 :: p.2) := by
  induction L with
  | nil => exact ⟨[], by simp [streamBytes]⟩
  | cons b L ih =>
    obtain ⟨A, rfl, hA, hF, hS⟩ := ih (fun x hx => h x (List.mem_cons_of_mem _ hx))
    obtain ⟨p, h1, h2, rfl⟩ := h b List.mem_cons_self
    refine ⟨p :: A, rfl, ?_, ?_, ?_⟩
    · intro q hq
      rcases List.mem_cons.1 hq with rfl | hq
      · exact h1
      · exact hA q hq
    · intro f hf
      rw [List.flatMap_cons, List.mem_append] at hf
      rcases hf with hf | hf
      · exact h2 f hf
      · exact hF f hf
    · rw [List.flatten_cons, hS, List.flatMap_cons, streamBytes_append]

/-- **C07.** Two well-framed files feed the engine the same byte stream exactly when they have
the same cell bodies up to order: concatenating the sorted bodies loses nothing. -/
theorem C07_hash_stream_injective (l m : List Item) (h : ∀ it ∈ l, it.Ok ∧ it.Named)
    (h' : ∀ it ∈ m, it.Ok ∧ it.Named) (fl fm : List Bytes)
    (hl : HashFeeds (itemsBytes l) (.ok fl)) (hm : HashFeeds (itemsBytes m) (.ok fm)) :
    fl.flatten = fm.flatten ↔ (cellBodies l).Perm (cellBodies m) := by
  obtain ⟨fl', hl', pl, _⟩ := C07_hash_feeds_bodies l (fun it hit => (h it hit).1)
  obtain ⟨fm', hm', pm, _⟩ := C07_hash_feeds_bodies m (fun it hit => (h' it hit).1)
  obtain rfl : fl = fl' := by have := hashFeeds_unique hl hl'; injection this
  obtain rfl : fm = fm' := by have := hashFeeds_unique hm hm'; injection this
  constructor
  · intro he
    obtain ⟨A, eA, hA, fA, sA⟩ := lift_bodies fl
      (fun b hb => bodies_as_frames l h b (pl.subset hb))
    obtain ⟨B, eB, hB, fB, sB⟩ := lift_bodies fm
      (fun b hb => bodies_as_frames m h' b (pm.subset hb))
    rw [sA, sB] at he
    have := split_named A B hA hB (streamBytes_inj _ _ fA fB he)
    subst this
    rw [← eA] at eB
    subst eB
    exact pl.symm.trans pm
  · intro hp
    have := (C07_hash_order_independent l m (fun it hit => (h it hit).1)
      (fun it hit => (h' it hit).1) hp (.ok fl)).1 hl
    have := hashFeeds_unique this hm
    injection this with this
    rw [this]

/-- Two cells that meet the hypotheses. -/
example : ∃ l : List Item, (cellBodies l).length = 2 ∧ ∀ it ∈ l, it.Ok ∧ it.Named := by
  refine ⟨[.cell (List.replicate 24 2) [⟨6, 6, [65, 0]⟩, ⟨0x0D, 2, [0, 3]⟩],
    .cell (List.replicate 24 2) [⟨6, 6, [66, 0]⟩]], rfl, ?_⟩
  intro it hit
  simp only [List.mem_cons, List.not_mem_nil, or_false] at hit
  rcases hit with rfl | rfl
  · refine ⟨⟨by simp, ?_⟩, _, _, rfl, rfl, by simp⟩
    intro f hf
    simp only [List.mem_cons, List.not_mem_nil, or_false] at hf
    rcases hf with rfl | rfl <;>
      exact ⟨⟨by norm_num, by norm_num, by decide⟩, by simp [Frame.BeginsCell],
        by simp [Frame.EndsCell]⟩
  · refine ⟨⟨by simp, ?_⟩, _, _, rfl, rfl, by simp⟩
    intro f hf
    simp only [List.mem_cons, List.not_mem_nil, or_false] at hf
    subst hf
    exact ⟨⟨by norm_num, by norm_num, by decide⟩, by simp [Frame.BeginsCell],
        by simp [Frame.EndsCell]⟩

end Gdspy
