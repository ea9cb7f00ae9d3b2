import Verif.Lemmas.Run
import Verif.Spec.Blocks

/-!
The reader and element properties.
-/

namespace Gdspy

open Spec

/-! ### dictionaries -/

theorem dictSet_lookup (d : Properties) (k : Int) (v : Option Str) (n : Int) :
    (dictSet d k v).lookup n = if n = k then some v else d.lookup n := by
  induction d with
  | nil =>
    simp only [dictSet, List.lookup]
    by_cases h : n = k
    · subst h; simp
    · rw [if_neg h, show (n == k) = false from by simpa using h]
  | cons p d ih =>
    obtain ⟨k', v'⟩ := p
    simp only [dictSet]
    by_cases hk : k' = k
    · subst hk
      simp only [if_true, List.lookup]
      by_cases h : n = k'
      · subst h; simp
      · rw [if_neg h, show (n == k') = false from by simpa using h]
    · simp only [if_neg hk, List.lookup]
      by_cases h : n = k'
      · subst h; simp [hk]
      · rw [show (n == k') = false from by simpa using h]
        simp only
        exact ih

theorem dictSet_keys (d : Properties) (k : Int) (v : Option Str) :
    (dictSet d k v).map Prod.fst = if k ∈ d.map Prod.fst then d.map Prod.fst
      else d.map Prod.fst ++ [k] := by
  induction d with
  | nil => simp [dictSet]
  | cons p d ih =>
    obtain ⟨k', v'⟩ := p
    simp only [dictSet]
    by_cases hk : k' = k
    · subst hk; simp
    · simp only [if_neg hk, List.map_cons, List.mem_cons, ih, Ne.symm hk, false_or]
      split <;> simp_all

theorem dictSet_nodup {d : Properties} (h : (d.map Prod.fst).Nodup) (k : Int) (v : Option Str) :
    ((dictSet d k v).map Prod.fst).Nodup := by
  rw [dictSet_keys]
  split
  · exact h
  · rename_i hk
    rw [List.nodup_append]
    refine ⟨h, by simp, ?_⟩
    intro x hx y hy
    rw [List.mem_singleton] at hy
    subst hy
    rintro rfl
    exact hk hx

section
variable {div : ℚ → ℚ → ℚ} {trig : ℚ → ℚ × ℚ} {a : ReadArgs}

/-- What a quiet record leaves alone. -/
theorem quiet_step {st st' : ReadState} {r : Record} (hq : Quiet r)
    (h : readStep div trig a st r = .ok st') :
    st'.properties = st.properties ∧ st'.cell = st.cell ∧ st'.lib.cells = st.lib.cells ∧
      st'.create = st.create ∧ st'.created = st.created := by
  unfold Quiet at hq
  simp only [List.mem_cons, List.not_mem_nil, or_false, not_or] at hq
  obtain ⟨q1, q2, q3, q4, q5, q6, q7, q8, q9, q10, q11, q12⟩ := hq
  have plainStep : ∀ {α : Type} (m : Py α) (f : α → ReadState),
      (m >>= fun x => pure (f x)) = .ok st' →
      (∀ x, (f x).properties = st.properties ∧ (f x).cell = st.cell ∧
        (f x).lib.cells = st.lib.cells ∧ (f x).create = st.create ∧ (f x).created = st.created) →
      st'.properties = st.properties ∧ st'.cell = st.cell ∧ st'.lib.cells = st.lib.cells ∧
      st'.create = st.create ∧ st'.created = st.created := by
    intro α m f hm hf
    cases m with
    | error e => cases hm
    | ok x =>
      obtain rfl := Except.ok.inj hm
      exact hf x
  unfold readStep at h
  simp only [q1, q2, q3, q4, q5, q6, q7, q8, q9, q10, q11, q12, if_false] at h
  by_cases c : r.type = 0x0D
  · rw [if_pos c] at h; exact plainStep _ _ h (fun _ => ⟨rfl, rfl, rfl, rfl, rfl⟩)
  rw [if_neg c] at h; clear c
  by_cases c : r.type = 0x0E ∨ r.type = 0x2E
  · rw [if_pos c] at h; exact plainStep _ _ h (fun _ => ⟨rfl, rfl, rfl, rfl, rfl⟩)
  rw [if_neg c] at h; clear c
  by_cases c : r.type = 0x16
  · rw [if_pos c] at h; exact plainStep _ _ h (fun _ => ⟨rfl, rfl, rfl, rfl, rfl⟩)
  rw [if_neg c] at h; clear c
  by_cases c : r.type = 0x10
  · rw [if_pos c] at h; exact plainStep _ _ h (fun _ => ⟨rfl, rfl, rfl, rfl, rfl⟩)
  rw [if_neg c] at h; clear c
  by_cases c : r.type = 0x0F
  · rw [if_pos c] at h; exact plainStep _ _ h (fun _ => ⟨rfl, rfl, rfl, rfl, rfl⟩)
  rw [if_neg c] at h; clear c
  by_cases c : r.type = 0x12
  · rw [if_pos c] at h; exact plainStep _ _ h (fun _ => ⟨rfl, rfl, rfl, rfl, rfl⟩)
  rw [if_neg c] at h; clear c
  by_cases c : r.type = 0x13
  · rw [if_pos c] at h
    split at h
    · obtain rfl := Except.ok.inj h
      exact ⟨rfl, rfl, rfl, rfl, rfl⟩
    all_goals cases h
  rw [if_neg c] at h; clear c
  by_cases c : r.type = 0x1A
  · rw [if_pos c] at h; exact plainStep _ _ h (fun _ => ⟨rfl, rfl, rfl, rfl, rfl⟩)
  rw [if_neg c] at h; clear c
  by_cases c : r.type = 0x1B
  · rw [if_pos c] at h; exact plainStep _ _ h (fun _ => ⟨rfl, rfl, rfl, rfl, rfl⟩)
  rw [if_neg c] at h; clear c
  by_cases c : r.type = 0x1C
  · rw [if_pos c] at h; exact plainStep _ _ h (fun _ => ⟨rfl, rfl, rfl, rfl, rfl⟩)
  rw [if_neg c] at h; clear c
  by_cases c : r.type = 0x19
  · rw [if_pos c] at h; exact plainStep _ _ h (fun _ => ⟨rfl, rfl, rfl, rfl, rfl⟩)
  rw [if_neg c] at h; clear c
  by_cases c : r.type = 0x03
  · rw [if_pos c] at h
    split at h
    · exact plainStep _ _ h (fun _ => ⟨rfl, rfl, rfl, rfl, rfl⟩)
    · cases hn : r.data.nums with
      | error e => rw [hn] at h; cases h
      | ok l =>
        rw [hn, py_bind_ok] at h
        repeat' split at h
        all_goals first
          | cases h; done
          | (obtain rfl := Except.ok.inj h
             exact ⟨rfl, rfl, rfl, rfl, rfl⟩)
    · cases hn : r.data.nums with
      | error e => rw [hn] at h; cases h
      | ok l =>
        rw [hn, py_bind_ok] at h
        repeat' split at h
        all_goals first
          | cases h; done
          | (obtain rfl := Except.ok.inj h
             exact ⟨rfl, rfl, rfl, rfl, rfl⟩)
    · cases h
  rw [if_neg c] at h; clear c
  by_cases c : r.type = 0x02
  · rw [if_pos c] at h; exact plainStep _ _ h (fun _ => ⟨rfl, rfl, rfl, rfl, rfl⟩)
  rw [if_neg c] at h; clear c
  by_cases c : r.type = 0x17
  · rw [if_pos c] at h; exact plainStep _ _ h (fun _ => ⟨rfl, rfl, rfl, rfl, rfl⟩)
  rw [if_neg c] at h; clear c
  by_cases c : r.type = 0x21
  · rw [if_pos c] at h; exact plainStep _ _ h (fun _ => ⟨rfl, rfl, rfl, rfl, rfl⟩)
  rw [if_neg c] at h; clear c
  by_cases c : r.type = 0x30
  · rw [if_pos c] at h; exact plainStep _ _ h (fun _ => ⟨rfl, rfl, rfl, rfl, rfl⟩)
  rw [if_neg c] at h; clear c
  by_cases c : r.type = 0x31
  · rw [if_pos c] at h; exact plainStep _ _ h (fun _ => ⟨rfl, rfl, rfl, rfl, rfl⟩)
  rw [if_neg c] at h; clear c
  by_cases c : r.type < 60
  · rw [if_pos c] at h; obtain rfl := Except.ok.inj h
    exact ⟨rfl, rfl, rfl, rfl, rfl⟩
  rw [if_neg c] at h; cases h

/-- Reading without error goes through the first record. -/
theorem read_cons {st : ReadState} {r : Record} {rs : List Record} {st' : ReadState}
    (h : readRecords div trig a st (r :: rs) = (st', none)) :
    ∃ st1, readStep div trig a st r = .ok st1 ∧ readRecords div trig a st1 rs = (st', none) := by
  rw [readRecords] at h
  cases hs : readStep div trig a st r with
  | error e => rw [hs] at h; cases h
  | ok st1 => rw [hs] at h; exact ⟨st1, rfl, h⟩

def kindOf : El → Kind
  | .polygon _ => .polygon
  | .path _ => .path
  | .label _ => .label
  | .ref _ => .ref

def El.props : El → Properties
  | .polygon s => s.properties
  | .path s => s.properties
  | .label s => s.properties
  | .ref s => s.properties

def createOf : Start → Create
  | .boundary => .polygon
  | .box => .polygon
  | .path => .path
  | .text => .label
  | .sref => .reference
  | .aref => .array

theorem createElement_kind {s : Start} {kw : Kwargs} {el : El}
    (h : createElement trig (createOf s) kw = .ok el) :
    kindOf el = s.kind ∧ el.props = [] := by
  cases s <;> simp only [createOf, createElement] at h
  · simp only [createPolygon] at h
    repeat' split at h
    all_goals cases h
    all_goals exact ⟨rfl, rfl⟩
  · simp only [createPolygon] at h
    repeat' split at h
    all_goals cases h
    all_goals exact ⟨rfl, rfl⟩
  · simp only [createPath] at h
    repeat' split at h
    all_goals cases h
    all_goals exact ⟨rfl, rfl⟩
  · simp only [createLabel] at h
    repeat' split at h
    all_goals cases h
    all_goals exact ⟨rfl, rfl⟩
  · simp only [createReference] at h
    repeat' split at h
    all_goals cases h
    all_goals exact ⟨rfl, rfl⟩
  · simp only [createArray] at h
    repeat' split at h
    all_goals cases h
    all_goals exact ⟨rfl, rfl⟩

/-- The properties collected over the items of an element. -/
theorem items_read : ∀ (items : List ElItem), (∀ i ∈ items, i.Ok) → ∀ (st st' : ReadState)
    (rest : List Record), (st.properties.map Prod.fst).Nodup →
    readRecords div trig a st (items.flatMap ElItem.records ++ rest) = (st', none) →
    ∃ st1, readRecords div trig a st1 rest = (st', none) ∧
      (st1.properties.map Prod.fst).Nodup ∧
      (∀ n, st1.properties.lookup n =
        ((lastValue n items).map some).or (st.properties.lookup n)) ∧
      st1.cell = st.cell ∧ st1.lib.cells = st.lib.cells ∧ st1.create = st.create ∧
      st1.created = st.created := by
  intro items
  induction items with
  | nil =>
    intro _ st st' rest hnd h
    exact ⟨st, h, hnd, fun n => rfl, rfl, rfl, rfl, rfl⟩
  | cons i items ih =>
    intro hok st st' rest hnd h
    have hok' : ∀ j ∈ items, j.Ok := fun j hj => hok j (List.mem_cons_of_mem _ hj)
    rw [List.flatMap_cons, List.append_assoc] at h
    cases i with
    | prop k v =>
      obtain ⟨s1, e1, h⟩ := read_cons h
      obtain ⟨s2, e2, h⟩ := read_cons h
      have e1' : readStep div trig a st ⟨0x2B, .i16 [k]⟩ = .ok { st with attr := k } := rfl
      rw [e1'] at e1
      obtain rfl := Except.ok.inj e1
      have e2' : readStep div trig a { st with attr := k } ⟨0x2C, .str v⟩
          = .ok { st with attr := k, properties := dictSet st.properties k (some v) } := rfl
      rw [e2'] at e2
      obtain rfl := Except.ok.inj e2
      obtain ⟨s3, p1, p2, p3, p4, p5, p6, p7⟩ := ih hok' _ st' rest
        (dictSet_nodup hnd k (some v)) h
      refine ⟨s3, p1, p2, ?_, p4, p5, p6, p7⟩
      intro n
      rw [p3]
      simp only [dictSet_lookup, lastValue]
      cases hl : lastValue n items with
      | some w => rfl
      | none =>
        simp only [Option.map_none, Option.none_or]
        by_cases hk : k = n
        · subst hk; simp
        · simp [hk, Ne.symm hk]
    | other r =>
      obtain ⟨s1, e1, h⟩ := read_cons h
      obtain ⟨q1, q2, q3, q4, q5⟩ := quiet_step (hok (.other r) List.mem_cons_self) e1
      obtain ⟨s3, p1, p2, p3, p4, p5, p6, p7⟩ := ih hok' s1 st' rest (by rw [q1]; exact hnd) h
      refine ⟨s3, p1, p2, ?_, p4.trans q2, p5.trans q3, p6.trans q4, p7.trans q5⟩
      intro n
      rw [p3, q1]
      simp only [lastValue]
      cases lastValue n items <;> rfl

theorem block_read (b : Block) (hok : ∀ i ∈ b.items, i.Ok) (st st' : ReadState)
    (rest : List Record) (hp : st.properties = []) (name : Str) (hc : st.cell = some name)
    (h : readRecords div trig a st (b.records ++ rest) = (st', none)) :
    ∃ st1 el, readRecords div trig a st1 rest = (st', none) ∧ st1.properties = [] ∧
      st1.cell = some name ∧ st1.created = st.created ∧
      st1.lib.cells = updateCell st.lib.cells name (·.add el) ∧
      kindOf el = b.start.kind ∧ HasProps el.props b := by
  unfold Block.records at h
  rw [List.append_assoc, List.append_assoc] at h
  obtain ⟨s1, e1, h⟩ := read_cons h
  have e1' : readStep div trig a st ⟨b.start.type, .none⟩
      = .ok { st with create := some (createOf b.start) } := by
    cases b.start <;> rfl
  rw [e1'] at e1
  obtain rfl := Except.ok.inj e1
  obtain ⟨s2, h, p2, p3, p4, p5, p6, p7⟩ := items_read b.items hok _ st' _
    (by rw [hp]; simp) h
  obtain ⟨s3, e3, h⟩ := read_cons h
  have hcr : s2.create = some (createOf b.start) := p6
  have hcell : s2.cell = some name := p4.trans hc
  have p3' : ∀ n, s2.properties.lookup n = (lastValue n b.items).map some := by
    intro n
    rw [p3 n, hp]
    cases lastValue n b.items <;> rfl
  have estep : readStep div trig a s2 ⟨0x11, .none⟩ = (match s2.create with
      | none => pure { s2 with kwargs := {} }
      | some c => do
        let el ← createElement trig c s2.kwargs
        let el := if s2.properties.length > 0 then el.setProps s2.properties else el
        match s2.cell with
        | none => throw .attributeError
        | some name =>
          pure { s2 with
            lib := { s2.lib with cells := updateCell s2.lib.cells name (·.add el) }
            properties := []
            create := none
            kwargs := {} }) := rfl
  rw [estep, hcr] at e3
  simp only [hcell] at e3
  cases hel : createElement trig (createOf b.start) s2.kwargs with
  | error e => rw [hel] at e3; cases e3
  | ok el =>
    rw [hel, py_bind_ok] at e3
    obtain rfl := Except.ok.inj e3
    obtain ⟨k1, k2⟩ := createElement_kind hel
    refine ⟨_, _, h, rfl, rfl, p7, by rw [p5], ?_, ?_⟩
    · split
      · rw [← k1]; cases el <;> rfl
      · exact k1
    · have hpr : (if s2.properties.length > 0 then El.setProps s2.properties el else el).props
          = s2.properties := by
        split
        · cases el <;> rfl
        · rw [k2]
          exact (List.eq_nil_of_length_eq_zero (by omega)).symm
      unfold HasProps
      rw [hpr]
      exact ⟨p2, p3'⟩

theorem Forall₂.snoc {α β : Type _} {R : α → β → Prop} {l : List α} {m : List β}
    (h : List.Forall₂ R l m) {x : α} {y : β} (hxy : R x y) :
    List.Forall₂ R (l ++ [x]) (m ++ [y]) := by
  induction h with
  | nil => exact .cons hxy .nil
  | cons h1 _ ih => exact .cons h1 ih

theorem ofKind_snoc (d : Data) (n : Str) (done : List Block) (b : Block) (k : Kind) :
    FileCell.ofKind ⟨d, n, done ++ [b]⟩ k
      = FileCell.ofKind ⟨d, n, done⟩ k ++ (if b.start.kind = k then [b] else []) := by
  unfold FileCell.ofKind
  simp only [List.filter_append]
  by_cases h : b.start.kind = k <;> simp [h]

theorem cellHasProps_add {f : Str → Str} {c : Cell} {d : Data} {n : Str} {done : List Block}
    (h : CellHasProps f c ⟨d, n, done⟩) {el : El} {b : Block} (hk : kindOf el = b.start.kind)
    (hp : HasProps el.props b) : CellHasProps f (c.add el) ⟨d, n, done ++ [b]⟩ := by
  obtain ⟨h1, h2, h3, h4, h5⟩ := h
  cases el <;> simp only [kindOf] at hk <;>
    refine ⟨h1, ?_, ?_, ?_, ?_⟩ <;> rw [ofKind_snoc, ← hk] <;> simp only [Cell.add, reduceCtorEq,
      if_true, if_false, List.append_nil] <;> first
      | assumption
      | exact Forall₂.snoc (by assumption) hp

theorem updateCell_last (pre : List Cell) (c : Cell) (f : Cell → Cell)
    (h : c.name ∉ pre.map Cell.name) :
    updateCell (pre ++ [c]) c.name f = pre ++ [f c] := by
  unfold updateCell
  rw [List.map_append, List.map_cons, List.map_nil, if_pos rfl]
  congr 1
  conv_rhs => rw [← List.map_id pre]
  apply List.map_congr_left
  intro c' hc'
  rw [if_neg]
  · rfl
  · intro he
    exact h (he ▸ List.mem_map_of_mem hc')

theorem cellAdd_name (c : Cell) (el : El) : (c.add el).name = c.name := by cases el <;> rfl

theorem blocks_read : ∀ (bs : List Block), (∀ b ∈ bs, ∀ i ∈ b.items, i.Ok) → ∀ (st st' : ReadState)
    (rest : List Record) (pre : List Cell) (c : Cell) (d : Data) (n : Str) (done : List Block),
    st.properties = [] → st.cell = some c.name → st.lib.cells = pre ++ [c] →
    c.name ∉ pre.map Cell.name → CellHasProps a.nameMap c ⟨d, n, done⟩ →
    readRecords div trig a st (bs.flatMap Block.records ++ rest) = (st', none) →
    ∃ st1 c', readRecords div trig a st1 rest = (st', none) ∧ st1.properties = [] ∧
      st1.created = st.created ∧
      st1.lib.cells = pre ++ [c'] ∧ c'.name = c.name ∧
      CellHasProps a.nameMap c' ⟨d, n, done ++ bs⟩ := by
  intro bs
  induction bs with
  | nil =>
    intro _ st st' rest pre c d n done hp hc hl hnm hprops h
    exact ⟨st, c, h, hp, rfl, hl, rfl, by rwa [List.append_nil]⟩
  | cons b bs ih =>
    intro hok st st' rest pre c d n done hp hc hl hnm hprops h
    rw [List.flatMap_cons, List.append_assoc] at h
    obtain ⟨s1, el, h, q1, q2, q3, q4, q5, q6⟩ := block_read b (hok b List.mem_cons_self) st st' _ hp
      c.name hc h
    rw [hl, updateCell_last pre c _ hnm] at q4
    obtain ⟨s2, c', r1, r2, r3, r4, r5, r6⟩ := ih (fun b' hb' => hok b' (List.mem_cons_of_mem _ hb'))
      s1 st' rest pre (c.add el) d n (done ++ [b]) q1 (by rw [cellAdd_name]; exact q2) q4
      (by rw [cellAdd_name]; exact hnm) (cellHasProps_add hprops q5 q6) h
    refine ⟨s2, c', r1, r2, r3.trans q3, r4, by rw [r5, cellAdd_name], ?_⟩
    rwa [List.append_assoc] at r6

theorem fileCells_read : ∀ (fcs : List FileCell),
    (∀ fc ∈ fcs, ∀ b ∈ fc.blocks, ∀ i ∈ b.items, i.Ok) → ∀ (st st' : ReadState)
    (rest : List Record) (done : List FileCell),
    st.properties = [] → List.Forall₂ (CellHasProps a.nameMap) st.lib.cells done →
    readRecords div trig a st (fcs.flatMap FileCell.records ++ rest) = (st', none) →
    ∃ st1, readRecords div trig a st1 rest = (st', none) ∧ st1.properties = [] ∧
      List.Forall₂ (CellHasProps a.nameMap) st1.lib.cells (done ++ fcs) := by
  intro fcs
  induction fcs with
  | nil =>
    intro _ st st' rest done hp hl h
    exact ⟨st, h, hp, by rwa [List.append_nil]⟩
  | cons fc fcs ih =>
    intro hok st st' rest done hp hl h
    rw [List.flatMap_cons, List.append_assoc, FileCell.records, List.append_assoc,
      List.append_assoc] at h
    obtain ⟨s1, e1, h⟩ := read_cons h
    have e1' : readStep div trig a st ⟨0x05, fc.stamp⟩ = .ok st := rfl
    rw [e1'] at e1
    obtain rfl := Except.ok.inj e1
    obtain ⟨s2, e2, h⟩ := read_cons h
    have e2' : readStep div trig a st ⟨0x06, .str fc.name⟩
        = (if a.nameMap fc.name ∈ st.lib.cells.map Cell.name then .error .valueError else
          .ok { st with
            lib := { st.lib with cells := st.lib.cells ++ [⟨a.nameMap fc.name, [], [], [], []⟩] }
            cell := some (a.nameMap fc.name)
            created := a.nameMap fc.name :: st.created }) := by
      show (do
        let s ← (.ok (some fc.name) : Py (Option Str))
        let name := a.rename s
        if name ∈ st.lib.cells.map Cell.name then throw .valueError
        pure { st with
          lib := { st.lib with cells := st.lib.cells ++ [⟨name, [], [], [], []⟩] }
          cell := some name
          created := name :: st.created } : Py ReadState) = _
      rw [py_bind_ok]
      by_cases hm : a.nameMap fc.name ∈ st.lib.cells.map Cell.name
      · simp only [ReadArgs.rename, hm, if_true]; rfl
      · simp only [ReadArgs.rename, hm, if_false]; rfl
    rw [e2'] at e2
    by_cases hm : a.nameMap fc.name ∈ st.lib.cells.map Cell.name
    · rw [if_pos hm] at e2; cases e2
    rw [if_neg hm] at e2
    obtain rfl := Except.ok.inj e2
    obtain ⟨s3, c', h, p1, p2, p3, p4, p5⟩ := blocks_read fc.blocks
      (hok fc List.mem_cons_self) { st with
            lib := { st.lib with cells := st.lib.cells ++ [⟨a.nameMap fc.name, [], [], [], []⟩] }
            cell := some (a.nameMap fc.name)
            created := a.nameMap fc.name :: st.created } st' _ st.lib.cells ⟨a.nameMap fc.name, [], [], [], []⟩ fc.stamp fc.name
      [] hp rfl rfl hm ⟨rfl, .nil, .nil, .nil, .nil⟩ h
    obtain ⟨s4, e4, h⟩ := read_cons h
    have e4' : readStep div trig a s3 ⟨0x07, .none⟩ = .ok { s3 with cell := none } := rfl
    rw [e4'] at e4
    obtain rfl := Except.ok.inj e4
    obtain ⟨s5, r1, r2, r3⟩ := ih (fun fc' hfc' => hok fc' (List.mem_cons_of_mem _ hfc'))
      { s3 with cell := none } st' rest (done ++ [fc]) p1 (by
        rw [show ({ s3 with cell := none } : ReadState).lib.cells = st.lib.cells ++ [c'] from p3]
        exact Forall₂.snoc hl p5) h
    refine ⟨s5, r1, r2, ?_⟩
    rwa [List.append_assoc] at r3

theorem head_read : ∀ (hd : List Record), (∀ r ∈ hd, Quiet r) → ∀ (st st' : ReadState)
    (rest : List Record), readRecords div trig a st (hd ++ rest) = (st', none) →
    ∃ st1, readRecords div trig a st1 rest = (st', none) ∧ st1.properties = st.properties ∧
      st1.lib.cells = st.lib.cells := by
  intro hd
  induction hd with
  | nil => intro _ st st' rest h; exact ⟨st, h, rfl, rfl⟩
  | cons r hd ih =>
    intro hq st st' rest h
    obtain ⟨s1, e1, h⟩ := read_cons h
    obtain ⟨q1, _, q3, _, _⟩ := quiet_step (hq r List.mem_cons_self) e1
    obtain ⟨s2, p1, p2, p3⟩ := ih (fun r' hr' => hq r' (List.mem_cons_of_mem _ hr')) s1 st' rest h
    exact ⟨s2, p1, p2.trans q1, p3.trans q3⟩

theorem resolve_props (created : List Str) (cells : List Cell) (fcs : List FileCell)
    (h : List.Forall₂ (CellHasProps a.nameMap) cells fcs) :
    List.Forall₂ (CellHasProps a.nameMap) (resolveRefs created cells) fcs := by
  unfold resolveRefs
  generalize cells.map Cell.name = names
  simp only
  induction h with
  | nil => exact .nil
  | cons h1 _ ih =>
    refine .cons ?_ ih
    simp only
    split
    · obtain ⟨q1, q2, q3, q4, q5⟩ := h1
      refine ⟨q1, q2, q3, q4, ?_⟩
      simp only
      generalize FileCell.ofKind _ _ = bl at q5
      generalize Cell.references _ = rl at q5
      induction q5 with
      | nil => exact .nil
      | cons h1 _ ih2 =>
        refine .cons ?_ ih2
        simp only
        split
        · split <;> exact h1
        · exact h1
    · exact h1

end

end Gdspy
