import Verif.Lemmas.EmitEl
import Verif.Spec.Relabel

/-!
Reading with renaming and layer maps simulates plain reading.
-/

namespace Gdspy

open Spec

def relabelEl (a : ReadArgs) : El → El
  | .polygon s => .polygon (relabelSet a s)
  | .path p => .path (relabelGds a p)
  | .label b => .label (relabelLabel a b)
  | .ref r => .ref (relabelRef a r)

def relabelKw (a : ReadArgs) (kw : Kwargs) : Kwargs :=
  { kw with
    layer := kw.layer.map (mapped a.layers)
    datatype := kw.datatype.map (mapped a.datatypes)
    texttype := kw.texttype.map (mapped a.texttypes)
    refCell := kw.refCell.map a.nameMap }

def relabelState (a : ReadArgs) (st : ReadState) : ReadState :=
  { st with
    lib := relabelLib a st.lib
    kwargs := relabelKw a st.kwargs
    cell := st.cell.map a.nameMap
    created := st.created.map a.nameMap }

theorem createPolygon_relabel (a : ReadArgs) (kw : Kwargs) :
    createPolygon (relabelKw a kw) = (createPolygon kw).map (relabelEl a) := by
  obtain ⟨l, d, t, xy, w, wt, rc, co, ro, xr, ma, rot, tx, an, en, be, ee⟩ := kw
  cases l with | none => rfl | some l =>
  cases d with | none => rfl | some d =>
  cases t with | some _ => rfl | none =>
  cases xy with | none => rfl | some xy =>
  cases w with | some _ => rfl | none =>
  cases wt with | true => rfl | false =>
  cases rc with | some _ => rfl | none =>
  cases co with | some _ => rfl | none =>
  cases ro with | some _ => rfl | none =>
  cases xr with | some _ => rfl | none =>
  cases ma with | some _ => rfl | none =>
  cases rot with | some _ => rfl | none =>
  cases tx with | some _ => rfl | none =>
  cases an with | some _ => rfl | none =>
  cases en with | some _ => rfl | none =>
  cases be with | some _ => rfl | none =>
  cases ee with | some _ => rfl | none =>
  simp only [createPolygon, relabelKw, Option.map_some, Option.map_none]
  split
  · rfl
  · split <;> rfl

theorem createPath_relabel (a : ReadArgs) (h0 : KeepsZero a) (kw : Kwargs) :
    createPath (relabelKw a kw) = (createPath kw).map (relabelEl a) := by
  obtain ⟨l, d, t, xy, w, wt, rc, co, ro, xr, ma, rot, tx, an, en, be, ee⟩ := kw
  have hl : (l.map (mapped a.layers)).getD 0 = mapped a.layers (l.getD 0) := by
    cases l
    · exact h0.1.symm
    · rfl
  have hd : (d.map (mapped a.datatypes)).getD 0 = mapped a.datatypes (d.getD 0) := by
    cases d
    · exact h0.2.1.symm
    · rfl
  cases xy with | none => rfl | some xy =>
  by_cases hx : xy.length % 2 ≠ 0
  · simp only [createPath, relabelKw, hx, ne_eq, not_false_eq_true, ite_true]
    rfl
  simp only [createPath, relabelKw, hx, ite_false]
  cases t with | some _ => rfl | none =>
  cases w with | none => rfl | some w =>
  cases rc with | some _ => rfl | none =>
  cases co with | some _ => rfl | none =>
  cases ro with | some _ => rfl | none =>
  cases xr with | some _ => rfl | none =>
  cases ma with | some _ => rfl | none =>
  cases rot with | some _ => rfl | none =>
  cases tx with | some _ => rfl | none =>
  cases an with | some _ => rfl | none =>
  simp only [Option.map_none, hl, hd]
  rfl

theorem createLabel_relabel (a : ReadArgs) (h0 : KeepsZero a) (kw : Kwargs) :
    createLabel (relabelKw a kw) = (createLabel kw).map (relabelEl a) := by
  obtain ⟨l, d, t, xy, w, wt, rc, co, ro, xr, ma, rot, tx, an, en, be, ee⟩ := kw
  have hl : (l.map (mapped a.layers)).getD 0 = mapped a.layers (l.getD 0) := by
    cases l
    · exact h0.1.symm
    · rfl
  have ht : (t.map (mapped a.texttypes)).getD 0 = mapped a.texttypes (t.getD 0) := by
    cases t
    · exact h0.2.2.symm
    · rfl
  cases d with | some _ => rfl | none =>
  cases xy with | none => rfl | some xy =>
  cases rc with | some _ => rfl | none =>
  cases co with | some _ => rfl | none =>
  cases ro with | some _ => rfl | none =>
  cases tx with | none => rfl | some tx =>
  cases be with | some _ => rfl | none =>
  cases ee with | some _ => rfl | none =>
  simp only [createLabel, relabelKw, Option.map_none, hl, ht]
  match xy with
  | [] => rfl
  | [_] => rfl
  | [_, _] => rfl
  | _ :: _ :: _ :: _ => rfl

theorem createReference_relabel (a : ReadArgs) (kw : Kwargs) :
    createReference (relabelKw a kw) = (createReference kw).map (relabelEl a) := by
  obtain ⟨l, d, t, xy, w, wt, rc, co, ro, xr, ma, rot, tx, an, en, be, ee⟩ := kw
  cases xy with | none => rfl | some xy =>
  cases l with | some l => rfl | none =>
  cases d with | some d => rfl | none =>
  cases t with | some _ => rfl | none =>
  cases w with | some _ => rfl | none =>
  cases wt with | true => rfl | false =>
  cases rc with | none => rfl | some rc =>
  cases co with | some _ => rfl | none =>
  cases ro with | some _ => rfl | none =>
  cases tx with | some _ => rfl | none =>
  cases an with | some _ => rfl | none =>
  cases en with | some _ => rfl | none =>
  cases be with | some _ => rfl | none =>
  cases ee with | some _ => rfl | none =>
  match xy with
  | [] => rfl
  | [_] => rfl
  | [_, _] => rfl
  | _ :: _ :: _ :: _ => rfl

theorem createArray_relabel (trig : ℚ → ℚ × ℚ) (a : ReadArgs) (kw : Kwargs) :
    createArray trig (relabelKw a kw) = (createArray trig kw).map (relabelEl a) := by
  obtain ⟨l, d, t, xy, w, wt, rc, co, ro, xr, ma, rot, tx, an, en, be, ee⟩ := kw
  cases xy with | none => rfl | some xy =>
  match xy with
  | [] => rfl
  | [_] => rfl
  | [_, _] => rfl
  | [_, _, _] => rfl
  | [_, _, _, _] => rfl
  | [_, _, _, _, _] => rfl
  | _ :: _ :: _ :: _ :: _ :: _ :: _ :: r =>
    simp only [createArray, relabelKw]
    split <;> rfl
  | [x0, y0, x2, y2, x3, y3] =>
    cases co with | none => rfl | some co =>
    cases ro with | none => rfl | some ro =>
    by_cases hz : co = 0 ∨ ro = 0
    · simp only [createArray, relabelKw, hz, ite_true]
      rfl
    simp only [createArray, relabelKw, hz, ite_false]
    cases l with | some l => rfl | none =>
    cases d with | some d => rfl | none =>
    cases t with | some _ => rfl | none =>
    cases w with | some _ => rfl | none =>
    cases wt with | true => rfl | false =>
    cases rc with | none => rfl | some rc =>
    cases tx with | some _ => rfl | none =>
    cases an with | some _ => rfl | none =>
    cases en with | some _ => rfl | none =>
    cases be with | some _ => rfl | none =>
    cases ee with | some _ => rfl | none =>
    rfl

theorem createElement_relabel (trig : ℚ → ℚ × ℚ) (a : ReadArgs) (h0 : KeepsZero a) (c : Create)
    (kw : Kwargs) :
    createElement trig c (relabelKw a kw) = (createElement trig c kw).map (relabelEl a) := by
  cases c with
  | polygon => exact createPolygon_relabel a kw
  | path => exact createPath_relabel a h0 kw
  | label => exact createLabel_relabel a h0 kw
  | reference => exact createReference_relabel a kw
  | array => exact createArray_relabel trig a kw

theorem relabel_add (a : ReadArgs) (c : Cell) (el : El) :
    relabel a (c.add el) = (relabel a c).add (relabelEl a el) := by
  cases el <;> simp [relabel, Cell.add, relabelEl, relabelPath]

theorem relabel_names (a : ReadArgs) (cells : List Cell) :
    (cells.map (relabel a)).map Cell.name = (cells.map Cell.name).map a.nameMap := by
  rw [List.map_map, List.map_map]; rfl

theorem mem_nameMap {f : Str → Str} {S : Set Str} (hinj : Set.InjOn f S) {s : Str} {l : List Str}
    (hs : s ∈ S) (hl : ∀ t ∈ l, t ∈ S) : f s ∈ l.map f ↔ s ∈ l := by
  constructor
  · intro h
    obtain ⟨s', h1, h2⟩ := List.mem_map.1 h
    rw [← hinj (hl s' h1) hs h2]; exact h1
  · exact List.mem_map_of_mem

theorem updateCell_relabel (a : ReadArgs) {S : Set Str} (hinj : Set.InjOn a.nameMap S)
    (cells : List Cell) (name : Str) (el : El) (hc : ∀ c ∈ cells, c.name ∈ S) (hn : name ∈ S) :
    updateCell (cells.map (relabel a)) (a.nameMap name) (·.add (relabelEl a el))
      = (updateCell cells name (·.add el)).map (relabel a) := by
  unfold updateCell
  rw [List.map_map, List.map_map]
  apply List.map_congr_left
  intro c hcm
  simp only [Function.comp]
  by_cases h : c.name = name
  · rw [if_pos (show (relabel a c).name = a.nameMap name by rw [← h]; rfl), if_pos h, relabel_add]
  · rw [if_neg (show ¬ (relabel a c).name = a.nameMap name from
      fun h' => h (hinj (hc c hcm) hn h')), if_neg h]

theorem resolveRefs_relabel (a : ReadArgs) {S : Set Str} (hinj : Set.InjOn a.nameMap S)
    (created : List Str) (cells : List Cell) (hcr : ∀ s ∈ created, s ∈ S)
    (hc : ∀ c ∈ cells, c.name ∈ S ∧ ∀ r ∈ c.references, r.target.str ∈ S) :
    resolveRefs (created.map a.nameMap) (cells.map (relabel a))
      = (resolveRefs created cells).map (relabel a) := by
  unfold resolveRefs
  simp only [relabel_names]
  rw [List.map_map (l := cells) (f := relabel a) , List.map_map (g := relabel a)]
  apply List.map_congr_left
  intro c hcm
  simp only [Function.comp]
  have hnames : ∀ t ∈ cells.map Cell.name, t ∈ S := by
    intro t ht
    obtain ⟨c', h1, rfl⟩ := List.mem_map.1 ht
    exact (hc c' h1).1
  have hcn : (relabel a c).name = a.nameMap c.name := rfl
  have hmem := mem_nameMap hinj (hc c hcm).1 hcr
  by_cases h : c.name ∈ created
  · rw [if_pos (by rw [hcn, hmem]; exact h), if_pos h]
    show Cell.mk _ _ _ _ (List.map _ (List.map _ c.references))
      = Cell.mk _ _ _ _ (List.map _ (List.map _ c.references))
    congr 1
    rw [List.map_map (l := c.references), List.map_map (l := c.references)]
    apply List.map_congr_left
    intro r hr
    have hrs := (hc c hcm).2 r hr
    obtain ⟨t, ar, o, ro, ma, xr, pr⟩ := r
    cases t with
    | name s =>
      simp only [Function.comp, relabelRef]
      have hm := mem_nameMap hinj (s := s) hrs hnames
      by_cases hs : s ∈ cells.map Cell.name
      · rw [if_pos (hm.2 hs), if_pos hs]
      · rw [if_neg (fun hc => hs (hm.1 hc)), if_neg hs]
    | cell s => rfl
  · rw [if_neg (by rw [hcn, hmem]; exact h), if_neg h]

/-- All names in the state lie in `S`. -/
structure NamesIn (S : Set Str) (st : ReadState) : Prop where
  created : ∀ s ∈ st.created, s ∈ S
  cell : ∀ s, st.cell = some s → s ∈ S
  refCell : ∀ s, st.kwargs.refCell = some s → s ∈ S
  cells : ∀ c ∈ st.lib.cells, c.name ∈ S ∧ ∀ r ∈ c.references, r.target.str ∈ S

theorem setProps_relabel (a : ReadArgs) (p : Properties) (el : El) :
    (relabelEl a el).setProps p = relabelEl a (el.setProps p) := by
  cases el <;> rfl

section
variable (div : ℚ → ℚ → ℚ) (trig : ℚ → ℚ × ℚ) (a : ReadArgs)

theorem rename_relabel (s : Option Str) : a.rename s = a.nameMap ((plain a).rename s) := by
  cases s <;> rfl

theorem readStep_relabel {S : Set Str} (hinj : Set.InjOn a.nameMap S) (h0 : KeepsZero a)
    (st : ReadState) (hst : NamesIn S st) (r : Record)
    (hr : r.type = 0x06 → ∀ t, r.data.text = .ok t → (plain a).rename t ∈ S) :
    readStep div trig a (relabelState a st) r
      = (readStep div trig (plain a) st r).map (relabelState a) := by
  have hg : ∀ (f : ℤ → Option ℤ) (n : ℤ), (f n).getD n = mapped f n := mapped_eq
  unfold readStep
  by_cases h : r.type = 0x0D
  · rw [if_pos h, if_pos h]
    cases r.data.firstInt with
    | error e => rfl
    | ok n => simp only [hg]; rfl
  rw [if_neg h, if_neg h]; clear h
  by_cases h : r.type = 0x0E ∨ r.type = 0x2E
  · rw [if_pos h, if_pos h]
    cases r.data.firstInt with
    | error e => rfl
    | ok n => simp only [hg]; rfl
  rw [if_neg h, if_neg h]; clear h
  by_cases h : r.type = 0x16
  · rw [if_pos h, if_pos h]
    cases r.data.firstInt with
    | error e => rfl
    | ok n => simp only [hg]; rfl
  rw [if_neg h, if_neg h]; clear h
  by_cases h : r.type = 0x10
  · rw [if_pos h, if_pos h]
    cases r.data.nums <;> rfl
  rw [if_neg h, if_neg h]; clear h
  by_cases h : r.type = 0x0F
  · rw [if_pos h, if_pos h]
    cases r.data.firstNum with
    | error e => rfl
    | ok x =>
      by_cases hx : x < 0
      · simp only [py_bind_ok, hx, ite_true]; rfl
      · simp only [py_bind_ok, hx, ite_false]; rfl
  rw [if_neg h, if_neg h]; clear h
  by_cases h : r.type = 0x11
  · rw [if_pos h, if_pos h]
    obtain ⟨lib, kw, create, factor, cell, props, attr, created⟩ := st
    cases create with
    | none => rfl
    | some c =>
      simp only [relabelState]
      rw [createElement_relabel trig a h0]
      cases createElement trig c kw with
      | error e => rfl
      | ok el =>
        cases cell with
        | none => rfl
        | some name =>
          simp only [Except.map, py_bind_ok, Option.map_some, setProps_relabel, ← apply_ite (relabelEl a)]
          simp only [relabelLib]
          rw [updateCell_relabel a hinj _ _ _ (fun c hc => (hst.cells c hc).1) (hst.cell _ rfl)]
          rfl
  rw [if_neg h, if_neg h]; clear h
  by_cases h : r.type = 0x08
  · rw [if_pos h, if_pos h]; rfl
  rw [if_neg h, if_neg h]; clear h
  by_cases h : r.type = 0x09
  · rw [if_pos h, if_pos h]; rfl
  rw [if_neg h, if_neg h]; clear h
  by_cases h : r.type = 0x2D
  · rw [if_pos h, if_pos h]; rfl
  rw [if_neg h, if_neg h]; clear h
  by_cases h : r.type = 0x0C
  · rw [if_pos h, if_pos h]; rfl
  rw [if_neg h, if_neg h]; clear h
  by_cases h : r.type = 0x12
  · rw [if_pos h, if_pos h]
    cases r.data.text with
    | error e => rfl
    | ok s => rw [py_bind_ok, py_bind_ok, rename_relabel]; rfl
  rw [if_neg h, if_neg h]; clear h
  by_cases h : r.type = 0x13
  · rw [if_pos h, if_pos h]
    cases r.data with
    | none => rfl
    | i16 l =>
      match l with
      | [] => rfl
      | [_] => rfl
      | _ :: _ :: _ => rfl
    | _ => rfl
  rw [if_neg h, if_neg h]; clear h
  by_cases h : r.type = 0x1A
  · rw [if_pos h, if_pos h]
    cases r.data.firstInt <;> rfl
  rw [if_neg h, if_neg h]; clear h
  by_cases h : r.type = 0x1B
  · rw [if_pos h, if_pos h]
    cases r.data.firstNum <;> rfl
  rw [if_neg h, if_neg h]; clear h
  by_cases h : r.type = 0x1C
  · rw [if_pos h, if_pos h]
    cases r.data.firstNum <;> rfl
  rw [if_neg h, if_neg h]; clear h
  by_cases h : r.type = 0x0A
  · rw [if_pos h, if_pos h]; rfl
  rw [if_neg h, if_neg h]; clear h
  by_cases h : r.type = 0x0B
  · rw [if_pos h, if_pos h]; rfl
  rw [if_neg h, if_neg h]; clear h
  by_cases h : r.type = 0x06
  · rw [if_pos h, if_pos h]
    cases ht : r.data.text with
    | error e => rfl
    | ok s =>
      rw [py_bind_ok, py_bind_ok, rename_relabel]
      have hmem : a.nameMap ((plain a).rename s) ∈ (relabelState a st).lib.cells.map Cell.name ↔
          (plain a).rename s ∈ st.lib.cells.map Cell.name := by
        simp only [relabelState, relabelLib, relabel_names]
        refine mem_nameMap hinj (hr h s ht) ?_
        intro t ht
        obtain ⟨c, hc, rfl⟩ := List.mem_map.1 ht
        exact (hst.cells c hc).1
      by_cases hm : (plain a).rename s ∈ st.lib.cells.map Cell.name
      · simp only [hmem, hm, ite_true]
        rfl
      · simp only [hmem, hm, ite_false]
        simp only [py_pure, Except.map, relabelState, relabelLib, List.map_append]
        rfl
  rw [if_neg h, if_neg h]; clear h
  by_cases h : r.type = 0x19
  · rw [if_pos h, if_pos h]
    cases r.data.text <;> rfl
  rw [if_neg h, if_neg h]; clear h
  by_cases h : r.type = 0x07
  · rw [if_pos h, if_pos h]; rfl
  rw [if_neg h, if_neg h]; clear h
  by_cases h : r.type = 0x03
  · rw [if_pos h, if_pos h]
    have hu : (plain a).units = a.units := rfl
    rw [hu]
    cases a.units with
    | skip => cases r.data.firstNum <;> rfl
    | import_ =>
      cases r.data.nums with
      | error e => rfl
      | ok l =>
        match l with
        | [] => rfl
        | [_] => rfl
        | x :: y :: l =>
          by_cases hx : x = 0
          · simp only [py_bind_ok, hx, ite_true]; rfl
          · simp only [py_bind_ok, hx, ite_false]; rfl
    | convert =>
      cases r.data.nums with
      | error e => rfl
      | ok l =>
        match l with
        | [] => rfl
        | [_] => rfl
        | x :: y :: l =>
          have hlu : (relabelState a st).lib.unit = st.lib.unit := rfl
          by_cases hx : st.lib.unit = 0
          · simp only [py_bind_ok, hlu, hx, ite_true]; rfl
          · simp only [py_bind_ok, hlu, hx, ite_false]; rfl
    | other => rfl
  rw [if_neg h, if_neg h]; clear h
  by_cases h : r.type = 0x02
  · rw [if_pos h, if_pos h]
    cases r.data.text <;> rfl
  rw [if_neg h, if_neg h]; clear h
  by_cases h : r.type = 0x17
  · rw [if_pos h, if_pos h]
    cases r.data.firstInt <;> rfl
  rw [if_neg h, if_neg h]; clear h
  by_cases h : r.type = 0x21
  · rw [if_pos h, if_pos h]
    cases r.data.firstInt <;> rfl
  rw [if_neg h, if_neg h]; clear h
  by_cases h : r.type = 0x30
  · rw [if_pos h, if_pos h]
    cases r.data.firstNum <;> rfl
  rw [if_neg h, if_neg h]; clear h
  by_cases h : r.type = 0x31
  · rw [if_pos h, if_pos h]
    cases r.data.firstNum <;> rfl
  rw [if_neg h, if_neg h]; clear h
  by_cases h : r.type = 0x04
  · rw [if_pos h, if_pos h]
    simp only [relabelState, relabelLib]
    rw [resolveRefs_relabel a hinj _ _ hst.created hst.cells]
    rfl
  rw [if_neg h, if_neg h]; clear h
  by_cases h : r.type = 0x2B
  · rw [if_pos h, if_pos h]
    cases r.data.firstInt <;> rfl
  rw [if_neg h, if_neg h]; clear h
  by_cases h : r.type = 0x2C
  · rw [if_pos h, if_pos h]
    cases r.data.text <;> rfl
  rw [if_neg h, if_neg h]; clear h
  by_cases h : r.type < 60
  · rw [if_pos h, if_pos h]; rfl
  rw [if_neg h, if_neg h]; rfl

theorem NamesIn.of_eq {S : Set Str} {st st' : ReadState} (h : NamesIn S st)
    (h1 : st'.created = st.created) (h2 : st'.cell = st.cell ∨ st'.cell = none)
    (h3 : st'.kwargs.refCell = st.kwargs.refCell ∨ st'.kwargs.refCell = none)
    (h4 : st'.lib.cells = st.lib.cells) : NamesIn S st' where
  created := by rw [h1]; exact h.created
  cell := by
    intro s hs
    rcases h2 with h2 | h2
    · exact h.cell s (by rw [← h2, hs])
    · rw [h2] at hs; cases hs
  refCell := by
    intro s hs
    rcases h3 with h3 | h3
    · exact h.refCell s (by rw [← h3, hs])
    · rw [h3] at hs; cases hs
  cells := by rw [h4]; exact h.cells

theorem createElement_names {S : Set Str} {c : Create} {kw : Kwargs} {r : Ref}
    (h : createElement trig c kw = .ok (.ref r)) (hk : ∀ s, kw.refCell = some s → s ∈ S) :
    r.target.str ∈ S := by
  unfold createElement at h
  cases c with
  | polygon =>
    simp only [createPolygon] at h
    repeat' split at h
    all_goals cases h
  | path =>
    simp only [createPath] at h
    repeat' split at h
    all_goals cases h
  | label =>
    simp only [createLabel] at h
    repeat' split at h
    all_goals cases h
  | reference =>
    simp only [createReference] at h
    repeat' split at h
    all_goals cases h
    exact hk _ rfl
  | array =>
    simp only [createArray] at h
    repeat' split at h
    all_goals cases h
    exact hk _ rfl

theorem readStep_names {S : Set Str} (st st' : ReadState) (hst : NamesIn S st) (r : Record)
    (hr : r.type = 0x06 ∨ r.type = 0x12 → ∀ t, r.data.text = .ok t → a.rename t ∈ S)
    (h : readStep div trig a st r = .ok st') : NamesIn S st' := by
  unfold readStep at h
  -- a record that only sets a keyword argument
  have plainStep : ∀ {α : Type} (m : Py α) (f : α → ReadState),
      (m >>= fun x => pure (f x)) = .ok st' →
      (∀ x, (f x).created = st.created ∧ (f x).cell = st.cell ∧
        (f x).kwargs.refCell = st.kwargs.refCell ∧ (f x).lib.cells = st.lib.cells) →
      NamesIn S st' := by
    intro α m f hm hf
    cases m with
    | error e => cases hm
    | ok x =>
      obtain rfl := Except.ok.inj hm
      obtain ⟨q1, q2, q3, q4⟩ := hf x
      exact hst.of_eq q1 (Or.inl q2) (Or.inl q3) q4
  by_cases c : r.type = 0x0D
  · rw [if_pos c] at h; exact plainStep _ _ h (fun _ => ⟨rfl, rfl, rfl, rfl⟩)
  rw [if_neg c] at h; clear c
  by_cases c : r.type = 0x0E ∨ r.type = 0x2E
  · rw [if_pos c] at h; exact plainStep _ _ h (fun _ => ⟨rfl, rfl, rfl, rfl⟩)
  rw [if_neg c] at h; clear c
  by_cases c : r.type = 0x16
  · rw [if_pos c] at h; exact plainStep _ _ h (fun _ => ⟨rfl, rfl, rfl, rfl⟩)
  rw [if_neg c] at h; clear c
  by_cases c : r.type = 0x10
  · rw [if_pos c] at h; exact plainStep _ _ h (fun _ => ⟨rfl, rfl, rfl, rfl⟩)
  rw [if_neg c] at h; clear c
  by_cases c : r.type = 0x0F
  · rw [if_pos c] at h
    refine plainStep _ _ h (fun x => ⟨rfl, rfl, ?_, rfl⟩)
    show (if x < 0 then _ else _ : Kwargs).refCell = _
    split <;> rfl
  rw [if_neg c] at h; clear c
  by_cases c : r.type = 0x11
  · rw [if_pos c] at h
    split at h
    · obtain rfl := Except.ok.inj h
      exact hst.of_eq rfl (Or.inl rfl) (Or.inr rfl) rfl
    · rename_i cr hcr
      cases hel : createElement trig cr st.kwargs with
      | error e => rw [hel] at h; cases h
      | ok el =>
        rw [hel, py_bind_ok] at h
        cases hcell : st.cell with
        | none => simp only [hcell] at h; cases h
        | some name =>
          simp only [hcell] at h
          obtain rfl := Except.ok.inj h
          refine ⟨hst.created, by rw [← hcell]; exact hst.cell, by simp, ?_⟩
          simp only [updateCell]
          intro c' hc'
          obtain ⟨c0, hc0, rfl⟩ := List.mem_map.1 hc'
          have h0 := hst.cells c0 hc0
          split
          · have hadd : ∀ e : El, (∀ q, e = .ref q → q.target.str ∈ S) →
                (c0.add e).name ∈ S ∧ ∀ q ∈ (c0.add e).references, q.target.str ∈ S := by
              intro e he
              cases e with
              | polygon _ => exact h0
              | path _ => exact h0
              | label _ => exact h0
              | ref q =>
                refine ⟨h0.1, ?_⟩
                intro q' hq'
                rcases List.mem_append.1 hq' with hq' | hq'
                · exact h0.2 q' hq'
                · rw [List.mem_singleton] at hq'; subst hq'; exact he _ rfl
            apply hadd
            intro q hq
            split at hq
            · cases el with
              | ref q0 =>
                cases hq
                exact createElement_names trig (r := q0) hel hst.refCell
              | _ => cases hq
            · subst hq
              exact createElement_names trig hel hst.refCell
          · exact h0
  rw [if_neg c] at h; clear c
  by_cases c : r.type = 0x08
  · rw [if_pos c] at h; obtain rfl := Except.ok.inj h
    exact hst.of_eq rfl (Or.inl rfl) (Or.inl rfl) rfl
  rw [if_neg c] at h; clear c
  by_cases c : r.type = 0x09
  · rw [if_pos c] at h; obtain rfl := Except.ok.inj h
    exact hst.of_eq rfl (Or.inl rfl) (Or.inl rfl) rfl
  rw [if_neg c] at h; clear c
  by_cases c : r.type = 0x2D
  · rw [if_pos c] at h; obtain rfl := Except.ok.inj h
    exact hst.of_eq rfl (Or.inl rfl) (Or.inl rfl) rfl
  rw [if_neg c] at h; clear c
  by_cases c : r.type = 0x0C
  · rw [if_pos c] at h; obtain rfl := Except.ok.inj h
    exact hst.of_eq rfl (Or.inl rfl) (Or.inl rfl) rfl
  rw [if_neg c] at h; clear c
  by_cases c : r.type = 0x12
  · rw [if_pos c] at h
    cases ht : r.data.text with
    | error e => rw [ht] at h; cases h
    | ok t =>
      rw [ht] at h
      obtain rfl := Except.ok.inj h
      refine ⟨hst.created, hst.cell, ?_, hst.cells⟩
      intro s hs
      cases hs
      exact hr (Or.inr c) t ht
  rw [if_neg c] at h; clear c
  by_cases c : r.type = 0x13
  · rw [if_pos c] at h
    split at h
    · obtain rfl := Except.ok.inj h
      exact hst.of_eq rfl (Or.inl rfl) (Or.inl rfl) rfl
    all_goals cases h
  rw [if_neg c] at h; clear c
  by_cases c : r.type = 0x1A
  · rw [if_pos c] at h; exact plainStep _ _ h (fun _ => ⟨rfl, rfl, rfl, rfl⟩)
  rw [if_neg c] at h; clear c
  by_cases c : r.type = 0x1B
  · rw [if_pos c] at h; exact plainStep _ _ h (fun _ => ⟨rfl, rfl, rfl, rfl⟩)
  rw [if_neg c] at h; clear c
  by_cases c : r.type = 0x1C
  · rw [if_pos c] at h; exact plainStep _ _ h (fun _ => ⟨rfl, rfl, rfl, rfl⟩)
  rw [if_neg c] at h; clear c
  by_cases c : r.type = 0x0A
  · rw [if_pos c] at h; obtain rfl := Except.ok.inj h
    exact hst.of_eq rfl (Or.inl rfl) (Or.inl rfl) rfl
  rw [if_neg c] at h; clear c
  by_cases c : r.type = 0x0B
  · rw [if_pos c] at h; obtain rfl := Except.ok.inj h
    exact hst.of_eq rfl (Or.inl rfl) (Or.inl rfl) rfl
  rw [if_neg c] at h; clear c
  by_cases c : r.type = 0x06
  · rw [if_pos c] at h
    cases ht : r.data.text with
    | error e => rw [ht] at h; cases h
    | ok t =>
      have hS := hr (Or.inl c) t ht
      rw [ht, py_bind_ok] at h
      by_cases hm : a.rename t ∈ st.lib.cells.map Cell.name
      · simp only [hm, ite_true] at h
        cases h
      · simp only [hm, ite_false] at h
        obtain rfl := Except.ok.inj h
        refine ⟨?_, ?_, hst.refCell, ?_⟩
        · intro s hs
          rcases List.mem_cons.1 hs with rfl | hs
          · exact hS
          · exact hst.created s hs
        · intro s hs; cases hs; exact hS
        · intro c' hc'
          rcases List.mem_append.1 hc' with hc' | hc'
          · exact hst.cells c' hc'
          · rw [List.mem_singleton] at hc'; subst hc'
            exact ⟨hS, by simp⟩
  rw [if_neg c] at h; clear c
  by_cases c : r.type = 0x19
  · rw [if_pos c] at h; exact plainStep _ _ h (fun _ => ⟨rfl, rfl, rfl, rfl⟩)
  rw [if_neg c] at h; clear c
  by_cases c : r.type = 0x07
  · rw [if_pos c] at h; obtain rfl := Except.ok.inj h
    exact hst.of_eq rfl (Or.inr rfl) (Or.inl rfl) rfl
  rw [if_neg c] at h; clear c
  by_cases c : r.type = 0x03
  · rw [if_pos c] at h
    split at h
    · exact plainStep _ _ h (fun _ => ⟨rfl, rfl, rfl, rfl⟩)
    · cases hn : r.data.nums with
      | error e => rw [hn] at h; cases h
      | ok l =>
        rw [hn, py_bind_ok] at h
        repeat' split at h
        all_goals first
          | cases h; done
          | (obtain rfl := Except.ok.inj h
             exact hst.of_eq rfl (Or.inl rfl) (Or.inl rfl) rfl)
    · cases hn : r.data.nums with
      | error e => rw [hn] at h; cases h
      | ok l =>
        rw [hn, py_bind_ok] at h
        repeat' split at h
        all_goals first
          | cases h; done
          | (obtain rfl := Except.ok.inj h
             exact hst.of_eq rfl (Or.inl rfl) (Or.inl rfl) rfl)
    · cases h
  rw [if_neg c] at h; clear c
  by_cases c : r.type = 0x02
  · rw [if_pos c] at h; exact plainStep _ _ h (fun _ => ⟨rfl, rfl, rfl, rfl⟩)
  rw [if_neg c] at h; clear c
  by_cases c : r.type = 0x17
  · rw [if_pos c] at h; exact plainStep _ _ h (fun _ => ⟨rfl, rfl, rfl, rfl⟩)
  rw [if_neg c] at h; clear c
  by_cases c : r.type = 0x21
  · rw [if_pos c] at h; exact plainStep _ _ h (fun _ => ⟨rfl, rfl, rfl, rfl⟩)
  rw [if_neg c] at h; clear c
  by_cases c : r.type = 0x30
  · rw [if_pos c] at h; exact plainStep _ _ h (fun _ => ⟨rfl, rfl, rfl, rfl⟩)
  rw [if_neg c] at h; clear c
  by_cases c : r.type = 0x31
  · rw [if_pos c] at h; exact plainStep _ _ h (fun _ => ⟨rfl, rfl, rfl, rfl⟩)
  rw [if_neg c] at h; clear c
  by_cases c : r.type = 0x04
  · rw [if_pos c] at h; obtain rfl := Except.ok.inj h
    refine ⟨hst.created, hst.cell, hst.refCell, ?_⟩
    simp only [resolveRefs]
    intro c' hc'
    obtain ⟨c0, hc0, rfl⟩ := List.mem_map.1 hc'
    have h0 := hst.cells c0 hc0
    split
    · refine ⟨h0.1, ?_⟩
      intro q hq
      obtain ⟨q0, hq0, rfl⟩ := List.mem_map.1 hq
      have := h0.2 q0 hq0
      obtain ⟨t, ar, o, ro, ma, xr, pr⟩ := q0
      cases t with
      | name s =>
        simp only
        split
        · exact this
        · exact this
      | cell s => exact this
    · exact h0
  rw [if_neg c] at h; clear c
  by_cases c : r.type = 0x2B
  · rw [if_pos c] at h; exact plainStep _ _ h (fun _ => ⟨rfl, rfl, rfl, rfl⟩)
  rw [if_neg c] at h; clear c
  by_cases c : r.type = 0x2C
  · rw [if_pos c] at h; exact plainStep _ _ h (fun _ => ⟨rfl, rfl, rfl, rfl⟩)
  rw [if_neg c] at h; clear c
  by_cases c : r.type < 60
  · rw [if_pos c] at h; obtain rfl := Except.ok.inj h
    exact hst
  rw [if_neg c] at h; cases h

theorem readRecords_relabel {S : Set Str} (hinj : Set.InjOn a.nameMap S) (h0 : KeepsZero a) :
    ∀ (rs : List Record) (st : ReadState), NamesIn S st →
    (∀ r ∈ rs, r.type = 0x06 ∨ r.type = 0x12 → ∀ t, r.data.text = .ok t → (plain a).rename t ∈ S) →
    readRecords div trig a (relabelState a st) rs
      = (relabelState a (readRecords div trig (plain a) st rs).1,
          (readRecords div trig (plain a) st rs).2) := by
  intro rs
  induction rs with
  | nil => intro st _ _; rfl
  | cons r rs ih =>
    intro st hst hr
    simp only [readRecords]
    rw [readStep_relabel div trig a hinj h0 st hst r
      (fun h6 => hr r List.mem_cons_self (Or.inl h6))]
    cases hs : readStep div trig (plain a) st r with
    | error e => rfl
    | ok st' =>
      exact ih st' (readStep_names div trig (plain a) st st' hst r (hr r List.mem_cons_self) hs)
        (fun r' hr' => hr r' (List.mem_cons_of_mem _ hr'))

end

end Gdspy
