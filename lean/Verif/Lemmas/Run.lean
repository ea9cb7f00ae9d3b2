import Verif.Lemmas.Emit

/-!
How the reader reacts to the records of each element.
-/

namespace Gdspy

open Spec

section
variable {div : ℚ → ℚ → ℚ} {trig : ℚ → ℚ × ℚ} {a : ReadArgs}

/-- Reading `rs` in state `st` leads to state `st'` without an error. -/
def Run (div : ℚ → ℚ → ℚ) (trig : ℚ → ℚ × ℚ) (a : ReadArgs) (st : ReadState) (rs : List Record)
    (st' : ReadState) : Prop :=
  ∀ rest, readRecords div trig a st (rs ++ rest) = readRecords div trig a st' rest

theorem Run.nil (st : ReadState) : Run div trig a st [] st := fun _ => rfl

theorem Run.trans {s1 s2 s3 : ReadState} {r1 r2 : List Record} (h1 : Run div trig a s1 r1 s2)
    (h2 : Run div trig a s2 r2 s3) : Run div trig a s1 (r1 ++ r2) s3 := by
  intro rest
  rw [List.append_assoc, h1, h2]

theorem Run.one {s1 s2 : ReadState} {r : Record} (h : readStep div trig a s1 r = .ok s2) :
    Run div trig a s1 [r] s2 := by
  intro rest
  show readRecords div trig a s1 (r :: rest) = _
  rw [readRecords, h]

theorem Run.cons {s1 s2 s3 : ReadState} {r : Record} {rs : List Record}
    (h : readStep div trig a s1 r = .ok s2) (h2 : Run div trig a s2 rs s3) :
    Run div trig a s1 (r :: rs) s3 := Run.trans (Run.one h) h2

/-- The state after an element has been added to the cell called `name`. -/
def afterEl (st : ReadState) (name : Str) (el : El) : ReadState :=
  { lib := { st.lib with cells := updateCell st.lib.cells name (·.add el) }
    kwargs := {}
    create := none
    factor := st.factor
    cell := st.cell
    properties := []
    attr := st.attr
    created := st.created }

/-! ### single records -/

theorem step_layer (st : ReadState) (n : Int) : readStep div trig a st ⟨0x0D, .i16 [n]⟩ =
    .ok { st with kwargs := { st.kwargs with layer := some ((a.layers n).getD n) } } := rfl

theorem step_datatype (st : ReadState) (n : Int) : readStep div trig a st ⟨0x0E, .i16 [n]⟩ =
    .ok { st with kwargs := { st.kwargs with datatype := some ((a.datatypes n).getD n) } } := rfl

theorem step_texttype (st : ReadState) (n : Int) : readStep div trig a st ⟨0x16, .i16 [n]⟩ =
    .ok { st with kwargs := { st.kwargs with texttype := some ((a.texttypes n).getD n) } } := rfl

theorem step_xy (st : ReadState) (l : List Int) : readStep div trig a st ⟨0x10, .i32 l⟩ =
    .ok { st with kwargs := { st.kwargs with
      xy := some (st.kwargs.xy.getD [] ++ l.map fun n : Int => st.factor * (n : ℚ)) } } := by
  show Except.ok _ = Except.ok _
  rw [List.map_map]; rfl

theorem step_width (st : ReadState) (n : Int) : readStep div trig a st ⟨0x0F, .i32 [n]⟩ =
    .ok { st with kwargs := { st.kwargs with
      width := some (st.factor * |(n : ℚ)|)
      widthTransformFalse := st.kwargs.widthTransformFalse || decide (n < 0) } } := by
  show Except.ok _ = Except.ok _
  by_cases h : n < 0
  · have : (n : ℚ) < 0 := by exact_mod_cast h
    rw [if_pos this]; simp [h]
  · have : ¬ (n : ℚ) < 0 := by exact_mod_cast h
    rw [if_neg this]; simp [h]

theorem step_boundary (st : ReadState) : readStep div trig a st ⟨0x08, .none⟩ =
    .ok { st with create := some .polygon } := rfl

theorem step_path (st : ReadState) : readStep div trig a st ⟨0x09, .none⟩ =
    .ok { st with create := some .path } := rfl

theorem step_text (st : ReadState) : readStep div trig a st ⟨0x0C, .none⟩ =
    .ok { st with create := some .label } := rfl

theorem step_sref (st : ReadState) : readStep div trig a st ⟨0x0A, .none⟩ =
    .ok { st with create := some .reference } := rfl

theorem step_aref (st : ReadState) : readStep div trig a st ⟨0x0B, .none⟩ =
    .ok { st with create := some .array } := rfl

theorem step_sname (st : ReadState) (s : Str) : readStep div trig a st ⟨0x12, .str s⟩ =
    .ok { st with kwargs := { st.kwargs with refCell := some (a.nameMap s) } } := rfl

theorem step_colrow (st : ReadState) (x y : Int) : readStep div trig a st ⟨0x13, .i16 [x, y]⟩ =
    .ok { st with kwargs := { st.kwargs with columns := some x, rows := some y } } := rfl

theorem step_strans (st : ReadState) (b : Bool) :
    readStep div trig a st ⟨0x1A, .u16 [if b then 0x8000 else 0]⟩ =
    .ok { st with kwargs := { st.kwargs with xReflection := some b } } := by
  cases b <;> rfl

theorem step_mag (st : ReadState) (x : ℚ) : readStep div trig a st ⟨0x1B, .real [x]⟩ =
    .ok { st with kwargs := { st.kwargs with magnification := some x } } := rfl

theorem step_angle (st : ReadState) (x : ℚ) : readStep div trig a st ⟨0x1C, .real [x]⟩ =
    .ok { st with kwargs := { st.kwargs with rotation := some x } } := rfl

theorem step_string (st : ReadState) (s : Str) : readStep div trig a st ⟨0x19, .str s⟩ =
    .ok { st with kwargs := { st.kwargs with text := some (some s) } } := rfl

theorem step_presentation (st : ReadState) (n : Nat) : readStep div trig a st ⟨0x17, .u16 [n]⟩ =
    .ok { st with kwargs := { st.kwargs with anchor := some (importAnchor n) } } := rfl

theorem step_pathtype (st : ReadState) (n : Int) : readStep div trig a st ⟨0x21, .i16 [n]⟩ =
    .ok { st with kwargs := { st.kwargs with ends := some (importEnds n) } } := rfl

theorem step_bgnextn (st : ReadState) (n : Int) : readStep div trig a st ⟨0x30, .i32 [n]⟩ =
    .ok { st with kwargs := { st.kwargs with bgnextn := some (st.factor * (n : ℚ)) } } := rfl

theorem step_endextn (st : ReadState) (n : Int) : readStep div trig a st ⟨0x31, .i32 [n]⟩ =
    .ok { st with kwargs := { st.kwargs with endextn := some (st.factor * (n : ℚ)) } } := rfl

theorem step_propattr (st : ReadState) (n : Int) : readStep div trig a st ⟨0x2B, .i16 [n]⟩ =
    .ok { st with attr := n } := rfl

theorem step_propvalue (st : ReadState) (s : Str) : readStep div trig a st ⟨0x2C, .str s⟩ =
    .ok { st with properties := dictSet st.properties st.attr (some s) } := rfl

theorem step_endel (st : ReadState) (c : Create) (el : El) (name : Str) (hc : st.create = some c)
    (hn : st.cell = some name) (he : createElement trig c st.kwargs = .ok el) :
    readStep div trig a st ⟨0x11, .none⟩ =
    .ok (afterEl st name (if st.properties.length > 0 then el.setProps st.properties else el)) := by
  show (match st.create with
    | none => pure { st with kwargs := {} }
    | some c => _ : Py ReadState) = _
  rw [hc]
  simp only
  rw [he, py_bind_ok]
  unfold afterEl
  rw [hn]
  rfl

theorem step_strname (st : ReadState) (s : Str) (h : a.nameMap s ∉ st.lib.cells.map Cell.name) :
    readStep div trig a st ⟨0x06, .str s⟩ =
    .ok { st with
      lib := { st.lib with cells := st.lib.cells ++ [⟨a.nameMap s, [], [], [], []⟩] }
      cell := some (a.nameMap s)
      created := a.nameMap s :: st.created } := by
  show (if a.nameMap s ∈ st.lib.cells.map Cell.name then _ else _ : Py ReadState) = _
  rw [if_neg h]
  rfl

theorem step_endstr (st : ReadState) : readStep div trig a st ⟨0x07, .none⟩ =
    .ok { st with cell := none } := rfl

theorem step_endlib (st : ReadState) : readStep div trig a st ⟨0x04, .none⟩ =
    .ok { st with lib := { st.lib with cells := resolveRefs st.created st.lib.cells } } := rfl

theorem step_libname (st : ReadState) (s : Str) : readStep div trig a st ⟨0x02, .str s⟩ =
    .ok { st with lib := { st.lib with name := some s } } := rfl

theorem step_ignored (st : ReadState) (t : Nat) (d : Data) (ht : t = 0 ∨ t = 1 ∨ t = 5) :
    readStep div trig a st ⟨t, d⟩ = .ok st := by
  rcases ht with rfl | rfl | rfl <;> rfl

/-! ### groups of records -/

theorem run_chunks (st : ReadState) (chunks : List (List Int)) (l : List ℚ)
    (h : st.kwargs.xy = some l) :
    Run div trig a st (chunks.map fun c => ⟨0x10, .i32 c⟩)
      { st with kwargs := { st.kwargs with
          xy := some (l ++ chunks.flatten.map fun n : Int => st.factor * (n : ℚ)) } } := by
  induction chunks generalizing st l with
  | nil =>
    simp only [List.map_nil, List.flatten_nil, List.append_nil, ← h]
    exact Run.nil st
  | cons c chunks ih =>
    refine Run.cons (step_xy st c) ?_
    have := ih { st with kwargs := { st.kwargs with
      xy := some (st.kwargs.xy.getD [] ++ c.map fun n : Int => st.factor * (n : ℚ)) } } _ rfl
    simp only [h, Option.getD_some, List.append_assoc, ← List.map_append] at this ⊢
    exact this

theorem run_xy (st : ReadState) (chunks : List (List Int)) (h0 : chunks ≠ [])
    (h : st.kwargs.xy = none) :
    Run div trig a st (chunks.map fun c => ⟨0x10, .i32 c⟩)
      { st with kwargs := { st.kwargs with
          xy := some (chunks.flatten.map fun n : Int => st.factor * (n : ℚ)) } } := by
  cases chunks with
  | nil => exact absurd rfl h0
  | cons c chunks =>
    refine Run.cons (step_xy st c) ?_
    have := run_chunks (div := div) (trig := trig) (a := a) { st with kwargs := { st.kwargs with
      xy := some (st.kwargs.xy.getD [] ++ c.map fun n : Int => st.factor * (n : ℚ)) } } chunks _ rfl
    simp only [h, Option.getD_none, List.nil_append, ← List.map_append] at this ⊢
    exact this

theorem dictSet_new (d : Properties) (k : Int) (v : Option Str) (h : k ∉ d.map Prod.fst) :
    dictSet d k v = d ++ [(k, v)] := by
  induction d with
  | nil => rfl
  | cons p d ih =>
    obtain ⟨k', v'⟩ := p
    simp only [List.map_cons, List.mem_cons, not_or] at h
    unfold dictSet
    rw [if_neg (fun e => h.1 e.symm), ih h.2]
    rfl

theorem run_props (l : Properties) (hl : ∀ p ∈ l, ∃ s, p.2 = some s) (st : ReadState)
    (hn : ((st.properties ++ l).map Prod.fst).Nodup) :
    ∃ attr, Run div trig a st (propRecords l)
      { st with properties := st.properties ++ l, attr := attr } := by
  induction l generalizing st with
  | nil =>
    refine ⟨st.attr, ?_⟩
    simp only [List.append_nil]
    exact Run.nil st
  | cons p l ih =>
    obtain ⟨k, v⟩ := p
    obtain ⟨s, hs⟩ := hl _ List.mem_cons_self
    simp only at hs
    subst hs
    have hk : k ∉ st.properties.map Prod.fst := by
      intro hk
      rw [List.map_append, List.nodup_append] at hn
      exact hn.2.2 k hk k (by simp) rfl
    obtain ⟨attr, h⟩ := ih (fun p hp => hl p (List.mem_cons_of_mem _ hp))
      { st with properties := st.properties ++ [(k, some s)], attr := k } (by simpa using hn)
    refine ⟨attr, ?_⟩
    refine Run.cons (step_propattr st k) (Run.cons (step_propvalue _ s) ?_)
    simp only [dictSet_new _ _ _ hk]
    simp only [List.append_assoc, List.singleton_append] at h
    exact h

/-- The property records and ENDEL. -/
theorem run_close (st : ReadState) (c : Create) (el : El) (name : Str) (l : Properties)
    (hc : st.create = some c) (hn : st.cell = some name)
    (he : createElement trig c st.kwargs = .ok el) (hp : st.properties = [])
    (hel : el.setProps [] = el) (hl : GoodProps l) :
    ∃ attr, Run div trig a st (propRecords l ++ [⟨0x11, .none⟩])
      (afterEl { st with attr := attr } name (el.setProps l)) := by
  obtain ⟨attr, h⟩ := run_props (div := div) (trig := trig) (a := a) l
    (fun p hp => (hl.2 p hp).2.imp fun _ h => h.1) st (by rw [hp]; exact hl.1)
  refine ⟨attr, h.trans (Run.one ?_)⟩
  rw [step_endel { st with properties := st.properties ++ l, attr := attr } c el name hc hn he]
  simp only [hp, List.nil_append]
  refine congrArg Except.ok ?_
  unfold afterEl
  simp only
  split
  · rfl
  · have : l = [] := by
      rcases l with _ | ⟨p, l⟩
      · rfl
      · rename_i hlen; simp at hlen
    subst this
    rw [hel]

end

end Gdspy
