import Verif.Spec.Save
import Verif.Lemmas.Save
import Verif.Props.C19

/-!
# C98: what is in the file when saving raises an exception
-/

namespace Gdspy

open Spec

variable {div : ℚ → ℚ → ℚ} {trig : ℚ → ℚ × ℚ} {a : ReadArgs}

/-! ### the cells that are asked for -/

theorem find_selects {lib : Lib} (hn : (lib.cells.map Cell.name).Nodup) {s : Str} {c : Cell}
    (h : c ∈ lib.cells ∧ c.name = s) : lib.cells.find? (·.name = s) = some c := by
  obtain ⟨hc, rfl⟩ := h
  generalize lib.cells = l at hn hc
  induction l with
  | nil => exact absurd hc (by simp)
  | cons x l ih =>
    rw [List.map_cons, List.nodup_cons] at hn
    rcases List.mem_cons.1 hc with rfl | hc
    · simp
    · have : x.name ≠ c.name := fun e => hn.1 (e ▸ List.mem_map_of_mem hc)
      rw [List.find?_cons_of_neg (by simpa using this)]
      exact ih hn.2 hc

theorem picked_selects {lib : Lib} (hn : (lib.cells.map Cell.name).Nodup) {p : Pick} {c : Cell}
    (h : Selects lib p c) : lib.picked (some [p]) = [.cell c] := by
  cases p with
  | cell c' =>
    obtain rfl : c = c' := h
    rfl
  | name s =>
    simp only [Lib.picked, List.map_cons, List.map_nil]
    rw [find_selects hn h]

theorem picked_cons (lib : Lib) (p : Pick) (l : List Pick) :
    lib.picked (some (p :: l)) = lib.picked (some [p]) ++ lib.picked (some l) := rfl

theorem picked_append (lib : Lib) (l1 l2 : List Pick) :
    lib.picked (some (l1 ++ l2)) = lib.picked (some l1) ++ lib.picked (some l2) := by
  simp only [Lib.picked, List.map_append]

theorem picked_chosen {lib : Lib} (hn : (lib.cells.map Cell.name).Nodup) {cells : Option (List Pick)}
    {cs : List Cell} (h : Chosen lib cells cs) : lib.picked cells = cs.map .cell := by
  cases cells with
  | none =>
    obtain rfl : cs = lib.cells := h
    rfl
  | some l =>
    have h : List.Forall₂ (Selects lib) l cs := h
    induction h with
    | nil => rfl
    | cons h1 h2 ih => rw [picked_cons, picked_selects hn h1, ih h2]; rfl

/-- Every entry is a cell, or a name that the library does not have. -/
theorem picked_one (lib : Lib) (p : Pick) :
    (∃ c, Selects lib p c ∧ lib.picked (some [p]) = [.cell c]) ∨
    ∃ s, p = .name s ∧ s ∉ lib.cells.map Cell.name ∧ lib.picked (some [p]) = [.name s] := by
  cases p with
  | cell c => exact Or.inl ⟨c, rfl, rfl⟩
  | name s =>
    simp only [Lib.picked, List.map_cons, List.map_nil]
    cases h : lib.cells.find? (·.name = s) with
    | some c =>
      have h1 := List.find?_some h
      exact Or.inl ⟨c, ⟨List.mem_of_find?_eq_some h, by simpa using h1⟩, rfl⟩
    | none =>
      refine Or.inr ⟨s, rfl, ?_, rfl⟩
      rw [List.find?_eq_none] at h
      intro hs
      obtain ⟨c, hc, e⟩ := List.mem_map.1 hs
      exact h c hc (by simpa using e)

/-! ### sequences of writes -/

theorem Does.ok {ws : List (Py Bytes)} {b : Bytes} (h : Does ws (.ok b)) : runWrites ws = (b, none) := h

theorem Does.ok_of {ws : List (Py Bytes)} {w : Py Bytes} {b : Bytes} (h : Does ws w)
    (hr : runWrites ws = (b, none)) : w = .ok b := by
  cases w with
  | error e =>
    have h : (runWrites ws).2 = some e := h
    rw [hr] at h
    exact absurd h (by simp)
  | ok b' =>
    have h : runWrites ws = (b', none) := h
    rw [hr] at h
    rw [(Prod.mk.inj h).1]

theorem Does.error_of {ws : List (Py Bytes)} {w : Py Bytes} {b : Bytes} {e : PyErr} (h : Does ws w)
    (hr : runWrites ws = (b, some e)) : w = .error e := by
  cases w with
  | error e' =>
    have h : (runWrites ws).2 = some e' := h
    rw [hr] at h
    exact congrArg Except.error (Option.some.inj h).symm
  | ok b' =>
    have h : runWrites ws = (b', none) := h
    rw [hr] at h
    exact absurd (Prod.mk.inj h).2 (by simp)

theorem bins_does (bins : List Bytes) : Does (bins.map .ok) (.ok bins.flatten) := by
  induction bins with
  | nil => exact Does.nil
  | cons b bins ih => exact Does.cons (.ok b) ih

theorem saveGds_cells (lib : Lib) (cells : Option (List Pick)) (cs : List Cell)
    (h : lib.picked cells = cs.map .cell) (ts : Timestamp) (bins : List Bytes) :
    saveGds div trig lib cells ts bins = runWrites
      ([writeHeader div lib.name lib.unit lib.precision ts] ++
        (cs.flatMap (Cell.writes trig (div lib.unit lib.precision) ts) ++
          (bins.map .ok ++ [pack [.H 4, .H 0x0400]]))) := by
  unfold saveGds
  rw [h, List.flatMap_map]
  rfl

theorem save_does (lib : Lib) (cs : List Cell) (ts : Timestamp) (bins : List Bytes) :
    Does ([writeHeader div lib.name lib.unit lib.precision ts] ++
        (cs.flatMap (Cell.writes trig (div lib.unit lib.precision) ts) ++
          (bins.map .ok ++ [pack [.H 4, .H 0x0400]])))
      (writeGds div trig lib cs ts bins) := by
  refine ((Does.one _).append ((Does.writeAll fun c _ => cell_does trig _ ts c).append
    ((bins_does bins).append (Does.one _)))).of_eq ?_
  unfold writeGds
  generalize writeHeader div lib.name lib.unit lib.precision ts = x1
  generalize writeAll (Cell.toGds trig (div lib.unit lib.precision) ts) cs = x2
  generalize pack [.H 4, .H 0x0400] = x3
  cases x1 <;> cases x2 <;> cases x3 <;> simp [bind, Except.bind, pure, Except.pure]

/-! ### no exception -/

/-- The first exception of a list of entries, when one of them is unknown. -/
theorem picked_split (lib : Lib) (l : List Pick) :
    (∃ cs, List.Forall₂ (Selects lib) l cs ∧ lib.picked (some l) = cs.map .cell) ∨
    ∃ l1 s l2 cs, l = l1 ++ .name s :: l2 ∧ List.Forall₂ (Selects lib) l1 cs ∧
      lib.picked (some l1) = cs.map .cell ∧ s ∉ lib.cells.map Cell.name ∧
      lib.picked (some l) = cs.map .cell ++ .name s :: lib.picked (some l2) := by
  induction l with
  | nil => exact Or.inl ⟨[], .nil, rfl⟩
  | cons p l ih =>
    rcases picked_one lib p with ⟨c, h1, h2⟩ | ⟨s, rfl, hs, h2⟩
    · rcases ih with ⟨cs, h3, h4⟩ | ⟨l1, s, l2, cs, rfl, h3, h4, hs, h5⟩
      · exact Or.inl ⟨c :: cs, .cons h1 h3, by rw [picked_cons, h2, h4]; rfl⟩
      · refine Or.inr ⟨p :: l1, s, l2, c :: cs, rfl, .cons h1 h3, ?_, hs, ?_⟩
        · rw [picked_cons, h2, h4]; rfl
        · rw [picked_cons, h2, h5]; rfl
    · exact Or.inr ⟨[], s, l, [], rfl, .nil, rfl, hs, by rw [picked_cons, h2]; rfl⟩

/-- **C98.** `write_gds` returns exactly when every entry of `cells` stands for a cell and each of them
can be written; the file then has these cells, in this order (all cells of the library for `None`). -/
theorem C98_complete (lib : Lib) (hn : (lib.cells.map Cell.name).Nodup) (cells : Option (List Pick))
    (ts : Timestamp) (bins : List Bytes) (b : Bytes) :
    saveGds div trig lib cells ts bins = (b, none) ↔
      ∃ cs, Chosen lib cells cs ∧ writeGds div trig lib cs ts bins = .ok b := by
  constructor
  · intro h
    have key : ∀ cs, Chosen lib cells cs → lib.picked cells = cs.map .cell →
        ∃ cs, Chosen lib cells cs ∧ writeGds div trig lib cs ts bins = .ok b := by
      intro cs h1 h2
      rw [saveGds_cells lib cells cs h2] at h
      exact ⟨cs, h1, (save_does lib cs ts bins).ok_of h⟩
    cases cells with
    | none => exact key lib.cells rfl rfl
    | some l =>
      rcases picked_split lib l with ⟨cs, h1, h2⟩ | ⟨l1, s, l2, cs, rfl, h1, h2, hs, h3⟩
      · exact key cs h1 h2
      · exfalso
        unfold saveGds at h
        rw [h3, List.flatMap_append, List.flatMap_cons] at h
        have hx : ∀ (ws vs : List (Py Bytes)),
            (runWrites (ws ++ (.error PyErr.attributeError :: vs))).2 ≠ none := by
          intro ws vs
          rcases hr : runWrites ws with ⟨x, _ | e⟩
          · rw [runWrites_append_ok hr]; simp [runWrites]
          · rw [runWrites_append_error hr]; simp
        have h2 := congrArg Prod.snd h
        simp only [Pick.writes, List.cons_append, List.nil_append, List.append_assoc] at h2
        rw [← List.cons_append] at h2
        exact hx _ _ h2
  · rintro ⟨cs, h1, h2⟩
    rw [saveGds_cells lib cells cs (picked_chosen hn h1)]
    have := save_does (div := div) (trig := trig) lib cs ts bins
    rw [h2] at this
    exact this

/-! ### an exception -/

theorem runWrites_flatMap {α : Type _} {ws : α → List (Py Bytes)} {w : α → Py Bytes}
    (hd : ∀ x, Does (ws x) (w x)) : ∀ {l : List α} {b : Bytes} {e : PyErr},
    runWrites (l.flatMap ws) = (b, some e) →
    ∃ l1 x l2 b1 part, l = l1 ++ x :: l2 ∧ writeAll w l1 = .ok b1 ∧
      runWrites (ws x) = (part, some e) ∧ b = b1 ++ part := by
  intro l
  induction l with
  | nil => intro b e h; exact absurd (congrArg Prod.snd h) (by simp [runWrites])
  | cons x l ih =>
    intro b e h
    rw [List.flatMap_cons] at h
    rcases hr : runWrites (ws x) with ⟨c, _ | e'⟩
    · rw [runWrites_append_ok hr] at h
      obtain ⟨l1, y, l2, b1, part, rfl, h1, h2, h3⟩ := ih (b := (runWrites (l.flatMap ws)).1) (e := e)
        (Prod.ext rfl (Prod.mk.inj h).2)
      refine ⟨x :: l1, y, l2, c ++ b1, part, rfl, ?_, h2, ?_⟩
      · rw [writeAll, (hd x).ok_of hr, h1, py_bind_ok, py_bind_ok, py_pure]
      · rw [← (Prod.mk.inj h).1, h3, List.append_assoc]
    · rw [runWrites_append_error hr] at h
      cases h
      exact ⟨[], x, l, [], b, rfl, rfl, hr, rfl⟩

/-- **C98.** After an exception in a cell the file has, of that cell: a beginning of its head; or its
head, all elements before the one that raises, and the completed writes of that element. -/
theorem C98_cell_failure (m : ℚ) (ts : Timestamp) (c : Cell) (b : Bytes) (e : PyErr)
    (h : runWrites (c.writes trig m ts) = (b, some e)) :
    c.toGds trig m ts = .error e ∧
    (runWrites (cellHeadWrites ts c.name) = (b, some e) ∨
      ∃ hd l1 x l2 b1 part, runWrites (cellHeadWrites ts c.name) = (hd, none) ∧
        c.items = l1 ++ x :: l2 ∧ runWrites (l1.flatMap (CellItem.writes trig m)) = (b1, none) ∧
        runWrites (x.writes trig m) = (part, some e) ∧ b = hd ++ b1 ++ part) := by
  refine ⟨(cell_does trig m ts c).error_of h, ?_⟩
  unfold Cell.writes at h
  rcases hr : runWrites (cellHeadWrites ts c.name) with ⟨hd, _ | e'⟩
  · right
    rw [runWrites_append_ok hr] at h
    rcases hi : runWrites (c.items.flatMap (CellItem.writes trig m)) with ⟨bi, _ | e''⟩
    · rw [runWrites_append_ok hi] at h
      have := congrArg Prod.snd h
      rw [pack_ok _ (by flds_ok)] at this
      exact absurd this (by simp [runWrites])
    · rw [runWrites_append_error hi] at h
      obtain ⟨l1, x, l2, b1, part, h1, h2, h3, h4⟩ := runWrites_flatMap (item_does trig m) hi
      have h5 : runWrites (l1.flatMap (CellItem.writes trig m)) = (b1, none) := by
        have := Does.writeAll (l := l1) fun i _ => item_does trig m i
        rw [h2] at this
        exact this
      have e1 : e'' = e := Option.some.inj (congrArg Prod.snd h)
      subst e1
      exact ⟨hd, l1, x, l2, b1, part, rfl, h1, h5, h3, by
        rw [← (Prod.mk.inj h).1, h4, List.append_assoc]⟩
  · left
    rw [runWrites_append_error hr] at h
    exact h

/-- **C98.** What is in the file after an exception. If the head cannot be written it is empty.
Otherwise it has the head and all cells before the entry that raises, complete, and then nothing more
for an unknown name (`AttributeError`), or a part of the cell that raises (`C98_cell_failure`). Neither
later cells nor ENDLIB are written. -/
theorem C98_failure (lib : Lib) (l : List Pick) (ts : Timestamp) (bins : List Bytes) (b : Bytes)
    (e : PyErr) (h : saveGds div trig lib (some l) ts bins = (b, some e)) :
    (writeHeader div lib.name lib.unit lib.precision ts = .error e ∧ b = []) ∨
    ∃ hd l1 x l2 cs b1 part, writeHeader div lib.name lib.unit lib.precision ts = .ok hd ∧
      l = l1 ++ x :: l2 ∧ List.Forall₂ (Selects lib) l1 cs ∧
      writeAll (Cell.toGds trig (div lib.unit lib.precision) ts) cs = .ok b1 ∧ b = hd ++ b1 ++ part ∧
      ((∃ s, x = .name s ∧ s ∉ lib.cells.map Cell.name ∧ e = .attributeError ∧ part = []) ∨
        ∃ c, Selects lib x c ∧
          runWrites (c.writes trig (div lib.unit lib.precision) ts) = (part, some e)) := by
  unfold saveGds at h
  cases hh : writeHeader div lib.name lib.unit lib.precision ts with
  | error e' =>
    rw [hh] at h
    simp only [List.cons_append, runWrites] at h
    cases h
    exact Or.inl ⟨rfl, rfl⟩
  | ok hd =>
    right
    rw [hh, runWrites_append_ok (b := hd) (by simp [runWrites])] at h
    set m := div lib.unit lib.precision with hm
    have key : ∀ (l : List Pick) (b : Bytes),
        runWrites ((lib.picked (some l)).flatMap (Pick.writes trig m ts)) = (b, some e) →
        ∃ l1 x l2 cs b1 part, l = l1 ++ x :: l2 ∧ List.Forall₂ (Selects lib) l1 cs ∧
          writeAll (Cell.toGds trig m ts) cs = .ok b1 ∧ b = b1 ++ part ∧
          ((∃ s, x = .name s ∧ s ∉ lib.cells.map Cell.name ∧ e = .attributeError ∧ part = []) ∨
            ∃ c, Selects lib x c ∧ runWrites (c.writes trig m ts) = (part, some e)) := by
      intro l
      induction l with
      | nil => intro b h; exact absurd (congrArg Prod.snd h) (by simp [Lib.picked, runWrites])
      | cons p l ih =>
        intro b h
        rw [picked_cons, List.flatMap_append] at h
        rcases picked_one lib p with ⟨c, h1, h2⟩ | ⟨s, rfl, hs, h2⟩
        · rw [h2] at h
          simp only [List.flatMap_cons, List.flatMap_nil, List.append_nil, Pick.writes] at h
          rcases hr : runWrites (c.writes trig m ts) with ⟨x, _ | e'⟩
          · rw [runWrites_append_ok hr] at h
            obtain ⟨l1, y, l2, cs, b1, part, rfl, h3, h4, h5, h6⟩ := ih _ (Prod.ext rfl
              (Prod.mk.inj h).2)
            refine ⟨p :: l1, y, l2, c :: cs, x ++ b1, part, rfl, .cons h1 h3, ?_, ?_, h6⟩
            · rw [writeAll, (cell_does trig m ts c).ok_of hr, h4, py_bind_ok, py_bind_ok, py_pure]
            · rw [← (Prod.mk.inj h).1, List.append_assoc]
              exact congrArg (x ++ ·) h5
          · rw [runWrites_append_error hr] at h
            cases h
            exact ⟨[], p, l, [], [], b, rfl, .nil, rfl, rfl, Or.inr ⟨c, h1, hr⟩⟩
        · rw [h2] at h
          simp only [List.flatMap_cons, List.flatMap_nil, List.append_nil, Pick.writes,
            List.cons_append, runWrites] at h
          cases h
          exact ⟨[], _, l, [], [], [], rfl, .nil, rfl, rfl, Or.inl ⟨s, rfl, hs, rfl, rfl⟩⟩
    rcases hc : runWrites ((lib.picked (some l)).flatMap (Pick.writes trig m ts)) with ⟨x, _ | e'⟩
    · exfalso
      rw [runWrites_append_ok hc] at h
      have h2 := congrArg Prod.snd h
      rw [runWrites_append_ok (b := bins.flatten) (bins_does bins), pack_ok _ (by flds_ok)] at h2
      exact absurd h2 (by simp [runWrites])
    · rw [runWrites_append_error hc] at h
      have h2 : e' = e := Option.some.inj (congrArg Prod.snd h)
      subst h2
      obtain ⟨l1, y, l2, cs, b1, part, h1, h3, h4, h5, h6⟩ := key l x hc
      exact ⟨hd, l1, y, l2, cs, b1, part, rfl, h1, h3, h4, by
        rw [← (Prod.mk.inj h).1, h5, List.append_assoc], h6⟩

/-! ### reading the file -/

/-- The state of the reader between two elements or cells. -/
def midState (lib : Lib) (f : ℚ) (cur : Option Str) (attr : ℤ) (created : List Str) : ReadState :=
  { lib := lib, kwargs := {}, create := none, factor := f, cell := cur, properties := [],
    attr := attr, created := created }

theorem items_toGds (m : ℚ) (c : Cell) : writeAll (CellItem.toGds trig m) c.items = (do
      let x ← (do
        let x ← (do
          let x ← writeAll (PolygonSet.toGds m) c.polygons
          let y ← writeAll (PathEl.toGds m) c.paths
          pure (x ++ y))
        let y ← writeAll (Label.toGds m) c.labels
        pure (x ++ y))
      let y ← writeAll (Ref.toGds trig m) c.references
      pure (x ++ y)) := by
  unfold Cell.items
  simp only [writeAll_append', writeAll_map', CellItem.toGds]
  generalize writeAll (PolygonSet.toGds m) c.polygons = y1
  generalize writeAll (PathEl.toGds m) c.paths = y2
  generalize writeAll (Label.toGds m) c.labels = y3
  generalize writeAll (Ref.toGds trig m) c.references = y4
  cases y1 <;> cases y2 <;> cases y3 <;> cases y4 <;> simp [bind, Except.bind, pure, Except.pure]

/-- Reading the head and the elements of a cell. -/
theorem cellPart_reads {m d : ℚ} (c : Cell) (h : c.Good trig m d) (ts : Timestamp)
    (hts : Spec.Timestamp.Fits ts) :
    ∃ hd body, cellHead ts c.name = .ok hd ∧ writeAll (CellItem.toGds trig m) c.items = .ok body ∧
      ∀ lib cur attr created, a.nameMap c.name ∉ lib.cells.map Cell.name → ∃ attr', ∀ rest,
      readFrom div trig a (midState lib d cur attr created) (hd ++ body ++ rest)
        = readFrom div trig a (midState { lib with cells := lib.cells ++ [c.imported a] } d
            (some (a.nameMap c.name)) attr' (a.nameMap c.name :: created)) rest := by
  obtain ⟨body, hb, hread⟩ := cellBody_reads (div := div) (a := a) (k := 1) c h
  rw [← items_toGds] at hb
  have hlen := padEven_length_le c.name
  have hlen2 := h.name.2.2.1
  refine ⟨recsBytes [recStamp 5 ts (by norm_num) hts, recText 6 c.name (by norm_num) h.name],
    body, ?_, hb, ?_⟩
  · unfold cellHead
    rw [pack_ok _ (by flds_ok), py_bind_ok, packTs_ok hts, py_bind_ok, pack_ok _ (by flds_ok),
      py_bind_ok, encodeAscii_ok (padEven_ascii h.name.2.1), py_bind_ok, py_pure]
    refine congrArg Except.ok ?_
    have e3 : (4 + ((padEven c.name).length : Int)).toNat = 4 + (padEven c.name).length := by omega
    rw [recsBytes_cons, recStamp_bytes]
    simp [fldsBytes, Fld.bytes, recsBytes_cons, recsBytes_nil, recText, mkFrame_bytes, e3]
  · intro lib cur attr created hnew
    obtain ⟨attr', hr⟩ := hread
      { lib with cells := lib.cells ++ [⟨a.nameMap c.name, [], [], [], []⟩] } (a.nameMap c.name)
      attr (a.nameMap c.name :: created)
    refine ⟨attr', fun rest => ?_⟩
    have run1 : Run div trig a (midState lib d cur attr created)
        (recsRecords [recStamp 5 ts (by norm_num) hts, recText 6 c.name (by norm_num) h.name])
        (cellState { lib with cells := lib.cells ++ [⟨a.nameMap c.name, [], [], [], []⟩] } d
          (a.nameMap c.name) attr (a.nameMap c.name :: created)) :=
      Run.cons (step_ignored _ _ _ (by right; right; rfl)) (Run.one (step_strname _ _ hnew))
    rw [one_mul] at hr
    rw [List.append_assoc, readFrom_recs _ _ _ run1, hr, addTo_last lib _ _ hnew _ rfl]
    have e : (cellEls a (c.scaled 1)).foldl Cell.add ⟨a.nameMap c.name, [], [], [], []⟩
      = c.imported a := by rw [cell_scaled_one]; exact foldl_cellEls a c
    rw [e]
    rfl

/-- What saving a cell leaves in the file, and what reading it does. -/
theorem leaves_reads {m d : ℚ} {c p : Cell} (h : Leaves trig m d c p) (ts : Timestamp)
    (hts : Spec.Timestamp.Fits ts) : ∀ lib cur attr created,
      a.nameMap c.name ∉ lib.cells.map Cell.name → ∃ cur' attr', ∀ rest,
      readFrom div trig a (midState lib d cur attr created)
          ((runWrites (c.writes trig m ts)).1 ++ rest)
        = readFrom div trig a (midState { lib with cells := lib.cells ++ [p.imported a] } d
            cur' attr' (a.nameMap c.name :: created)) rest := by
  intro lib cur attr created hnew
  cases h with
  | whole hgood =>
    obtain ⟨hd, body, h1, h2, h3⟩ := cellPart_reads (div := div) (a := a) c hgood ts hts
    obtain ⟨attr', h3⟩ := h3 lib cur attr created hnew
    refine ⟨none, attr', fun rest => ?_⟩
    have hw : (runWrites (c.writes trig m ts)).1 = hd ++ body ++ recsBytes [recNone 7 (by norm_num)] := by
      have := cell_does trig m ts c
      rw [cell_toGds_eq, h1, h2, py_bind_ok, py_bind_ok, pack_ok _ (by flds_ok), py_bind_ok, py_pure,
        py_bind_ok, py_pure] at this
      rw [this.ok]
      simp [fldsBytes, Fld.bytes, recsBytes_cons, recsBytes_nil, recNone, mkFrame_bytes]
    rw [hw, List.append_assoc, h3]
    exact readFrom_recs _ _ [recNone 7 (by norm_num)] (Run.one (step_endstr _)) rest
  | cut _ before y after extra part e hc hraises hextra hname hp hgood =>
    obtain ⟨hd, body, h1, h2, h3⟩ := cellPart_reads (div := div) (a := a) p hgood ts hts
    rw [hname] at h1 h3
    obtain ⟨attr', h3⟩ := h3 lib cur attr created hnew
    refine ⟨some (a.nameMap c.name), attr', fun rest => ?_⟩
    have hw : (runWrites (c.writes trig m ts)).1 = hd ++ body := by
      have d1 := cellHead_does ts c.name
      rw [h1] at d1
      have d2 := Does.writeAll (l := before ++ extra) fun i _ => item_does trig m i
      rw [← hp, h2] at d2
      unfold Cell.writes
      rw [runWrites_append_ok d1.ok, hc, List.flatMap_append, List.flatMap_cons]
      have d2 : runWrites (p.items.flatMap (CellItem.writes trig m)) = (body, none) := d2
      rw [hp, List.flatMap_append] at d2
      rcases hb : runWrites (before.flatMap (CellItem.writes trig m)) with ⟨x, _ | e'⟩
      · rw [runWrites_append_ok hb, hextra] at d2
        rw [List.append_assoc, runWrites_append_ok hb, List.append_assoc,
          runWrites_append_error hraises]
        exact congrArg (hd ++ ·) (Prod.mk.inj d2).1
      · rw [runWrites_append_error hb] at d2
        exact absurd (Prod.mk.inj d2).2 (by simp)
    rw [hw]
    exact h3 rest

theorem leaves_name {m d : ℚ} {c p : Cell} (h : Leaves trig m d c p) : p.name = c.name := by
  cases h with
  | whole => rfl
  | cut => assumption

/-- A list of cells, one after the other. -/
theorem leavesAll_reads {m d : ℚ} (ts : Timestamp) (hts : Spec.Timestamp.Fits ts) {cs ps : List Cell}
    (h : List.Forall₂ (Leaves trig m d) cs ps) : ∀ lib cur attr created,
      (lib.cells.map Cell.name ++ cs.map fun c => a.nameMap c.name).Nodup → ∃ cur' attr', ∀ rest,
      readFrom div trig a (midState lib d cur attr created)
          (cs.flatMap (fun c => (runWrites (c.writes trig m ts)).1) ++ rest)
        = readFrom div trig a (midState { lib with cells := lib.cells ++ ps.map (Cell.imported a) } d
            cur' attr' ((cs.map fun c => a.nameMap c.name).reverse ++ created)) rest := by
  induction h with
  | nil =>
    intro lib cur attr created _
    exact ⟨cur, attr, fun rest => by simp⟩
  | @cons c p cs ps h1 _ ih =>
    intro lib cur attr created hn
    have hnew : a.nameMap c.name ∉ lib.cells.map Cell.name := by
      intro hmem
      rw [List.nodup_append] at hn
      exact hn.2.2 _ hmem _ (by simp) rfl
    obtain ⟨cur1, attr1, h1'⟩ := leaves_reads (div := div) (a := a) h1 ts hts lib cur attr created hnew
    have hpn : (p.imported a).name = a.nameMap c.name := congrArg a.nameMap (leaves_name h1)
    obtain ⟨cur2, attr2, h2⟩ := ih { lib with cells := lib.cells ++ [p.imported a] } cur1 attr1
      (a.nameMap c.name :: created) (by simpa [hpn] using hn)
    refine ⟨cur2, attr2, fun rest => ?_⟩
    rw [List.flatMap_cons, List.append_assoc, h1', h2]
    simp

theorem whole_bytes {m d : ℚ} (ts : Timestamp) (hts : Spec.Timestamp.Fits ts) : ∀ {cs : List Cell},
    (∀ c ∈ cs, c.Good trig m d) → runWrites (cs.flatMap (Cell.writes trig m ts))
      = (cs.flatMap (fun c => (runWrites (c.writes trig m ts)).1), none) := by
  intro cs
  induction cs with
  | nil => intro _; rfl
  | cons c cs ih =>
    intro h
    obtain ⟨b, hb, -⟩ := cell_reads (div := fun x y => x / y)
      (a := ⟨.skip, id, fun _ => none, fun _ => none, fun _ => none⟩) (k := 1) c
      (h c List.mem_cons_self) ts hts
    have hd := cell_does trig m ts c
    rw [hb] at hd
    rw [List.flatMap_cons, List.flatMap_cons, runWrites_append_ok hd.ok,
      ih fun c' hc' => h c' (List.mem_cons_of_mem _ hc'), hd.ok]

/-- **C98.** A file that was left by an exception is read without any exception, when the element that
raised had not been begun (or only whole elements of it were written, such as the first polygons of
a set): the reader returns the cells before, the beginning of the cell that raised, and nothing of
the others, with all references by name. Nothing tells it from the file of a smaller layout. -/
theorem C98_readable (lib : Lib) (hn : (lib.cells.map Cell.name).Nodup) (name : Str)
    (hname : lib.name = some name) (hgn : GoodText name)
    (h1 : Storable (div lib.precision lib.unit)) (h2 : Storable lib.precision)
    (ts : Timestamp) (hts : Spec.Timestamp.Fits ts) (l1 l2 : List Pick) (x : Pick) (cs : List Cell)
    (c p : Cell) (hsel : List.Forall₂ (Selects lib) l1 cs) (hx : Selects lib x c)
    (hgood : ∀ c ∈ cs, c.Good trig (div lib.unit lib.precision) (div lib.precision lib.unit))
    (hleft : Leaves trig (div lib.unit lib.precision) (div lib.precision lib.unit) c p)
    (e : PyErr) (hraises : c.toGds trig (div lib.unit lib.precision) ts = .error e)
    (bins : List Bytes) (hu : a.units = .skip) (lib0 : Lib)
    (hnd : (lib0.cells.map Cell.name ++ (cs ++ [c]).map fun c => a.nameMap c.name).Nodup) :
    ∃ b, saveGds div trig lib (some (l1 ++ x :: l2)) ts bins = (b, some e) ∧
      readGds div trig a lib0 b = ({ lib0 with
        name := some name
        cells := lib0.cells ++ (cs ++ [p]).map (Cell.imported a) }, none) := by
  obtain ⟨hd, e1, r1⟩ := header_reads (div := div) (trig := trig) (a := a) name hgn lib.unit
    lib.precision h1 h2 ts hts lib0 (by rw [hu]; trivial)
  set m := div lib.unit lib.precision with hm
  set d := div lib.precision lib.unit with hd'
  have hall : List.Forall₂ (Leaves trig m d) (cs ++ [c]) (cs ++ [p]) := by
    clear hsel hnd
    induction cs with
    | nil => exact .cons hleft .nil
    | cons c' cs ih =>
      exact .cons (.whole c' (hgood c' List.mem_cons_self))
        (ih fun c'' hc'' => hgood c'' (List.mem_cons_of_mem _ hc''))
  obtain ⟨cur', attr', hr⟩ := leavesAll_reads (div := div) (a := a) ts hts hall
    { lib0 with name := some name } none (-1) [] hnd
  have hpick : lib.picked (some (l1 ++ x :: l2))
      = cs.map .cell ++ .cell c :: lib.picked (some l2) := by
    rw [picked_append, picked_chosen hn (cells := some l1) hsel, picked_cons, picked_selects hn hx]
    rfl
  have hcr : runWrites (c.writes trig m ts) = ((runWrites (c.writes trig m ts)).1, some e) := by
    have := cell_does trig m ts c
    rw [hraises] at this
    exact Prod.ext rfl this
  refine ⟨hd ++ (cs ++ [c]).flatMap fun c => (runWrites (c.writes trig m ts)).1, ?_, ?_⟩
  · unfold saveGds
    rw [hname, e1, runWrites_append_ok (b := hd) (by simp [runWrites]), hpick, List.flatMap_append,
      List.flatMap_map, List.flatMap_cons]
    have hw := whole_bytes (trig := trig) ts hts hgood
    have hf : (fun c => Pick.writes trig (div lib.unit lib.precision) ts (Pick.cell c))
        = Cell.writes trig m ts := rfl
    rw [hf, List.append_assoc, runWrites_append_ok (b := _) hw, List.append_assoc]
    have hcr' : runWrites (Pick.writes trig (div lib.unit lib.precision) ts (.cell c))
        = ((runWrites (c.writes trig m ts)).1, some e) := hcr
    rw [runWrites_append_error hcr']
    simp
  · rw [readGds_eq, r1]
    have e0 : headLib div a.units lib0 name d lib.precision = { lib0 with name := some name } := by
      rw [hu]; rfl
    have e2 : headFactor div a.units lib0 d lib.precision = d := by rw [hu]; rfl
    have := hr []
    rw [List.append_nil] at this
    rw [e0, e2]
    have hs : libState { lib0 with name := some name } d (-1) []
        = midState { lib0 with name := some name } d none (-1) [] := rfl
    rw [hs, this, readFrom_nil]
    rfl

/-- **C98.** The same for a name that the library does not have: `AttributeError`, and a file with the
cells before it, which is read without any exception. -/
theorem C98_unknown_name (lib : Lib) (hn : (lib.cells.map Cell.name).Nodup) (name : Str)
    (hname : lib.name = some name) (hgn : GoodText name)
    (h1 : Storable (div lib.precision lib.unit)) (h2 : Storable lib.precision)
    (ts : Timestamp) (hts : Spec.Timestamp.Fits ts) (l1 l2 : List Pick) (s : Str) (cs : List Cell)
    (hsel : List.Forall₂ (Selects lib) l1 cs) (hs : s ∉ lib.cells.map Cell.name)
    (hgood : ∀ c ∈ cs, c.Good trig (div lib.unit lib.precision) (div lib.precision lib.unit))
    (bins : List Bytes) (hu : a.units = .skip) (lib0 : Lib)
    (hnd : (lib0.cells.map Cell.name ++ cs.map fun c => a.nameMap c.name).Nodup) :
    ∃ b, saveGds div trig lib (some (l1 ++ .name s :: l2)) ts bins = (b, some .attributeError) ∧
      readGds div trig a lib0 b = ({ lib0 with
        name := some name
        cells := lib0.cells ++ cs.map (Cell.imported a) }, none) := by
  obtain ⟨hd, e1, r1⟩ := header_reads (div := div) (trig := trig) (a := a) name hgn lib.unit
    lib.precision h1 h2 ts hts lib0 (by rw [hu]; trivial)
  set m := div lib.unit lib.precision with hm
  set d := div lib.precision lib.unit with hd'
  have hall : List.Forall₂ (Leaves trig m d) cs cs := by
    clear hsel hnd
    induction cs with
    | nil => exact .nil
    | cons c' cs ih =>
      exact .cons (.whole c' (hgood c' List.mem_cons_self))
        (ih fun c'' hc'' => hgood c'' (List.mem_cons_of_mem _ hc''))
  obtain ⟨cur', attr', hr⟩ := leavesAll_reads (div := div) (a := a) ts hts hall
    { lib0 with name := some name } none (-1) [] hnd
  have hone : lib.picked (some [.name s]) = [.name s] := by
    rcases picked_one lib (.name s) with ⟨c, hc, -⟩ | ⟨s', hs', -, h⟩
    · exact absurd (hc.2 ▸ List.mem_map_of_mem hc.1) hs
    · cases hs'; exact h
  have hpick : lib.picked (some (l1 ++ .name s :: l2))
      = cs.map .cell ++ .name s :: lib.picked (some l2) := by
    rw [picked_append, picked_chosen hn (cells := some l1) hsel, picked_cons, hone]
    rfl
  refine ⟨hd ++ cs.flatMap fun c => (runWrites (c.writes trig m ts)).1, ?_, ?_⟩
  · unfold saveGds
    rw [hname, e1, runWrites_append_ok (b := hd) (by simp [runWrites]), hpick, List.flatMap_append,
      List.flatMap_map, List.flatMap_cons]
    have hw := whole_bytes (trig := trig) ts hts hgood
    have hf : (fun c => Pick.writes trig (div lib.unit lib.precision) ts (Pick.cell c))
        = Cell.writes trig m ts := rfl
    rw [hf, List.append_assoc, runWrites_append_ok (b := _) hw]
    simp [Pick.writes, runWrites]
  · rw [readGds_eq, r1]
    have e0 : headLib div a.units lib0 name d lib.precision = { lib0 with name := some name } := by
      rw [hu]; rfl
    have e2 : headFactor div a.units lib0 d lib.precision = d := by rw [hu]; rfl
    have := hr []
    rw [List.append_nil] at this
    rw [e0, e2]
    have hs : libState { lib0 with name := some name } d (-1) []
        = midState { lib0 with name := some name } d none (-1) [] := rfl
    rw [hs, this, readFrom_nil]
    rfl

/-- **C98.** A program that goes on with the next cell when `GdsWriter.write_cell` raises gets a file
with all cells, those that raised with the elements before the exception, provided that the elements
that raised had not been begun. -/
theorem C98_writer_partial (name : Str) (hgn : GoodText name) (unit precision : ℚ)
    (h1 : Storable (div precision unit)) (h2 : Storable precision)
    (ts : Timestamp) (hts : Spec.Timestamp.Fits ts) (cs ps : List Cell)
    (hleft : List.Forall₂ (Leaves trig (div unit precision) (div precision unit)) cs ps)
    (hu : a.units = .skip) (lib0 : Lib)
    (hnd : (lib0.cells.map Cell.name ++ cs.map fun c => a.nameMap c.name).Nodup) :
    ∃ w b, Writer.new div (some name) unit precision ts = .ok w ∧
      (cs.foldl (Writer.tryCell trig ts) w).close = .ok b ∧
      readGds div trig a lib0 b = ({ lib0 with
        name := some name
        cells := lib0.cells ++ (ps.map (Cell.imported a)).map (Cell.resolvedIn
          (lib0.cells.map Cell.name ++ cs.map fun c => a.nameMap c.name)) }, none) := by
  obtain ⟨hd, e1, r1⟩ := header_reads (div := div) (trig := trig) (a := a) name hgn unit
    precision h1 h2 ts hts lib0 (by rw [hu]; trivial)
  set m := div unit precision with hm
  set d := div precision unit with hd'
  obtain ⟨cur', attr', hr⟩ := leavesAll_reads (div := div) (a := a) ts hts hleft
    { lib0 with name := some name } none (-1) [] hnd
  have hfold : ∀ (cs : List Cell) (w : Writer), w.res = m → cs.foldl (Writer.tryCell trig ts) w
      = { w with out := w.out ++ cs.flatMap fun c => (runWrites (c.writes trig m ts)).1 } := by
    intro cs
    induction cs with
    | nil => intro w _; simp
    | cons c cs ih =>
      intro w hw
      rw [List.foldl_cons, ih _ (by simpa [Writer.tryCell] using hw)]
      simp [Writer.tryCell, hw]
  refine ⟨⟨hd, m⟩, hd ++ (cs.flatMap (fun c => (runWrites (c.writes trig m ts)).1)
    ++ recsBytes [recNone 4 (by norm_num)]), ?_, ?_, ?_⟩
  · unfold Writer.new
    rw [e1, py_bind_ok, py_pure]
  · rw [hfold cs _ rfl]
    unfold Writer.close
    rw [pack_ok _ (by flds_ok), py_bind_ok, py_pure]
    refine congrArg Except.ok ?_
    simp [fldsBytes, Fld.bytes, recsBytes_cons, recsBytes_nil, recNone, mkFrame_bytes]
  · rw [readGds_eq, r1]
    have e0 : headLib div a.units lib0 name d precision = { lib0 with name := some name } := by
      rw [hu]; rfl
    have e2 : headFactor div a.units lib0 d precision = d := by rw [hu]; rfl
    rw [e0, e2]
    have hs : libState { lib0 with name := some name } d (-1) []
        = midState { lib0 with name := some name } d none (-1) [] := rfl
    have hend : ∀ st, readFrom div trig a st (recsBytes [recNone 4 (by norm_num)])
        = ({ st with lib := { st.lib with cells := resolveRefs st.created st.lib.cells } }, none) := by
      intro st
      have := readFrom_recs (div := div) (trig := trig) (a := a) st _ [recNone 4 (by norm_num)]
        (Run.one (step_endlib st)) []
      rw [List.append_nil] at this
      rw [this, readFrom_nil]
    have hnames : (ps.map (Cell.imported a)).map Cell.name = cs.map fun c => a.nameMap c.name := by
      clear hnd hr
      induction hleft with
      | nil => rfl
      | cons h1 _ ih =>
        simp only [List.map_cons, ih]
        exact congrArg (· :: _) (congrArg a.nameMap (leaves_name h1))
    rw [hs, hr, hend]
    refine Prod.ext ?_ rfl
    simp only [midState, List.append_nil]
    rw [resolveRefs_eq]
    · rw [List.map_append, hnames]
    · intro n
      simp only [List.mem_reverse]
      rw [hnames]
    · rw [hnames]
      exact hnd

/-! ### exceptions inside of elements -/

theorem pack_H_error (fs gs : List Fld) (n : Int) (hf : fldsOk fs) (hn : n < 0 ∨ 65536 ≤ n) :
    pack (fs ++ .H n :: gs) = .error .structError := by
  induction fs with
  | nil =>
    rw [List.nil_append, pack]
    have : packH n = .error .structError := by
      unfold packH
      rw [if_neg (by omega)]
    simp [this, bind, Except.bind]
  | cons f fs ih =>
    obtain ⟨h1, h2⟩ := hf
    have h3 : pack [f] = .ok (fldsBytes [f]) := pack_ok _ ⟨h1, trivial⟩
    cases f <;>
      · simp only [pack] at h3
        obtain ⟨x, hx, -⟩ := py_bind_eq_ok h3
        simp only [List.cons_append, pack, ih h2]
        rw [hx, py_bind_ok, py_bind_error]

theorem propLeaves_writes {q : Int × Option Str} {x : Bytes} {e : PyErr} (h : PropLeaves q x e)
    (r : Properties) : runWrites (propsWrites (q :: r)) = (x, some e) := by
  obtain ⟨n, _ | v⟩ := q
  · obtain ⟨rfl, rfl⟩ := h
    rfl
  · rw [propsWrites]
    rcases h with ⟨hn, rfl, rfl⟩ | ⟨hn, hv, ⟨c, hc, hc'⟩, rfl, rfl⟩
    · have := pack_H_error [.H 6, .H 0x2B02] [.H (4 + (padEven v).length), .H 0x2C06] n (by flds_ok) hn
      simp only [List.cons_append, List.nil_append] at this
      rw [this]
      rfl
    · have hlen : (padEven v).length = v.length + v.length % 2 := by
        unfold padEven
        split_ifs with h
        · rw [List.length_append, List.length_singleton]; omega
        · omega
      have he : encodeAscii (padEven v) = .error .unicodeError := by
        unfold encodeAscii
        rw [if_neg]
        intro hall
        rw [List.all_eq_true] at hall
        have : c ∈ padEven v := by
          unfold padEven
          split_ifs
          · exact List.mem_append_left _ hc
          · exact hc
        have := hall c this
        simp only [decide_eq_true_eq] at this
        omega
      have hpk := pack_ok [.H 6, .H 0x2B02, .H n, .H (4 + ((padEven v).length : Int)), .H 0x2C06]
        ⟨⟨by norm_num, by norm_num⟩, ⟨by norm_num, by norm_num⟩, hn, ⟨by omega, by omega⟩,
          ⟨by norm_num, by norm_num⟩, trivial⟩
      rw [hpk, he]
      simp only [runWrites, fldsBytes, Fld.bytes, List.append_nil]
      have e1 : (4 + ((padEven v).length : Int)).toNat = 4 + (v.length + v.length % 2) := by omega
      rw [e1]
      have e2 : be16 (Int.toNat 6) ++ be16 (Int.toNat 0x2B02) = [0, 6, 0x2B, 2] := by decide
      have e3 : be16 (Int.toNat 0x2C06) = [0x2C, 6] := by decide
      rw [← e2, ← e3]
      simp only [List.append_assoc]

/-- The element without the property and those after it, up to ENDEL, and then `x`. -/
theorem props_cut (A : List (Py Bytes)) (p1 r : Properties) (q : Int × Option Str) (b x : Bytes)
    (e : PyErr) (hq : PropLeaves q x e)
    (h : runWrites (A ++ (propsWrites p1 ++ [pack [.H 4, .H 0x1100]])) = (b ++ [0, 4, 0x11, 0], none)) :
    runWrites (A ++ (propsWrites (p1 ++ q :: r) ++ [pack [.H 4, .H 0x1100]])) = (b ++ x, some e) := by
  have hp : ∀ p1 b1, runWrites (propsWrites p1) = (b1, none) →
      runWrites (propsWrites (p1 ++ q :: r)) = (b1 ++ x, some e) := by
    intro p1
    induction p1 with
    | nil =>
      intro b1 h
      obtain rfl : [] = b1 := congrArg Prod.fst h
      exact propLeaves_writes hq r
    | cons y p1 ih =>
      obtain ⟨n, _ | v⟩ := y
      · intro b1 h
        exact absurd (congrArg Prod.snd h) (by simp [propsWrites, runWrites])
      · intro b1 h
        rw [List.cons_append, propsWrites]
        rw [propsWrites] at h
        rcases hr : runWrites [pack [.H 6, .H 0x2B02, .H n, .H (4 + (padEven v).length), .H 0x2C06],
            encodeAscii (padEven v)] with ⟨y, _ | e'⟩
        · have h' := h
          rw [show ∀ l : List (Py Bytes), pack [.H 6, .H 0x2B02, .H n, .H (4 + (padEven v).length),
            .H 0x2C06] :: encodeAscii (padEven v) :: l = [pack [.H 6, .H 0x2B02, .H n,
            .H (4 + (padEven v).length), .H 0x2C06], encodeAscii (padEven v)] ++ l from fun _ => rfl,
            runWrites_append_ok hr] at h' ⊢
          obtain ⟨h1, h2⟩ := Prod.mk.inj h'
          rw [ih _ (Prod.ext rfl h2), ← h1, List.append_assoc]
        · exfalso
          rw [show ∀ l : List (Py Bytes), pack [.H 6, .H 0x2B02, .H n, .H (4 + (padEven v).length),
            .H 0x2C06] :: encodeAscii (padEven v) :: l = [pack [.H 6, .H 0x2B02, .H n,
            .H (4 + (padEven v).length), .H 0x2C06], encodeAscii (padEven v)] ++ l from fun _ => rfl,
            runWrites_append_error hr] at h
          exact absurd (Prod.mk.inj h).2 (by simp)
  rcases hA : runWrites A with ⟨y, _ | e'⟩
  · rw [runWrites_append_ok hA] at h ⊢
    rcases hP : runWrites (propsWrites p1) with ⟨z, _ | e'⟩
    · rw [runWrites_append_ok hP, pack_ok _ (by flds_ok)] at h
      rw [runWrites_append_error (hp _ _ hP)]
      have h1 := (Prod.mk.inj h).1
      have e1 : (runWrites [.ok (fldsBytes [.H 4, .H 0x1100])]).1 = [0, 4, 0x11, 0] := by decide
      rw [e1, ← List.append_assoc] at h1
      rw [← List.append_cancel_right h1, List.append_assoc]
    · rw [runWrites_append_error hP] at h
      exact absurd (Prod.mk.inj h).2 (by simp)
  · rw [runWrites_append_error hA] at h
    exact absurd (Prod.mk.inj h).2 (by simp)

/-- **C98.** When a property cannot be written, the file has the element with the properties before it,
without ENDEL: for polygons, paths, labels and references. A reader takes these records as the beginning of
the next element. -/
theorem C98_bad_property (m : ℚ) (p1 r : Properties) (q : Int × Option Str) (x : Bytes) (e : PyErr)
    (hq : PropLeaves q x e) (b : Bytes) :
    (∀ p, writePoly m p1 p = .ok (b ++ [0, 4, 0x11, 0]) →
      runWrites (CellItem.writes trig m (.polygons ⟨[p], p1 ++ q :: r⟩)) = (b ++ x, some e)) ∧
    (∀ wt s, (GdsPath.mk wt [s] p1).toGds m = .ok (b ++ [0, 4, 0x11, 0]) →
      runWrites (CellItem.writes trig m (.path (.gds ⟨wt, [s], p1 ++ q :: r⟩))) = (b ++ x, some e)) ∧
    (∀ l : Label, ({ l with properties := p1 } : Label).toGds m = .ok (b ++ [0, 4, 0x11, 0]) →
      runWrites (CellItem.writes trig m (.label { l with properties := p1 ++ q :: r }))
        = (b ++ x, some e)) ∧
    (∀ l : Ref, ({ l with properties := p1 } : Ref).toGds trig m = .ok (b ++ [0, 4, 0x11, 0]) →
      runWrites (CellItem.writes trig m (.ref { l with properties := p1 ++ q :: r }))
        = (b ++ x, some e)) := by
  refine ⟨?_, ?_, ?_, ?_⟩
  · intro p h
    have hd := poly_does m p1 p
    rw [h] at hd
    have := props_cut _ p1 r q b x e hq hd.ok
    simp only [CellItem.writes, List.flatMap_cons, List.flatMap_nil, List.append_nil]
    exact this
  · intro wt s h
    have hd := item_does trig m (.path (.gds ⟨wt, [s], p1⟩))
    have h' : CellItem.toGds trig m (.path (.gds ⟨wt, [s], p1⟩)) = .ok (b ++ [0, 4, 0x11, 0]) := h
    rw [h'] at hd
    have hd := hd.ok
    simp only [CellItem.writes, List.flatMap_cons, List.flatMap_nil, List.append_nil] at hd ⊢
    exact props_cut _ p1 r q b x e hq hd
  · intro l h
    have hd := label_does m { l with properties := p1 }
    rw [h] at hd
    have hd := hd.ok
    unfold labelWrites at hd
    simp only [CellItem.writes, labelWrites]
    rw [← List.append_assoc] at hd ⊢
    exact props_cut _ p1 r q b x e hq hd
  · intro l h
    have hd := ref_does trig m { l with properties := p1 }
    rw [h] at hd
    exact props_cut _ p1 r q b x e hq hd.ok

/-- The hypotheses are met: a number that does not fit, a value that is not ASCII, and a triangle. -/
example : PropLeaves (70000, some "x".toList) [] .structError ∧
    PropLeaves (5, some "\u00e9".toList) [0, 6, 0x2B, 2, 0, 5, 0, 6, 0x2C, 6] .unicodeError ∧
    writePoly 1 [] ⟨[(0, 0), (1, 0), (0, 1)], 1, 0⟩ = .ok ([0, 4, 8, 0, 0, 6, 0x0D, 2, 0, 1, 0, 6, 0x0E, 2, 0, 0,
      0, 36, 0x10, 3, 0, 0, 0, 0, 0, 0, 0, 0, 0, 0, 0, 1, 0, 0, 0, 0, 0, 0, 0, 0, 0, 0, 0, 1,
      0, 0, 0, 0, 0, 0, 0, 0] ++ [0, 4, 0x11, 0]) := by
  refine ⟨Or.inl ⟨by norm_num, rfl, rfl⟩, Or.inr ⟨by norm_num, by decide, ⟨Char.ofNat 233, by decide, by decide⟩,
    by decide, rfl⟩, by decide +kernel⟩

/-- **C98.** A polygon without points raises `IndexError` after its layer, its datatype and the head of its XY
record were written. -/
theorem C98_empty_polygon (m : ℚ) (props : Properties) (layer datatype : Int)
    (h1 : Word layer) (h2 : Word datatype) :
    runWrites (CellItem.writes trig m (.polygons ⟨[⟨[], layer, datatype⟩], props⟩))
      = ([0, 4, 8, 0, 0, 6, 0x0D, 2] ++ twosComplement 2 layer ++ [0, 6, 0x0E, 2] ++
          twosComplement 2 datatype ++ [0, 12, 0x10, 3], some .indexError) := by
  simp only [CellItem.writes, List.flatMap_cons, List.flatMap_nil, List.append_nil, polyWrites]
  rw [if_neg (by simp)]
  have hp := pack_ok [.H 4, .H 0x0800, .H 6, .H 0x0D02, .h layer, .H 6, .H 0x0E02, .h datatype,
    .H (12 + 8 * (([] : List (ℚ × ℚ)).length : Int)), .H 0x1003]
    ⟨⟨by norm_num, by norm_num⟩, ⟨by norm_num, by norm_num⟩, ⟨by norm_num, by norm_num⟩,
      ⟨by norm_num, by norm_num⟩, h1, ⟨by norm_num, by norm_num⟩, ⟨by norm_num, by norm_num⟩, h2,
      ⟨by simp, by simp⟩, ⟨by norm_num, by norm_num⟩, trivial⟩
  rw [hp]
  simp [runWrites, i4Bytes, gridPoints, fldsBytes, Fld.bytes, twosComplement_two, be16]

/-- **C98.** A label whose text is not ASCII raises `UnicodeEncodeError` after everything before the text was
written: the file ends with the head of the STRING record. -/
theorem C98_bad_text (m : ℚ) (l : Label) (text good : Str) (b : Bytes) (ht : l.text = some text)
    (hbad : ∃ c ∈ text, 128 ≤ c.toNat) (hlen : good.length = text.length)
    (hgood : ∀ c ∈ good, c.toNat < 128)
    (h : ({ l with text := some good, properties := [] } : Label).toGds m
      = .ok (b ++ ((padEven good).map fun c => UInt8.ofNat c.toNat) ++ [0, 4, 0x11, 0])) :
    runWrites (CellItem.writes trig m (.label l)) = (b, some .unicodeError) := by
  have hd := label_does m { l with text := some good, properties := [] }
  rw [h] at hd
  have hd := hd.ok
  unfold labelWrites at hd
  simp only [CellItem.writes, labelWrites, ht]
  simp only [propsWrites, List.nil_append] at hd
  have hpl : (padEven good).length = (padEven text).length := by
    unfold padEven
    rw [hlen]
    split_ifs <;> simp [hlen]
  have heg : encodeAscii (padEven good) = .ok ((padEven good).map fun c => UInt8.ofNat c.toNat) :=
    encodeAscii_ok (padEven_ascii hgood)
  have het : encodeAscii (padEven text) = .error .unicodeError := by
    obtain ⟨c, hc, hc'⟩ := hbad
    unfold encodeAscii
    rw [if_neg]
    intro hall
    rw [List.all_eq_true] at hall
    have : c ∈ padEven text := by
      unfold padEven
      split_ifs
      · exact List.mem_append_left _ hc
      · exact hc
    have := hall c this
    simp only [decide_eq_true_eq] at this
    omega
  rw [heg, hpl] at hd
  rw [het]
  generalize pack [.H 4, .H 0x0C00, .H 6, .H 0x0D02, .h l.layer, .H 6, .H 0x1602, .h l.texttype,
      .H 6, .H 0x1701, .h l.anchor] = x1 at hd ⊢
  generalize writeStrans l.rotation l.magnification l.xReflection = x2 at hd ⊢
  generalize pack [.H 12, .H 0x1003, .l (pyRound (l.position.1 * m)), .l (pyRound (l.position.2 * m)),
      .H (4 + ((padEven text).length : Int)), .H 0x1906] = x3 at hd ⊢
  rw [pack_ok [.H 4, .H 0x1100] (by flds_ok)] at hd
  have e1 : fldsBytes [.H 4, .H 0x1100] = [0, 4, 0x11, 0] := by decide
  rw [e1] at hd
  cases x1 with
  | error e => simp [runWrites] at hd
  | ok x1 =>
  cases x2 with
  | error e => simp [runWrites] at hd
  | ok x2 =>
  cases x3 with
  | error e => simp [runWrites] at hd
  | ok x3 =>
  simp only [List.cons_append, List.nil_append, runWrites, List.append_nil] at hd ⊢
  have h1 := (Prod.mk.inj hd).1
  rw [← List.append_assoc, ← List.append_assoc, ← List.append_assoc] at h1
  have h2 := List.append_cancel_right (List.append_cancel_right h1)
  rw [← h2, List.append_assoc]

/-- The hypotheses are met by a label with an accented letter and the same label with a plain one. -/
example : (∃ c ∈ "\u00e9".toList, 128 ≤ c.toNat) ∧
    ({ text := some "e".toList, position := (1, 2), anchor := 5, rotation := none, magnification := none,
       xReflection := false, layer := 3, texttype := 4, properties := [] } : Label).toGds 1
      = .ok ([0, 4, 0x0C, 0, 0, 6, 0x0D, 2, 0, 3, 0, 6, 0x16, 2, 0, 4, 0, 6, 0x17, 1, 0, 5,
        0, 12, 0x10, 3, 0, 0, 0, 1, 0, 0, 0, 2, 0, 6, 0x19, 6] ++
        ((padEven "e".toList).map fun c => UInt8.ofNat c.toNat) ++ [0, 4, 0x11, 0]) := by
  refine ⟨⟨Char.ofNat 233, by decide, by decide⟩, by decide +kernel⟩

/-- Names that are not ASCII cannot be encoded. -/
theorem encodeAscii_bad {v : Str} (h : ∃ c ∈ v, 128 ≤ c.toNat) :
    encodeAscii (padEven v) = .error .unicodeError := by
  obtain ⟨c, hc, hc'⟩ := h
  unfold encodeAscii
  rw [if_neg]
  intro hall
  rw [List.all_eq_true] at hall
  have : c ∈ padEven v := by
    unfold padEven
    split_ifs
    · exact List.mem_append_left _ hc
    · exact hc
  have := hall c this
  simp only [decide_eq_true_eq] at this
  omega

theorem padEven_len (v : Str) : (padEven v).length = v.length + v.length % 2 := by
  unfold padEven
  split_ifs with h
  · rw [List.length_append, List.length_singleton]; omega
  · omega

/-- **C98.** A reference to a name that is not ASCII raises `UnicodeEncodeError` after SREF or AREF and the
head of its SNAME record were written. -/
theorem C98_bad_reference (m : ℚ) (r : Ref) (hbad : ∃ c ∈ r.target.str, 128 ≤ c.toNat)
    (hlen : r.target.str.length < 65531) :
    runWrites (CellItem.writes trig m (.ref r))
      = ([0, 4, if r.array.isSome then 0x0B else 0x0A, 0] ++
          be16 (4 + (r.target.str.length + r.target.str.length % 2)) ++ [0x12, 6], some .unicodeError) := by
  simp only [CellItem.writes, refWrites]
  have hl := padEven_len r.target.str
  have hp := pack_ok [.H 4, .H (if r.array.isSome then 0x0B00 else 0x0A00),
      .H (4 + ((padEven r.target.str).length : Int)), .H 0x1206]
      ⟨⟨by norm_num, by norm_num⟩, ⟨by split_ifs <;> norm_num, by split_ifs <;> norm_num⟩,
        ⟨by omega, by omega⟩, ⟨by norm_num, by norm_num⟩, trivial⟩
  rw [hp, encodeAscii_bad hbad]
  have e1 : (4 + ((padEven r.target.str).length : Int)).toNat
      = 4 + (r.target.str.length + r.target.str.length % 2) := by omega
  simp only [List.cons_append, List.nil_append, runWrites, fldsBytes, Fld.bytes, List.append_nil, e1]
  cases r.array <;> simp [be16]

/-- **C98.** A cell whose name is not ASCII raises `UnicodeEncodeError` after BGNSTR and the head of its
STRNAME record were written. -/
theorem C98_bad_cell_name (m : ℚ) (ts : Timestamp) (hts : Spec.Timestamp.Fits ts) (c : Cell)
    (hbad : ∃ x ∈ c.name, 128 ≤ x.toNat) (hlen : c.name.length < 65531) :
    runWrites (c.writes trig m ts)
      = ([0, 28, 5, 2] ++ stampBytes ts ++ be16 (4 + (c.name.length + c.name.length % 2)) ++ [6, 6],
        some .unicodeError) := by
  simp only [Cell.writes, cellHeadWrites]
  have hl := padEven_len c.name
  have hp1 := pack_ok [.H 28, .H 0x0502] (by flds_ok)
  have hp := pack_ok [.H (4 + ((padEven c.name).length : Int)), .H 0x0606]
      ⟨⟨by omega, by omega⟩, ⟨by norm_num, by norm_num⟩, trivial⟩
  rw [hp1, hp, encodeAscii_bad hbad, packTs_ok hts]
  have e1 : (4 + ((padEven c.name).length : Int)).toNat
      = 4 + (c.name.length + c.name.length % 2) := by omega
  have e2 : be16 (Int.toNat 28) ++ be16 (Int.toNat 0x0502) = [0, 28, 5, 2] := by decide
  have e3 : be16 (Int.toNat 0x0606) = [6, 6] := by decide
  rw [← e2, ← e3]
  simp [bind, Except.bind, pure, Except.pure, runWrites, fldsBytes, Fld.bytes, e1]

/-- The hypotheses are met by a reference and a cell with an accented letter in the name. -/
example : (∃ c ∈ "caf\u00e9".toList, 128 ≤ c.toNat) ∧ "caf\u00e9".toList.length < 65531 ∧
    Spec.Timestamp.Fits ⟨2020, 1, 2, 3, 4, 5⟩ := by
  refine ⟨⟨Char.ofNat 233, by decide, by decide⟩, by decide, ?_⟩
  intro n hn
  simp only [List.mem_cons, List.not_mem_nil, or_false] at hn
  omega

/-- **C98.** A path with an extension out of range raises `struct.error` after its layer, datatype, end type
and width (negative when it is not scaled with references) were written. -/
theorem C98_bad_extension (m : ℚ) (scaled : Bool) (s : SubPath) (subs : List SubPath) (props : Properties)
    (x y : ℚ) (hends : s.ends = .ext x y) (hl : Word s.layer) (hd : Word s.datatype) (w : ℤ)
    (hw : w = (if scaled then 1 else -1) * pyRound (s.width * m)) (hw1 : -2147483648 ≤ w)
    (hw2 : w < 2147483648) (hbad : pyRound (x * m) < -2147483648 ∨ 2147483648 ≤ pyRound (x * m)) :
    runWrites (CellItem.writes trig m (.path (.gds ⟨scaled, s :: subs, props⟩)))
      = ([0, 4, 9, 0, 0, 6, 0x0D, 2] ++ twosComplement 2 s.layer ++ [0, 6, 0x0E, 2] ++
          twosComplement 2 s.datatype ++ [0, 6, 0x21, 2, 0, 4, 0, 8, 0x0F, 3] ++
          twosComplement 4 w, some .structError) := by
  simp only [CellItem.writes, List.flatMap_cons, subPathWrites, hends, ← hw]
  have hp := pack_ok [.H 4, .H 0x0900, .H 6, .H 0x0D02, .h s.layer, .H 6, .H 0x0E02, .h s.datatype,
      .H 6, .H 0x2102, .h (Ends.ext x y).pathtype, .H 8, .H 0x0F03, .l w]
    ⟨⟨by norm_num, by norm_num⟩, ⟨by norm_num, by norm_num⟩, ⟨by norm_num, by norm_num⟩,
      ⟨by norm_num, by norm_num⟩, hl, ⟨by norm_num, by norm_num⟩, ⟨by norm_num, by norm_num⟩, hd,
      ⟨by norm_num, by norm_num⟩, ⟨by norm_num, by norm_num⟩, ⟨by simp [Ends.pathtype], by simp [Ends.pathtype]⟩,
      ⟨by norm_num, by norm_num⟩, ⟨by norm_num, by norm_num⟩, ⟨hw1, hw2⟩, trivial⟩
  have he : writeEnds m (Ends.ext x y) = .error .structError := by
    have hb : packl (pyRound (x * m)) = .error .structError := by
      unfold packl
      rw [if_neg (by omega)]
    have h8 : packH 8 = .ok (fldsBytes [.H 8]) := by decide
    have h30 : packH 0x3003 = .ok (fldsBytes [.H 0x3003]) := by decide
    simp [writeEnds, pack, hb, h8, h30, bind, Except.bind]
  rw [hp, he]
  simp [runWrites, fldsBytes, Fld.bytes, twosComplement_two, twosComplement_four, be16, Ends.pathtype]

/-- The hypotheses are met by an extension of three million units on a grid of a thousandth. -/
example : pyRound ((3000000 : ℚ) * 1000) = 3000000000 ∧
    (-2 : ℤ) = (if false then 1 else -1) * pyRound ((1 / 500 : ℚ) * 1000) := by
  constructor <;> decide +kernel

/-! ### samples -/

/-- Date for the samples. -/
def Sample.saveDate : Timestamp := ⟨2020, 1, 2, 3, 4, 5⟩

theorem Sample.saveDate_fits : Spec.Timestamp.Fits Sample.saveDate := by
  intro n hn
  simp only [Sample.saveDate, List.mem_cons, List.not_mem_nil, or_false] at hn
  rcases hn with rfl | rfl | rfl | rfl | rfl | rfl <;> norm_num

theorem Sample.save_storable : Storable 1 := by
  have := Sample.storable 1 0 (by norm_num) (by norm_num [abs_of_pos]) (by norm_num [abs_of_pos])
  norm_num at this ⊢
  exact this

/-- A label on a layer that a file cannot hold. -/
def Sample.badLabel : Label := { Sample.label with layer := 40000 }

/-- The first cell of the sample library with that label. -/
def Sample.cutCell : Cell :=
  { Sample.lib.cells.headD ⟨[], [], [], [], []⟩ with labels := [Sample.label, Sample.badLabel] }

/-- The hypotheses of `C98_readable` and `C98_writer_partial` on a cell that raises are met by a cell with
a polygon, a path and two labels, the second of them on layer 40000. -/
example : ∃ p ∈ Sample.lib.cells,
    Leaves (fun x => if x = 90 then (0, 1) else (1, 0)) 1024 (1 / 1024) Sample.cutCell p ∧
    Sample.cutCell.toGds (fun x => if x = 90 then (0, 1) else (1, 0)) 1024 Sample.saveDate
      = .error .structError := by
  have hmem : Sample.lib.cells.headD ⟨[], [], [], [], []⟩ ∈ Sample.lib.cells := List.mem_cons_self
  refine ⟨_, hmem, ?_, by decide +kernel⟩
  exact .cut _ _ (Sample.lib.cells.headD ⟨[], [], [], [], []⟩).items (.label Sample.badLabel) [] [] []
    .structError rfl (by decide +kernel) rfl rfl (by simp) (Sample.lib_good _ hmem)

/-- A cell with a triangle and an impossible property. -/
def Sample.badCell : Cell :=
  ⟨"A".toList, [⟨[⟨[(0, 0), (1, 0), (0, 1)], 1, 0⟩], [(70000, some "x".toList)]⟩], [], [], []⟩

/-- Another cell with a triangle. -/
def Sample.nextCell : Cell :=
  ⟨"B".toList, [⟨[⟨[(5, 5), (6, 5), (5, 6)], 2, 0⟩], []⟩], [], [], []⟩

/-- Arguments of the reader for the samples. -/
def Sample.skipArgs : ReadArgs := ⟨.skip, id, fun _ => none, fun _ => none, fun _ => none⟩

/-- The records in the file. -/
def Sample.mixRecs : List Rec :=
  [recStamp 5 Sample.saveDate (by norm_num) Sample.saveDate_fits,
    recText 6 "A".toList (by norm_num) ⟨by decide, by decide, by decide, by decide⟩,
    recNone 8 (by norm_num), recShort 0x0D 1 (by norm_num) (by norm_num),
    recShort 0x0E 0 (by norm_num) (by norm_num),
    recLongs 0x10 [0, 0, 1, 0, 0, 1, 0, 0] (by norm_num) (by simp) (by norm_num) (by decide),
    recStamp 5 Sample.saveDate (by norm_num) Sample.saveDate_fits,
    recText 6 "B".toList (by norm_num) ⟨by decide, by decide, by decide, by decide⟩,
    recNone 8 (by norm_num), recShort 0x0D 2 (by norm_num) (by norm_num),
    recShort 0x0E 0 (by norm_num) (by norm_num),
    recLongs 0x10 [5, 5, 6, 5, 5, 6, 5, 5] (by norm_num) (by simp) (by norm_num) (by decide),
    recNone 0x11 (by norm_num), recNone 7 (by norm_num), recNone 4 (by norm_num)]

theorem Sample.mix_bytes :
    (runWrites (Sample.badCell.writes (fun _ => (1, 0)) (1 / 1) Sample.saveDate)).1 ++
      ((runWrites (Sample.nextCell.writes (fun _ => (1, 0)) (1 / 1) Sample.saveDate)).1 ++
        fldsBytes [.H 4, .H 0x0400]) = recsBytes Sample.mixRecs := by
  decide +kernel

/-- **C98, disagreement.** A program goes on with the next cell after `write_cell` has raised for a cell
with an impossible property number. In the file the points of the polygon of the first cell are part of
the polygon of the second cell, and `read_gds` does not notice it. -/
theorem C98_writer_mixes_cells : ∃ w b,
    Writer.new (fun x y => x / y) (some "LIB".toList) 1 1 Sample.saveDate = .ok w ∧
    Sample.badCell.toGds (fun _ => (1, 0)) w.res Sample.saveDate = .error .structError ∧
    ([Sample.badCell, Sample.nextCell].foldl (Writer.tryCell (fun _ => (1, 0)) Sample.saveDate) w).close
      = .ok b ∧
    readGds (fun x y => x / y) (fun _ => (1, 0)) Sample.skipArgs ⟨none, 1, 1, []⟩ b
      = (⟨some "LIB".toList, 1, 1, [⟨"A".toList, [], [], [], []⟩,
          ⟨"B".toList, [⟨[⟨[(0, 0), (1, 0), (0, 1), (0, 0), (5, 5), (6, 5), (5, 6)], 2, 0⟩], []⟩],
            [], [], []⟩]⟩, none) := by
  have h1 : Storable ((1 : ℚ) / 1) := by rw [div_one]; exact Sample.save_storable
  obtain ⟨hd, e1, r1⟩ := header_reads (div := fun x y => x / y) (trig := fun _ => (1, 0))
    (a := Sample.skipArgs) "LIB".toList ⟨by decide, by decide, by decide, by decide⟩ 1 1 h1
    Sample.save_storable Sample.saveDate Sample.saveDate_fits ⟨none, 1, 1, []⟩ trivial
  refine ⟨⟨hd, 1 / 1⟩, hd ++ recsBytes Sample.mixRecs, ?_, ?_, ?_, ?_⟩
  · unfold Writer.new
    rw [e1, py_bind_ok, py_pure]
  · show Cell.toGds (fun _ => (1, 0)) (1 / 1) Sample.saveDate Sample.badCell = .error .structError
    decide +kernel
  · unfold Writer.close
    rw [pack_ok _ (by flds_ok), py_bind_ok, py_pure, ← Sample.mix_bytes]
    simp [Writer.tryCell]
  · rw [readGds_eq, r1]
    have hr : recordReader (recsBytes Sample.mixRecs) = (recsRecords Sample.mixRecs, none) := by
      have := recordReader_recs Sample.mixRecs []
      rw [List.append_nil] at this
      have hnil : recordReader [] = ([], none) := by rw [recordReader.eq_def]
      rw [this, hnil, List.append_nil]
    unfold readFrom
    rw [hr]
    decide +kernel

end Gdspy
