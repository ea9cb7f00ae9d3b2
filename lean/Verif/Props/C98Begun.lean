import Verif.Props.C98
import Verif.Props.C85

/-!
# C98: reading a file whose last element was begun only
-/

namespace Gdspy

open Spec

variable {div : ℚ → ℚ → ℚ} {trig : ℚ → ℚ × ℚ} {a : ReadArgs}

/-- A record that can stand inside an element. -/
def Spec.InElement (r : Record) : Prop := r.type ≠ 0x11 ∧ r.type ≠ 0x06 ∧ r.type ≠ 0x04

/-- The bytes are complete records none of which ends an element or a library or names a cell. -/
def Spec.BegunWhole (part : Bytes) : Prop :=
  ∃ rs : List Rec, part = recsBytes rs ∧ ∀ r ∈ recsRecords rs, InElement r

/-- The bytes are a beginning of records none of which ends an element or a library or names a cell. The
last record may be cut anywhere. -/
def Spec.Begun (part : Bytes) : Prop :=
  ∃ rs : List Rec, part <+: recsBytes rs ∧
    ∀ r ∈ recsRecords rs, InElement r

theorem readRecords_cells (rs : List Record) : ∀ st : ReadState,
    (∀ r ∈ rs, r.type ≠ 0x11 ∧ r.type ≠ 0x06 ∧ r.type ≠ 0x04) →
    (readRecords div trig a st rs).1.lib.cells = st.lib.cells := by
  induction rs with
  | nil => intro st _; rfl
  | cons r rs ih =>
    intro st h
    rw [readRecords]
    obtain ⟨h1, h2, h3⟩ := h r List.mem_cons_self
    cases hs : readStep div trig a st r with
    | error e => rfl
    | ok st' =>
      have := ih st' fun x hx => h x (List.mem_cons_of_mem _ hx)
      simp only
      rw [this, readStep_cells hs h1 h2 h3]

/-- Reading the beginning of an element adds nothing to the cells. -/
theorem begun_reads {part : Bytes} (h : Begun part) (st : ReadState) :
    (readFrom div trig a st part).1.lib.cells = st.lib.cells := by
  obtain ⟨rs, ⟨t, ht⟩, htypes⟩ := h
  have hread : recordReader (recsBytes rs) = (recsRecords rs, none) := by
    have := recordReader_recs rs []
    rw [List.append_nil] at this
    have hnil : recordReader [] = ([], none) := by rw [recordReader.eq_def]
    rw [this, hnil, List.append_nil]
  have hcut := C85_records (recsBytes rs) (by rw [hread]) part.length
  rw [← ht, List.take_left' rfl, ht, hread] at hcut
  have hall : ∀ r ∈ (recordReader part).1, r.type ≠ 0x11 ∧ r.type ≠ 0x06 ∧ r.type ≠ 0x04 := by
    rcases hcut with hpre | ⟨init, t, s, s', h1, h2, -⟩
    · exact fun r hr => htypes r (hpre.subset hr)
    · intro r hr
      rw [h1] at hr
      rcases List.mem_append.1 hr with hr | hr
      · exact htypes r (h2.subset (List.mem_append_left _ hr))
      · rw [List.mem_singleton] at hr
        subst hr
        exact htypes ⟨t, .str s⟩ (h2.subset (by simp))
  have := readRecords_cells (div := div) (trig := trig) (a := a) (recordReader part).1 st hall
  unfold readFrom
  revert this
  rcases recordReader part with ⟨rs', er⟩
  simp only
  rcases readRecords div trig a st rs' with ⟨st', _ | e⟩ <;> exact id

/-- The state of the reader after complete cells and the beginning of another. -/
theorem begin_reads (name : Str) (hgn : GoodText name) (unit precision : ℚ)
    (h1 : Storable (div precision unit)) (h2 : Storable precision)
    (ts : Timestamp) (hts : Spec.Timestamp.Fits ts) (cs : List Cell) (p : Cell)
    (hgood : ∀ c ∈ cs, c.Good trig (div unit precision) (div precision unit))
    (hpg : p.Good trig (div unit precision) (div precision unit))
    (hu : a.units = .skip) (lib0 : Lib)
    (hnd : (lib0.cells.map Cell.name ++ (cs ++ [p]).map fun c => a.nameMap c.name).Nodup) :
    ∃ hd hd2 body st, writeHeader div (some name) unit precision ts = .ok hd ∧
      cellHead ts p.name = .ok hd2 ∧
      runWrites (p.items.flatMap (CellItem.writes trig (div unit precision))) = (body, none) ∧
      st.lib.cells = lib0.cells ++ (cs ++ [p]).map (Cell.imported a) ∧
      ∀ rest, readFrom div trig a { lib := lib0 } (hd ++
          ((cs.flatMap fun c => (runWrites (c.writes trig (div unit precision) ts)).1)
            ++ (hd2 ++ body ++ rest)))
        = readFrom div trig a st rest := by
  obtain ⟨hd, e1, r1⟩ := header_reads (div := div) (trig := trig) (a := a) name hgn unit
    precision h1 h2 ts hts lib0 (by rw [hu]; trivial)
  set m := div unit precision with hm
  set d := div precision unit with hd'
  have hall : List.Forall₂ (Leaves trig m d) cs cs := by
    clear hnd
    induction cs with
    | nil => exact .nil
    | cons c' cs ih =>
      exact .cons (.whole c' (hgood c' List.mem_cons_self))
        (ih fun c'' hc'' => hgood c'' (List.mem_cons_of_mem _ hc''))
  have hnd1 : (lib0.cells.map Cell.name ++ cs.map fun c => a.nameMap c.name).Nodup := by
    rw [List.map_append, ← List.append_assoc] at hnd
    exact (List.nodup_append.1 hnd).1
  have hnew : a.nameMap p.name ∉ (lib0.cells ++ cs.map (Cell.imported a)).map Cell.name := by
    rw [List.map_append, ← List.append_assoc] at hnd
    have h3 := (List.nodup_append.1 hnd).2.2
    intro hmem
    refine h3 (a.nameMap p.name) ?_ (a.nameMap p.name) (by simp) rfl
    simpa [Cell.imported] using hmem
  obtain ⟨cur', attr', hr⟩ := leavesAll_reads (div := div) (a := a) ts hts hall
    { lib0 with name := some name } none (-1) [] hnd1
  obtain ⟨hd2, body, g1, g2, g3⟩ := cellPart_reads (div := div) (a := a) p hpg ts hts
  obtain ⟨attr2, g3⟩ := g3 { lib0 with
    name := some name
    cells := lib0.cells ++ cs.map (Cell.imported a) } cur' attr'
    ((cs.map fun c => a.nameMap c.name).reverse ++ []) hnew
  have d2 := Does.writeAll (l := p.items) fun i _ => item_does trig m i
  rw [g2] at d2
  refine ⟨hd, hd2, body, midState { lib0 with
    name := some name
    cells := lib0.cells ++ cs.map (Cell.imported a) ++ [p.imported a] } d (some (a.nameMap p.name)) attr2
      (a.nameMap p.name :: ((cs.map fun c => a.nameMap c.name).reverse ++ [])), e1, g1, d2, ?_, fun rest => ?_⟩
  · simp [midState]
  · rw [r1]
    have e0 : headLib div a.units lib0 name d precision = { lib0 with name := some name } := by
      rw [hu]; rfl
    have e2 : headFactor div a.units lib0 d precision = d := by rw [hu]; rfl
    rw [e0, e2]
    have hs : libState { lib0 with name := some name } d (-1) []
        = midState { lib0 with name := some name } d none (-1) [] := rfl
    rw [hs, hr (hd2 ++ body ++ rest), g3 rest]

/-- The file that is left by an element that raises. -/
theorem begin_saves (lib : Lib) (hn : (lib.cells.map Cell.name).Nodup) (name : Str)
    (hname : lib.name = some name)
    (ts : Timestamp) (hts : Spec.Timestamp.Fits ts) (l1 l2 : List Pick) (x : Pick) (cs : List Cell)
    (c : Cell) (hsel : List.Forall₂ (Selects lib) l1 cs) (hx : Selects lib x c)
    (hgood : ∀ c ∈ cs, c.Good trig (div lib.unit lib.precision) (div lib.precision lib.unit))
    (before extra after : List CellItem) (y : CellItem) (part1 part2 : Bytes) (e : PyErr)
    (hc : c.items = before ++ y :: after)
    (hraises : runWrites (y.writes trig (div lib.unit lib.precision)) = (part1 ++ part2, some e))
    (hextra : runWrites (extra.flatMap (CellItem.writes trig (div lib.unit lib.precision))) = (part1, none))
    (bins : List Bytes) (hd hd2 body : Bytes)
    (e1 : writeHeader div (some name) lib.unit lib.precision ts = .ok hd)
    (g1 : cellHead ts c.name = .ok hd2)
    (d2 : runWrites ((before ++ extra).flatMap (CellItem.writes trig (div lib.unit lib.precision)))
      = (body, none)) :
    saveGds div trig lib (some (l1 ++ x :: l2)) ts bins
      = (hd ++ ((cs.flatMap fun c => (runWrites (c.writes trig (div lib.unit lib.precision) ts)).1)
        ++ (hd2 ++ body ++ part2)), some e) := by
  have hpick : lib.picked (some (l1 ++ x :: l2))
      = cs.map .cell ++ .cell c :: lib.picked (some l2) := by
    rw [picked_append, picked_chosen hn (cells := some l1) hsel, picked_cons, picked_selects hn hx]
    rfl
  set m := div lib.unit lib.precision with hm
  have hcr : runWrites (c.writes trig m ts) = (hd2 ++ body ++ part2, some e) := by
    have d1 := cellHead_does ts c.name
    rw [g1] at d1
    unfold Cell.writes
    rw [runWrites_append_ok d1.ok, hc, List.flatMap_append, List.flatMap_cons]
    rw [List.flatMap_append] at d2
    rcases hb : runWrites (before.flatMap (CellItem.writes trig m)) with ⟨z, _ | e'⟩
    · rw [runWrites_append_ok hb, hextra] at d2
      rw [List.append_assoc, runWrites_append_ok hb, List.append_assoc,
        runWrites_append_error hraises, ← (Prod.mk.inj d2).1]
      simp only [List.append_assoc]
    · rw [runWrites_append_error hb] at d2
      exact absurd (Prod.mk.inj d2).2 (by simp)
  unfold saveGds
  rw [hname, e1, runWrites_append_ok (b := hd) (by simp [runWrites]), hpick, List.flatMap_append,
    List.flatMap_map, List.flatMap_cons]
  have hw := whole_bytes (trig := trig) ts hts hgood
  have hf : (fun c => Pick.writes trig (div lib.unit lib.precision) ts (Pick.cell c))
      = Cell.writes trig m ts := rfl
  rw [hf, List.append_assoc, runWrites_append_ok (b := _) hw, List.append_assoc]
  have hcr' : runWrites (Pick.writes trig (div lib.unit lib.precision) ts (.cell c))
      = (hd2 ++ body ++ part2, some e) := hcr
  rw [runWrites_append_error hcr']

/-- **C98.** When the element that raised had been begun, the file is read as the cells before and the
beginning of the cell that raised, up to that element, and nothing of the element itself (parts of it that
were completed, such as the first polygons of a set, are read); an exception may be raised after that. -/
theorem C98_begun (lib : Lib) (hn : (lib.cells.map Cell.name).Nodup) (name : Str)
    (hname : lib.name = some name) (hgn : GoodText name)
    (h1 : Storable (div lib.precision lib.unit)) (h2 : Storable lib.precision)
    (ts : Timestamp) (hts : Spec.Timestamp.Fits ts) (l1 l2 : List Pick) (x : Pick) (cs : List Cell)
    (c p : Cell) (hsel : List.Forall₂ (Selects lib) l1 cs) (hx : Selects lib x c)
    (hgood : ∀ c ∈ cs, c.Good trig (div lib.unit lib.precision) (div lib.precision lib.unit))
    (before extra after : List CellItem) (y : CellItem) (part1 part2 : Bytes) (e : PyErr)
    (hc : c.items = before ++ y :: after)
    (hraises : runWrites (y.writes trig (div lib.unit lib.precision)) = (part1 ++ part2, some e))
    (hextra : runWrites (extra.flatMap (CellItem.writes trig (div lib.unit lib.precision))) = (part1, none))
    (hbegun : Begun part2) (hpn : p.name = c.name) (hp : p.items = before ++ extra)
    (hpg : p.Good trig (div lib.unit lib.precision) (div lib.precision lib.unit))
    (bins : List Bytes) (hu : a.units = .skip) (lib0 : Lib)
    (hnd : (lib0.cells.map Cell.name ++ (cs ++ [c]).map fun c => a.nameMap c.name).Nodup) :
    ∃ b, saveGds div trig lib (some (l1 ++ x :: l2)) ts bins = (b, some e) ∧
      (readGds div trig a lib0 b).1.cells = lib0.cells ++ (cs ++ [p]).map (Cell.imported a) := by
  obtain ⟨hd, hd2, body, st, e1, g1, d2, hst, hread⟩ := begin_reads (trig := trig) (a := a) name hgn lib.unit
    lib.precision h1 h2 ts hts cs p hgood hpg hu lib0 (by
      rw [List.map_append, List.map_singleton, hpn]
      rwa [List.map_append, List.map_singleton] at hnd)
  rw [hpn] at g1
  rw [hp] at d2
  refine ⟨_, begin_saves lib hn name hname ts hts l1 l2 x cs c hsel hx hgood before extra after y part1 part2 e
    hc hraises hextra bins hd hd2 body e1 g1 d2, ?_⟩
  rw [readGds_eq, hread]
  exact (begun_reads hbegun st).trans hst

/-- **C98.** If the element that raised lacks only what follows complete records (for example because a property
raised before it was written) and would have been read if it had been ended there, the file is read without
exception: nothing tells that the cell is incomplete. -/
theorem C98_begun_silent (lib : Lib) (hn : (lib.cells.map Cell.name).Nodup) (name : Str)
    (hname : lib.name = some name) (hgn : GoodText name)
    (h1 : Storable (div lib.precision lib.unit)) (h2 : Storable lib.precision)
    (ts : Timestamp) (hts : Spec.Timestamp.Fits ts) (l1 l2 : List Pick) (x : Pick) (cs : List Cell)
    (c p q : Cell) (hsel : List.Forall₂ (Selects lib) l1 cs) (hx : Selects lib x c)
    (hgood : ∀ c ∈ cs, c.Good trig (div lib.unit lib.precision) (div lib.precision lib.unit))
    (before extra after : List CellItem) (y y' : CellItem) (part1 part2 : Bytes) (e : PyErr)
    (hc : c.items = before ++ y :: after)
    (hraises : runWrites (y.writes trig (div lib.unit lib.precision)) = (part1 ++ part2, some e))
    (hextra : runWrites (extra.flatMap (CellItem.writes trig (div lib.unit lib.precision))) = (part1, none))
    (hended : runWrites (y'.writes trig (div lib.unit lib.precision)) = (part2 ++ [0, 4, 0x11, 0], none))
    (hbegun : BegunWhole part2) (hpn : p.name = c.name) (hp : p.items = before ++ extra)
    (hpg : p.Good trig (div lib.unit lib.precision) (div lib.precision lib.unit))
    (hqn : q.name = c.name) (hq : q.items = before ++ extra ++ [y'])
    (hqg : q.Good trig (div lib.unit lib.precision) (div lib.precision lib.unit))
    (bins : List Bytes) (hu : a.units = .skip) (lib0 : Lib)
    (hnd : (lib0.cells.map Cell.name ++ (cs ++ [c]).map fun c => a.nameMap c.name).Nodup) :
    ∃ b, saveGds div trig lib (some (l1 ++ x :: l2)) ts bins = (b, some e) ∧
      (readGds div trig a lib0 b).2 = none ∧
      (readGds div trig a lib0 b).1.cells = lib0.cells ++ (cs ++ [p]).map (Cell.imported a) := by
  have hnd' : ∀ r : Cell, r.name = c.name →
      (lib0.cells.map Cell.name ++ (cs ++ [r]).map fun c => a.nameMap c.name).Nodup := by
    intro r hr
    rw [List.map_append, List.map_singleton, hr]
    rwa [List.map_append, List.map_singleton] at hnd
  obtain ⟨hd, hd2, body, st, e1, g1, d2, hst, hread⟩ := begin_reads (trig := trig) (a := a) name hgn lib.unit
    lib.precision h1 h2 ts hts cs p hgood hpg hu lib0 (hnd' p hpn)
  obtain ⟨hd', hd2', body', st', e1', g1', d2', -, hread'⟩ := begin_reads (trig := trig) (a := a) name hgn
    lib.unit lib.precision h1 h2 ts hts cs q hgood hqg hu lib0 (hnd' q hqn)
  rw [hpn] at g1
  rw [hqn] at g1'
  rw [hp] at d2
  obtain rfl := Except.ok.inj (e1.symm.trans e1')
  obtain rfl := Except.ok.inj (g1.symm.trans g1')
  rw [hq, List.flatMap_append, runWrites_append_ok d2, List.flatMap_cons, List.flatMap_nil, List.append_nil,
    hended] at d2'
  obtain rfl := (Prod.mk.inj d2').1
  refine ⟨_, begin_saves lib hn name hname ts hts l1 l2 x cs c hsel hx hgood before extra after y part1 part2 e
    hc hraises hextra bins hd hd2 body e1 g1 d2, ?_⟩
  rw [readGds_eq, hread]
  obtain ⟨rs, rfl, hrs⟩ := hbegun
  refine ⟨?_, (begun_reads ⟨rs, List.prefix_refl _, hrs⟩ st).trans hst⟩
  have hfull := hread' []
  have e3 : hd2 ++ (body ++ (recsBytes rs ++ [0, 4, 0x11, 0])) ++ []
      = hd2 ++ body ++ (recsBytes rs ++ [0, 4, 0x11, 0]) := by simp only [List.append_nil, List.append_assoc]
  rw [e3, hread, readFrom_nil] at hfull
  have hnil : recordReader [] = ([], none) := by rw [recordReader.eq_def]
  have hr1 := recordReader_recs rs []
  rw [hnil, List.append_nil, List.append_nil] at hr1
  have hr2 := recordReader_recs rs [0, 4, 0x11, 0]
  unfold readFrom at hfull ⊢
  rw [hr2] at hfull
  rw [hr1]
  simp only at hfull ⊢
  rw [readRecords_append] at hfull
  rcases hrun : readRecords div trig a st (recsRecords rs) with ⟨st2, _ | e'⟩
  · rfl
  · rw [hrun] at hfull
    exact absurd (Prod.mk.inj hfull).2 (by simp)

/-! ### Elements that were begun -/

theorem begun_of_emits {w : Py Bytes} {rs : List Record} {b : Bytes}
    (h : Emits w (rs ++ [⟨0x11, .none⟩])) (hw : w = .ok (b ++ [0, 4, 0x11, 0]))
    (hin : ∀ r ∈ rs, InElement r) : BegunWhole b ∧ ∀ part, part <+: b → Begun part := by
  obtain ⟨recs, e, q⟩ := h
  rw [hw] at e
  have e : b ++ [0, 4, 0x11, 0] = recsBytes recs := Except.ok.inj e
  rcases List.eq_nil_or_concat recs with rfl | ⟨l, r, rfl⟩
  · simp [recsRecords] at q
  · rw [List.concat_eq_append, recsRecords_append] at q
    obtain ⟨q1, q2⟩ := List.append_inj' q rfl
    have hd : r.data = .none := by
      have := List.singleton_inj.1 q2
      exact congrArg Record.data this
    have hpay : r.frame.payload = [] := by
      have := r.enc
      rw [hd] at this
      generalize r.frame.payload = pl at this
      generalize r.frame.dt = dt at this
      cases this
      rfl
    rw [List.concat_eq_append, recsBytes_append] at e
    have hlen : (recsBytes [r]).length = 4 := by
      rw [recsBytes_cons, recsBytes_nil]
      simp [Frame.bytes, hpay, bigEndian]
    have := (List.append_inj' e (by rw [hlen]; rfl)).1
    exact ⟨⟨l, this, fun x hx => hin x (q1 ▸ hx)⟩,
      fun part hpart => ⟨l, this ▸ hpart, fun x hx => hin x (q1 ▸ hx)⟩⟩

theorem props_within (l : Properties) : ∀ r ∈ propRecords l, InElement r := by
  intro r hr
  unfold propRecords at hr
  rw [List.mem_flatMap] at hr
  obtain ⟨⟨n, _ | s⟩, -, hr⟩ := hr
  · simp at hr
  · simp only [List.mem_cons, List.not_mem_nil, or_false] at hr
    rcases hr with rfl | rfl <;> simp [InElement]

theorem strans_within (rot mag : Option ℚ) (xr : Bool) :
    ∀ r ∈ stransRecords rot mag xr, InElement r := by
  intro r hr
  unfold stransRecords at hr
  split_ifs at hr
  all_goals cases rot <;> cases mag <;> simp [optReal] at hr
  all_goals (rcases hr with rfl | rfl | rfl <;> simp [InElement])

theorem within_append {l1 l2 : List Record} (h1 : ∀ r ∈ l1, InElement r) (h2 : ∀ r ∈ l2, InElement r) :
    ∀ r ∈ l1 ++ l2, InElement r := fun r hr => (List.mem_append.1 hr).elim (h1 r) (h2 r)

/-- **C98.** The bytes of a polygon, a path, a label or a reference, cut anywhere before the record that ends
the element, are the beginning of an element: `C98_begun` tells how a file that ends with them is read, and
`C98_begun_silent` when only that record is missing. -/
theorem C98_begun_elements (m : ℚ) (b : Bytes) :
    (∀ (props : Properties) (p : Poly), p.points ≠ [] → Word p.layer → Word p.datatype →
      (∀ n ∈ gridPoints m p.points, I32 n) → GoodProps props →
      writePoly m props p = .ok (b ++ [0, 4, 0x11, 0]) → BegunWhole b ∧ ∀ part, part <+: b → Begun part) ∧
    (∀ (sign : Int) (props : Properties) (s : SubPath), s.spine ≠ [] → Word s.layer → Word s.datatype →
      (∀ n ∈ gridPoints m s.spine, I32 n) → I32 (sign * pyRound (s.width * m)) →
      (∀ x y, s.ends = .ext x y → I32 (pyRound (x * m)) ∧ I32 (pyRound (y * m))) → GoodProps props →
      writeSubPath m sign props s = .ok (b ++ [0, 4, 0x11, 0]) → BegunWhole b ∧ ∀ part, part <+: b → Begun part) ∧
    (∀ (l : Label) (text : Str), l.text = some text → GoodText text →
      I32 (pyRound (l.position.1 * m)) → I32 (pyRound (l.position.2 * m)) → GoodAnchor l.anchor →
      GoodReal l.rotation → GoodReal l.magnification → Word l.layer → Word l.texttype →
      GoodProps l.properties → l.toGds m = .ok (b ++ [0, 4, 0x11, 0]) → BegunWhole b ∧ ∀ part, part <+: b → Begun part) ∧
    (∀ r : Ref, GoodText r.target.str → RefFits trig m r → GoodReal r.rotation →
      GoodReal r.magnification → GoodProps r.properties →
      r.toGds trig m = .ok (b ++ [0, 4, 0x11, 0]) → BegunWhole b ∧ ∀ part, part <+: b → Begun part) := by
  have hxy : ∀ chunks : List (List Int), ∀ r ∈ chunks.map (fun c => (⟨0x10, .i32 c⟩ : Record)),
      InElement r := by
    intro chunks r hr
    obtain ⟨c, -, rfl⟩ := List.mem_map.1 hr
    simp [InElement]
  refine ⟨?_, ?_, ?_, ?_⟩
  · intro props p h0 hl hd hg hp hw
    obtain ⟨chunks, -, -, h⟩ := writePoly_emits m props p h0 hl hd hg hp
    refine begun_of_emits h hw ?_
    refine within_append (within_append ?_ (hxy chunks)) (props_within props)
    simp [InElement]
  · intro sign props s h0 hl hd hg hwd he hp hw
    obtain ⟨chunks, -, -, h⟩ := writeSubPath_emits m sign props s h0 hl hd hg hwd he hp
    refine begun_of_emits h hw ?_
    refine within_append (within_append (within_append ?_ ?_) (hxy chunks)) (props_within props)
    · simp [InElement]
    · cases s.ends <;> simp [endsRecords, InElement]
  · intro l text ht hg hx hy ha hr hm hl hd hp hw
    have h := writeLabel_emits m l text ht hg hx hy ha hr hm hl hd hp
    refine begun_of_emits h hw ?_
    refine within_append (within_append (within_append ?_ (strans_within _ _ _)) ?_) (props_within _)
    · simp [InElement]
    · simp [InElement]
  · intro r hg hf hr hm hp hw
    have h := writeRef_emits trig m r hg hf hr hm hp
    refine begun_of_emits h hw ?_
    refine within_append (within_append (within_append ?_ (strans_within _ _ _)) ?_) (props_within _)
    · cases r.array <;> simp [InElement]
    · unfold refXYRecords
      cases r.array <;> simp [InElement]

/-- **C98.** What a polygon without points leaves (`C98_empty_polygon`) is the beginning of an element. -/
theorem C98_begun_empty (layer datatype : Int) (h1 : Word layer) (h2 : Word datatype) :
    Begun ([0, 4, 8, 0, 0, 6, 0x0D, 2] ++ twosComplement 2 layer ++ [0, 6, 0x0E, 2] ++
          twosComplement 2 datatype ++ [0, 12, 0x10, 3]) := by
  refine ⟨[recNone 8 (by norm_num), recShort 0x0D layer (by norm_num) h1,
    recShort 0x0E datatype (by norm_num) h2,
    recLongs 0x10 [0, 0] (by norm_num) (by simp) (by simp) (by simp)], ⟨i4Bytes [0, 0], ?_⟩, ?_⟩
  · simp [recsBytes_cons, recsBytes_nil, recShort, recNone, recLongs, mkFrame_bytes, twosComplement_two,
      i4Bytes, i4, be32, be16]
  · simp [recsRecords, recNone, recShort, recLongs, InElement]

/-- The bytes are complete records and the head of a text record or of a list of coordinates, without the data
that the head announces. -/
def Spec.BegunHead (part : Bytes) : Prop :=
  ∃ (rs : List Rec) (x y t dt : UInt8), part = recsBytes rs ++ [x, y, t, dt] ∧
    ((4 < x.toNat * 256 + y.toNat ∧ dt = 6) ∨ (8 ≤ x.toNat * 256 + y.toNat ∧ dt = 3))

theorem begunHead_raises {part : Bytes} (h : BegunHead part) (st : ReadState) :
    (readFrom div trig a st part).2 ≠ none := by
  obtain ⟨rs, x, y, t, dt, rfl, h⟩ := h
  have hpay : ∃ e, readPayload (rd16 x y) (rd16 t dt &&& 0x00FF) [] = .error e := by
    have hdt : rd16 t dt &&& 0x00FF = dt.toNat := by
      have := dt.toNat_lt
      unfold rd16
      rw [show (0x00FF : Nat) = 2 ^ 8 - 1 by norm_num, Nat.and_two_pow_sub_one_eq_mod]
      omega
    rw [hdt]
    rcases h with ⟨h, rfl⟩ | ⟨h, rfl⟩
    · refine ⟨.indexError, ?_⟩
      unfold readPayload
      rw [if_pos (by unfold rd16; omega)]
      simp [readText, bind, Except.bind]
    · unfold readPayload
      rw [if_pos (by unfold rd16; omega)]
      obtain ⟨k, hk⟩ : ∃ k, (rd16 x y - 4) / 4 = k + 1 := ⟨(rd16 x y - 4) / 4 - 1, by unfold rd16; omega⟩
      simp [hk, unpackls, bind, Except.bind]
  obtain ⟨e, he⟩ := hpay
  have hr : (recordReader (recsBytes rs ++ [x, y, t, dt])).2 = some e := by
    rw [recordReader_recs]
    simp only
    rw [recordReader.eq_def]
    simp only
    split
    · rename_i e' h'
      rw [he] at h'
      rw [Except.error.inj h']
    · rename_i v h'
      rw [he] at h'
      exact absurd h' (by simp)
  unfold readFrom
  rcases readRecords div trig a st (recordReader (recsBytes rs ++ [x, y, t, dt])).1 with ⟨st', _ | e'⟩
  · simp only
    rw [hr]
    simp
  · simp

/-- **C98.** If the element that raised stopped at the head of a record (a text, a name or the value of a
property that is not ASCII, a polygon without points), reading the file raises: the loss is noticed, and the cells
that were complete and the beginning of the next have been added before. -/
theorem C98_begun_noticed (lib : Lib) (hn : (lib.cells.map Cell.name).Nodup) (name : Str)
    (hname : lib.name = some name) (hgn : GoodText name)
    (h1 : Storable (div lib.precision lib.unit)) (h2 : Storable lib.precision)
    (ts : Timestamp) (hts : Spec.Timestamp.Fits ts) (l1 l2 : List Pick) (x : Pick) (cs : List Cell)
    (c p : Cell) (hsel : List.Forall₂ (Selects lib) l1 cs) (hx : Selects lib x c)
    (hgood : ∀ c ∈ cs, c.Good trig (div lib.unit lib.precision) (div lib.precision lib.unit))
    (before extra after : List CellItem) (y : CellItem) (part1 part2 : Bytes) (e : PyErr)
    (hc : c.items = before ++ y :: after)
    (hraises : runWrites (y.writes trig (div lib.unit lib.precision)) = (part1 ++ part2, some e))
    (hextra : runWrites (extra.flatMap (CellItem.writes trig (div lib.unit lib.precision))) = (part1, none))
    (hbegun : Begun part2) (hhead : BegunHead part2) (hpn : p.name = c.name) (hp : p.items = before ++ extra)
    (hpg : p.Good trig (div lib.unit lib.precision) (div lib.precision lib.unit))
    (bins : List Bytes) (hu : a.units = .skip) (lib0 : Lib)
    (hnd : (lib0.cells.map Cell.name ++ (cs ++ [c]).map fun c => a.nameMap c.name).Nodup) :
    ∃ b, saveGds div trig lib (some (l1 ++ x :: l2)) ts bins = (b, some e) ∧
      (readGds div trig a lib0 b).2 ≠ none ∧
      (readGds div trig a lib0 b).1.cells = lib0.cells ++ (cs ++ [p]).map (Cell.imported a) := by
  obtain ⟨hd, hd2, body, st, e1, g1, d2, hst, hread⟩ := begin_reads (trig := trig) (a := a) name hgn lib.unit
    lib.precision h1 h2 ts hts cs p hgood hpg hu lib0 (by
      rw [List.map_append, List.map_singleton, hpn]
      rwa [List.map_append, List.map_singleton] at hnd)
  rw [hpn] at g1
  rw [hp] at d2
  refine ⟨_, begin_saves lib hn name hname ts hts l1 l2 x cs c hsel hx hgood before extra after y part1 part2 e
    hc hraises hextra bins hd hd2 body e1 g1 d2, ?_⟩
  rw [readGds_eq, hread]
  exact ⟨begunHead_raises hhead st, (begun_reads hbegun st).trans hst⟩

/-- A polygon without points and a reference to a name that is not ASCII stop at the head of a record
(`C98_empty_polygon`, `C98_bad_reference`). -/
theorem C98_begun_heads (layer datatype : Int) (h1 : Word layer) (h2 : Word datatype) (t : UInt8)
    (ht : t = 0x0B ∨ t = 0x0A) (n : Nat) (hn : 0 < n) (hlen : n < 65531) :
    BegunHead ([0, 4, 8, 0, 0, 6, 0x0D, 2] ++ twosComplement 2 layer ++ [0, 6, 0x0E, 2] ++
          twosComplement 2 datatype ++ [0, 12, 0x10, 3]) ∧
    BegunHead ([0, 4, t, 0] ++ be16 (4 + (n + n % 2)) ++ [0x12, 6]) := by
  constructor
  · refine ⟨[recNone 8 (by norm_num), recShort 0x0D layer (by norm_num) h1,
      recShort 0x0E datatype (by norm_num) h2], 0, 12, 0x10, 3, ?_, Or.inr ⟨by decide, rfl⟩⟩
    simp [recsBytes_cons, recsBytes_nil, recShort, recNone, mkFrame_bytes, twosComplement_two, be16]
  · obtain ⟨k, hk⟩ : ∃ k, k = 4 + (n + n % 2) := ⟨_, rfl⟩
    rw [← hk]
    refine ⟨[recNone t.toNat (by have := t.toNat_lt; omega)], UInt8.ofNat (k / 256),
      UInt8.ofNat k, 0x12, 6, ?_, Or.inl ⟨?_, rfl⟩⟩
    · rcases ht with rfl | rfl <;> simp [recsBytes_cons, recsBytes_nil, recNone, mkFrame_bytes, be16]
    · simp only [UInt8.toNat_ofNat']
      omega

/-- A reference to a cell whose name is not ASCII. -/
def Sample.badRef : Ref := ⟨.name "é".toList, none, (0, 0), none, none, false, []⟩

/-- The first cell of the sample library with that reference. -/
def Sample.begunCell : Cell :=
  { Sample.lib.cells.headD ⟨[], [], [], [], []⟩ with references := [Sample.badRef] }

/-- The hypotheses of `C98_begun` on the cell that raises are met by a cell with a polygon, a path, a label
and a reference to a cell named é. -/
example : ∃ p ∈ Sample.lib.cells, Sample.begunCell.items = p.items ++ [.ref Sample.badRef] ∧
    runWrites (CellItem.writes (fun x => if x = 90 then (0, 1) else (1, 0)) 1024 (.ref Sample.badRef))
      = ([] ++ [0, 4, 0x0A, 0, 0, 6, 0x12, 6], some .unicodeError) ∧
    Begun [0, 4, 0x0A, 0, 0, 6, 0x12, 6] ∧ p.name = Sample.begunCell.name ∧
    p.Good (fun x => if x = 90 then (0, 1) else (1, 0)) 1024 (1 / 1024) := by
  have hmem : Sample.lib.cells.headD ⟨[], [], [], [], []⟩ ∈ Sample.lib.cells := List.mem_cons_self
  refine ⟨_, hmem, rfl, by decide +kernel, ⟨[recNone 0x0A (by norm_num),
    recText 0x12 "e".toList (by norm_num) ⟨by decide, by decide, by decide, by decide⟩],
    ⟨[101, 0], by decide +kernel⟩, by simp [recsRecords, recNone, recText, InElement]⟩, rfl, Sample.lib_good _ hmem⟩

/-- The hypotheses of `C98_begun_elements` are met by a triangle cut in its XY record. -/
example : Begun [0, 4, 8, 0, 0, 6, 0x0D, 2, 0, 1, 0, 6, 0x0E, 2, 0, 0, 0, 36, 0x10, 3, 0, 0, 0, 0] :=
  ((C98_begun_elements (trig := fun _ => (1, 0)) 1 [0, 4, 8, 0, 0, 6, 0x0D, 2, 0, 1, 0, 6, 0x0E, 2, 0, 0,
      0, 36, 0x10, 3, 0, 0, 0, 0, 0, 0, 0, 0, 0, 0, 0, 1, 0, 0, 0, 0, 0, 0, 0, 0, 0, 0, 0, 1,
      0, 0, 0, 0, 0, 0, 0, 0]).1 [] ⟨[(0, 0), (1, 0), (0, 1)], 1, 0⟩ (by decide)
    (by norm_num [Word]) (by norm_num [Word]) (by decide +kernel) ⟨by decide, by simp⟩
    (by decide +kernel)).2 _ (by decide)

/-- A label with a property that a file can not hold. -/
def Sample.badPropLabel : Label :=
  { Sample.label with properties := Sample.label.properties ++ [(70000, some "x".toList)] }

/-- The hypotheses of `C98_begun_silent` on the cell that raises are met by a cell with a polygon, a path and
two labels, the second of them with property number 70000. -/
example : ∃ p ∈ Sample.lib.cells, ∃ part2,
    ({ p with labels := [Sample.label, Sample.badPropLabel] } : Cell).items
      = p.items ++ [.label Sample.badPropLabel] ∧
    runWrites (CellItem.writes (fun x => if x = 90 then (0, 1) else (1, 0)) 1024 (.label Sample.badPropLabel))
      = ([] ++ part2, some .structError) ∧
    runWrites (CellItem.writes (fun x => if x = 90 then (0, 1) else (1, 0)) 1024 (.label Sample.label))
      = (part2 ++ [0, 4, 0x11, 0], none) ∧
    BegunWhole part2 ∧
    ({ p with labels := [Sample.label, Sample.label] } : Cell).items = p.items ++ [] ++ [.label Sample.label] ∧
    ({ p with labels := [Sample.label, Sample.label] } : Cell).Good
      (fun x => if x = 90 then (0, 1) else (1, 0)) 1024 (1 / 1024) := by
  have hmem : Sample.lib.cells.headD ⟨[], [], [], [], []⟩ ∈ Sample.lib.cells := List.mem_cons_self
  have hg := Sample.lib_good _ hmem
  refine ⟨_, hmem, (runWrites (CellItem.writes (fun x => if x = 90 then (0, 1) else (1, 0)) 1024
    (.label Sample.badPropLabel))).1, rfl, by decide +kernel, by decide +kernel, ?_, rfl,
    ⟨hg.name, hg.polygons, hg.paths, hg.outlines, ?_, hg.references⟩⟩
  · have hb := Sample.label_good
    obtain ⟨s, hs, hgt⟩ := hb.text
    exact ((C98_begun_elements (trig := fun _ => (1, 0)) 1024 _).2.2.1 Sample.label s hs hgt
      ⟨by decide +kernel, by decide +kernel⟩ ⟨by decide +kernel, by decide +kernel⟩ hb.anchor hb.rotation
      hb.magnification hb.words.1 hb.words.2 hb.props (by decide +kernel)).1
  · intro b hb
    simp only [List.mem_cons, List.not_mem_nil, or_false, or_self] at hb
    subst hb
    exact Sample.label_good

/-- What `Sample.badRef` leaves stops at the head of a record, as `C98_begun_noticed` assumes. -/
example : BegunHead [0, 4, 0x0A, 0, 0, 6, 0x12, 6] :=
  (C98_begun_heads 0 0 (by norm_num [Word]) (by norm_num [Word]) 0x0A (Or.inr rfl) 1 (by norm_num)
    (by norm_num)).2

end Gdspy
