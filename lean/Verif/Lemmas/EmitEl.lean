import Verif.Lemmas.Run
import Verif.Spec.Import

/-!
The records emitted for elements, and how they are read.
-/

namespace Gdspy

open Spec

/-- Fits 32 bits. -/
abbrev I32 (n : Int) : Prop := -2147483648 ≤ n ∧ n < 2147483648

theorem gridPoints_length (m : ℚ) (pts : List (ℚ × ℚ)) :
    (gridPoints m pts).length = 2 * pts.length := by
  unfold gridPoints
  induction pts with
  | nil => rfl
  | cons p pts ih =>
    rw [List.flatMap_cons, List.length_append, ih, List.length_cons]
    simp only [List.length_cons, List.length_nil]
    omega

theorem gridPoints_on {m d : ℚ} {pts : List (ℚ × ℚ)} (h : ∀ p ∈ pts, OnGrid2 m d p) :
    (∀ n ∈ gridPoints m pts, I32 n) ∧
      pairs ((gridPoints m pts).map fun n : Int => d * (n : ℚ)) = pts := by
  obtain ⟨g, rfl, _, h2, h3⟩ := gridPts_exists h
  exact ⟨h2, h3⟩

/-- ENDEL. -/
theorem writeEndel_emits : Emits (pack [.H 4, .H 0x1100]) [⟨0x11, .none⟩] := by
  refine ⟨[recNone 0x11 (by norm_num)], ?_, rfl⟩
  rw [pack_ok _ (by flds_ok)]
  refine congrArg Except.ok ?_
  simp [fldsBytes, Fld.bytes, recsBytes_cons, recsBytes_nil, recNone, mkFrame_bytes]

theorem Emits.append3 {w1 w2 w3 : Py Bytes} {r1 r2 r3 : List Record} (h1 : Emits w1 r1)
    (h2 : Emits w2 r2) (h3 : Emits w3 r3) :
    Emits (do let x ← w1; let y ← w2; let z ← w3; pure (x ++ y ++ z)) (r1 ++ r2 ++ r3) := by
  obtain ⟨a1, rfl, rfl⟩ := h1
  obtain ⟨a2, rfl, rfl⟩ := h2
  obtain ⟨a3, rfl, rfl⟩ := h3
  refine ⟨a1 ++ a2 ++ a3, ?_, by rw [recsRecords_append, recsRecords_append]⟩
  rw [py_bind_ok, py_bind_ok, py_bind_ok, py_pure, recsBytes_append, recsBytes_append]

theorem toNat_add_mul (x y n : Nat) : ((x : Int) + y * n).toNat = x + y * n := by omega

/-- The records of a polygon up to its coordinates. -/
theorem writePolyHead_emits (m : ℚ) (p : Poly) (h0 : p.points ≠ []) (hl : Word p.layer)
    (hd : Word p.datatype) (hg : ∀ n ∈ gridPoints m p.points, I32 n) :
    ∃ chunks : List (List Int), chunks ≠ [] ∧
      chunks.flatten = gridPoints m p.points ++ (gridPoints m p.points).take 2 ∧
      Emits (writePolyHead m p) ([⟨0x08, .none⟩, ⟨0x0D, .i16 [p.layer]⟩, ⟨0x0E, .i16 [p.datatype]⟩]
        ++ chunks.map fun c => ⟨0x10, .i32 c⟩) := by
  have hlen := gridPoints_length m p.points
  have hpos : 0 < p.points.length := List.length_pos_of_ne_nil h0
  have hne : gridPoints m p.points ++ (gridPoints m p.points).take 2 ≠ [] := by
    intro hc
    have := congrArg List.length hc
    rw [List.length_append, List.length_nil] at this
    omega
  have hgt : ∀ n ∈ gridPoints m p.points ++ (gridPoints m p.points).take 2, I32 n := by
    intro n hn
    rcases List.mem_append.1 hn with hn | hn
    · exact hg n hn
    · exact hg n (List.mem_of_mem_take hn)
  have hl2 : (gridPoints m p.points ++ (gridPoints m p.points).take 2).length
      = 2 * p.points.length + 2 := by
    rw [List.length_append, List.length_take]; omega
  unfold writePolyHead
  unfold Word at hl hd
  split
  · obtain ⟨chunks, hc, r2, e2, q2⟩ := writeChunks_emits 8190 (by norm_num) (by norm_num) _
      (gridPoints m p.points ++ (gridPoints m p.points).take 2) le_rfl hgt
    refine ⟨chunks, ?_, hc, ?_⟩
    · rintro rfl; exact hne hc.symm
    refine ⟨[recNone 0x08 (by norm_num), recShort 0x0D p.layer (by norm_num) hl,
      recShort 0x0E p.datatype (by norm_num) hd] ++ r2, ?_, ?_⟩
    · rw [pack_ok _ (by flds_ok), py_bind_ok, e2, py_bind_ok, py_pure]
      refine congrArg Except.ok ?_
      simp [fldsBytes, Fld.bytes, recsBytes_cons, recShort, recNone, mkFrame_bytes,
        twosComplement_two]
    · rw [recsRecords_append, q2]; rfl
  · rename_i hsmall
    refine ⟨[gridPoints m p.points ++ (gridPoints m p.points).take 2], by simp, by simp, ?_⟩
    refine ⟨[recNone 0x08 (by norm_num), recShort 0x0D p.layer (by norm_num) hl,
      recShort 0x0E p.datatype (by norm_num) hd,
      recLongs 0x10 (gridPoints m p.points ++ (gridPoints m p.points).take 2) (by norm_num) hne
        (by omega) hgt], ?_, ?_⟩
    · rw [pack_ok _ (by flds_ok), py_bind_ok, if_neg (by omega), py_pure]
      refine congrArg Except.ok ?_
      have e3 : ((12 : Int) + 8 * (p.points.length : Int)).toNat = 4 + 4 *
        (gridPoints m p.points ++ (gridPoints m p.points).take 2).length := by rw [hl2]; omega
      have e4 : i4Bytes (gridPoints m p.points) ++ i4Bytes ((gridPoints m p.points).take 2)
        = i4Bytes (gridPoints m p.points ++ (gridPoints m p.points).take 2) := by simp [i4Bytes]
      rw [e4]
      simp [-List.length_append, fldsBytes, Fld.bytes, recsBytes_cons, recsBytes_nil, recShort,
        recNone, recLongs, mkFrame_bytes, twosComplement_two, i4Bytes_length, e3]
    · rfl

theorem writePoly_emits (m : ℚ) (props : Properties) (p : Poly) (h0 : p.points ≠ [])
    (hl : Word p.layer) (hd : Word p.datatype) (hg : ∀ n ∈ gridPoints m p.points, I32 n)
    (hp : GoodProps props) :
    ∃ chunks : List (List Int), chunks ≠ [] ∧
      chunks.flatten = gridPoints m p.points ++ (gridPoints m p.points).take 2 ∧
      Emits (writePoly m props p)
        ([⟨0x08, .none⟩, ⟨0x0D, .i16 [p.layer]⟩, ⟨0x0E, .i16 [p.datatype]⟩]
        ++ (chunks.map fun c => ⟨0x10, .i32 c⟩) ++ propRecords props ++ [⟨0x11, .none⟩]) := by
  obtain ⟨chunks, h1, h2, h3⟩ := writePolyHead_emits m p h0 hl hd hg
  exact ⟨chunks, h1, h2, h3.append3 (writeProps_emits props hp.2) writeEndel_emits⟩

section
variable {div : ℚ → ℚ → ℚ} {trig : ℚ → ℚ × ℚ} {a : ReadArgs}

/-- Between two elements of a cell. -/
def Ready (st : ReadState) (name : Str) : Prop :=
  st.kwargs = {} ∧ st.properties = [] ∧ st.cell = some name

theorem mapped_eq (f : ℤ → Option ℤ) (n : ℤ) : (f n).getD n = mapped f n := by
  unfold mapped; cases f n <;> rfl

theorem run_poly (st : ReadState) (name : Str) (hst : Ready st name) (layer datatype : Int)
    (g : List Int) (hg : g.length % 2 = 0) (h0 : g ≠ []) (chunks : List (List Int))
    (hne : chunks ≠ []) (hc : chunks.flatten = g ++ g.take 2) (props : Properties)
    (hp : GoodProps props) :
    ∃ attr, Run div trig a st
      ([⟨0x08, .none⟩, ⟨0x0D, .i16 [layer]⟩, ⟨0x0E, .i16 [datatype]⟩]
        ++ (chunks.map fun c => ⟨0x10, .i32 c⟩) ++ propRecords props ++ [⟨0x11, .none⟩])
      (afterEl { st with attr := attr } name
        (.polygon ⟨[⟨pairs (g.map fun n : Int => st.factor * (n : ℚ)), mapped a.layers layer,
          mapped a.datatypes datatype⟩], props⟩)) := by
  obtain ⟨hk, hpr, hcell⟩ := hst
  have hlen : 0 < g.length := List.length_pos_of_ne_nil h0
  have e1 : createElement trig .polygon
      ⟨some (mapped a.layers layer), some (mapped a.datatypes datatype), none,
        some (chunks.flatten.map fun n : Int => st.factor * (n : ℚ)), none, false, none, none, none,
        none, none, none, none, none, none, none, none⟩
      = .ok (.polygon ⟨[⟨pairs (g.map fun n : Int => st.factor * (n : ℚ)), mapped a.layers layer,
          mapped a.datatypes datatype⟩], []⟩) := by
    have hl2 : (chunks.flatten.map fun n : Int => st.factor * (n : ℚ)).length = g.length + 2 := by
      rw [List.length_map, hc, List.length_append, List.length_take]; omega
    unfold createElement createPolygon
    simp only
    rw [if_neg (by omega), if_neg (by omega), hl2]
    congr
    rw [hc, List.map_append]
    exact List.take_left' (by simp)
  obtain ⟨attr, h⟩ := run_close (div := div) (a := a)
    { st with
      create := some .polygon
      kwargs := ⟨some (mapped a.layers layer), some (mapped a.datatypes datatype), none,
        some (chunks.flatten.map fun n : Int => st.factor * (n : ℚ)), none, false, none, none, none,
        none, none, none, none, none, none, none, none⟩ } .polygon _ name props rfl hcell e1 hpr
    rfl hp
  refine ⟨attr, ?_⟩
  rw [List.append_assoc]
  refine Run.trans (Run.trans (Run.cons (step_boundary st) (Run.cons (step_layer _ _)
    (Run.one (step_datatype _ _)))) (run_xy _ chunks hne (by simp only [hk]))) ?_
  simp only [hk, mapped_eq]
  exact h

end

/-! ### paths -/

theorem Emits.append5 {w1 w2 w3 w4 w5 : Py Bytes} {r1 r2 r3 r4 r5 : List Record} (h1 : Emits w1 r1)
    (h2 : Emits w2 r2) (h3 : Emits w3 r3) (h4 : Emits w4 r4) (h5 : Emits w5 r5) :
    Emits (do let x ← w1; let y ← w2; let z ← w3; let u ← w4; let v ← w5
              pure (x ++ y ++ z ++ u ++ v)) (r1 ++ r2 ++ r3 ++ r4 ++ r5) := by
  obtain ⟨a1, rfl, rfl⟩ := h1
  obtain ⟨a2, rfl, rfl⟩ := h2
  obtain ⟨a3, rfl, rfl⟩ := h3
  obtain ⟨a4, rfl, rfl⟩ := h4
  obtain ⟨a5, rfl, rfl⟩ := h5
  refine ⟨a1 ++ a2 ++ a3 ++ a4 ++ a5, ?_, by simp only [recsRecords_append]⟩
  rw [py_bind_ok, py_bind_ok, py_bind_ok, py_bind_ok, py_bind_ok, py_pure]
  simp only [recsBytes_append]

def endsRecords (m : ℚ) : Ends → List Record
  | .ext x y => [⟨0x30, .i32 [pyRound (x * m)]⟩, ⟨0x31, .i32 [pyRound (y * m)]⟩]
  | _ => []

theorem writeEnds_emits (m : ℚ) (e : Ends)
    (h : ∀ x y, e = .ext x y → I32 (pyRound (x * m)) ∧ I32 (pyRound (y * m))) :
    Emits (writeEnds m e) (endsRecords m e) := by
  cases e with
  | ext x y =>
    obtain ⟨h1, h2⟩ := h x y rfl
    refine ⟨[recLongs 0x30 [pyRound (x * m)] (by norm_num) (by simp) (by simp) (by simpa using h1),
      recLongs 0x31 [pyRound (y * m)] (by norm_num) (by simp) (by simp) (by simpa using h2)],
      ?_, rfl⟩
    unfold I32 at h1 h2
    simp only [writeEnds]
    generalize pyRound (x * m) = x' at *
    generalize pyRound (y * m) = y' at *
    rw [pack_ok _ (by flds_ok)]
    refine congrArg Except.ok ?_
    simp [fldsBytes, Fld.bytes, recsBytes_cons, recsBytes_nil, recLongs, mkFrame_bytes, i4Bytes,
      i4, be32]
  | _ => exact Emits.nil

theorem writeSpine_emits (m : ℚ) (pts : List (ℚ × ℚ)) (h0 : pts ≠ [])
    (hg : ∀ n ∈ gridPoints m pts, I32 n) :
    ∃ chunks : List (List Int), chunks ≠ [] ∧ chunks.flatten = gridPoints m pts ∧
      Emits (writeSpine m pts) (chunks.map fun c => ⟨0x10, .i32 c⟩) := by
  have hlen := gridPoints_length m pts
  have hpos : 0 < pts.length := List.length_pos_of_ne_nil h0
  have hne : gridPoints m pts ≠ [] := by
    intro hc
    have := congrArg List.length hc
    rw [List.length_nil] at this
    omega
  unfold writeSpine
  split
  · obtain ⟨chunks, hc, he⟩ := writeChunks_emits 8191 (by norm_num) (by norm_num) _
      (gridPoints m pts) le_rfl hg
    refine ⟨chunks, ?_, hc, he⟩
    rintro rfl; exact hne hc.symm
  · rename_i hsmall
    refine ⟨[gridPoints m pts], by simp, by simp, ?_⟩
    refine ⟨[recLongs 0x10 (gridPoints m pts) (by norm_num) hne (by omega) hg], ?_, rfl⟩
    rw [pack_ok _ (by flds_ok), py_bind_ok, py_pure]
    refine congrArg Except.ok ?_
    have e3 : ((4 : Int) + 8 * (pts.length : Int)).toNat = 4 + 4 * (gridPoints m pts).length := by
      rw [hlen]; omega
    simp [fldsBytes, Fld.bytes, recsBytes_cons, recsBytes_nil, recLongs, mkFrame_bytes,
      i4Bytes_length, e3]

theorem pathtype_word (e : Ends) : -32768 ≤ e.pathtype ∧ e.pathtype < 32768 := by
  cases e <;> simp [Ends.pathtype]

theorem writeSubPath_emits (m : ℚ) (sign : Int) (props : Properties) (s : SubPath)
    (h0 : s.spine ≠ []) (hl : Word s.layer) (hd : Word s.datatype)
    (hg : ∀ n ∈ gridPoints m s.spine, I32 n) (hw : I32 (sign * pyRound (s.width * m)))
    (he : ∀ x y, s.ends = .ext x y → I32 (pyRound (x * m)) ∧ I32 (pyRound (y * m)))
    (hp : GoodProps props) :
    ∃ chunks : List (List Int), chunks ≠ [] ∧ chunks.flatten = gridPoints m s.spine ∧
      Emits (writeSubPath m sign props s)
        ([⟨0x09, .none⟩, ⟨0x0D, .i16 [s.layer]⟩, ⟨0x0E, .i16 [s.datatype]⟩,
          ⟨0x21, .i16 [s.ends.pathtype]⟩, ⟨0x0F, .i32 [sign * pyRound (s.width * m)]⟩]
        ++ endsRecords m s.ends ++ (chunks.map fun c => ⟨0x10, .i32 c⟩)
        ++ propRecords props ++ [⟨0x11, .none⟩]) := by
  obtain ⟨chunks, h1, h2, h3⟩ := writeSpine_emits m s.spine h0 hg
  refine ⟨chunks, h1, h2, Emits.append5 ?_ (writeEnds_emits m s.ends he) h3
    (writeProps_emits props hp.2) writeEndel_emits⟩
  have hpt := pathtype_word s.ends
  unfold Word at hl hd
  refine ⟨[recNone 0x09 (by norm_num), recShort 0x0D s.layer (by norm_num) hl,
    recShort 0x0E s.datatype (by norm_num) hd, recShort 0x21 s.ends.pathtype (by norm_num) hpt,
    recLongs 0x0F [sign * pyRound (s.width * m)] (by norm_num) (by simp) (by simp)
      (by simpa using hw)], ?_, rfl⟩
  unfold I32 at hw
  generalize sign * pyRound (s.width * m) = w at *
  generalize s.ends.pathtype = pt at *
  rw [pack_ok _ (by flds_ok)]
  refine congrArg Except.ok ?_
  simp [fldsBytes, Fld.bytes, recsBytes_cons, recsBytes_nil, recShort, recNone, recLongs,
    mkFrame_bytes, twosComplement_two, i4Bytes, i4, be32]

/-- End caps as they come back. -/
def endsBack (m d : ℚ) : Ends → Ends
  | .ext x y => .ext (d * (pyRound (x * m) : ℚ)) (d * (pyRound (y * m) : ℚ))
  | .flush => .flush
  | .callable => .flush
  | .round => .round
  | .smooth => .round
  | .extended => .extended

section
variable {div : ℚ → ℚ → ℚ} {trig : ℚ → ℚ × ℚ} {a : ReadArgs}

theorem run_path (m : ℚ) (st : ReadState) (name : Str) (hst : Ready st name) (layer datatype : Int)
    (e : Ends) (w : Int) (g : List Int) (hg : g.length % 2 = 0) (chunks : List (List Int))
    (hne : chunks ≠ []) (hc : chunks.flatten = g) (props : Properties) (hp : GoodProps props) :
    ∃ attr, Run div trig a st
      ([⟨0x09, .none⟩, ⟨0x0D, .i16 [layer]⟩, ⟨0x0E, .i16 [datatype]⟩,
          ⟨0x21, .i16 [e.pathtype]⟩, ⟨0x0F, .i32 [w]⟩]
        ++ endsRecords m e ++ (chunks.map fun c => ⟨0x10, .i32 c⟩)
        ++ propRecords props ++ [⟨0x11, .none⟩])
      (afterEl { st with attr := attr } name
        (.path ⟨!decide (w < 0), [⟨st.factor * |(w : ℚ)|, endsBack m st.factor e,
          mapped a.layers layer, mapped a.datatypes datatype,
          pairs (g.map fun n : Int => st.factor * (n : ℚ))⟩], props⟩)) := by
  obtain ⟨hk, hpr, hcell⟩ := hst
  subst hc
  have key : ∀ (b x : Option ℚ), (∃ eb, (if b.isSome || x.isSome then
        some (Ends.ext (b.getD 0) (x.getD 0)) else some (importEnds e.pathtype)) = some eb ∧
          eb = endsBack m st.factor e) →
      ∃ attr, Run div trig a { st with
        create := some .path
        kwargs := ⟨some (mapped a.layers layer), some (mapped a.datatypes datatype), none,
          some (chunks.flatten.map fun n : Int => st.factor * (n : ℚ)),
          some (st.factor * |(w : ℚ)|), decide (w < 0), none, none, none,
          none, none, none, none, none, some (importEnds e.pathtype), b, x⟩ }
        (propRecords props ++ [⟨0x11, .none⟩])
      (afterEl { st with attr := attr } name
        (.path ⟨!decide (w < 0), [⟨st.factor * |(w : ℚ)|, endsBack m st.factor e,
          mapped a.layers layer, mapped a.datatypes datatype,
          pairs (chunks.flatten.map fun n : Int => st.factor * (n : ℚ))⟩], props⟩)) := by
    rintro b x ⟨eb, hb, heb⟩
    refine run_close (div := div) (a := a) { st with
        create := some .path
        kwargs := ⟨some (mapped a.layers layer), some (mapped a.datatypes datatype), none,
          some (chunks.flatten.map fun n : Int => st.factor * (n : ℚ)),
          some (st.factor * |(w : ℚ)|), decide (w < 0), none, none, none,
          none, none, none, none, none, some (importEnds e.pathtype), b, x⟩ } .path
      (.path ⟨!decide (w < 0), [⟨st.factor * |(w : ℚ)|, endsBack m st.factor e,
          mapped a.layers layer, mapped a.datatypes datatype,
          pairs (chunks.flatten.map fun n : Int => st.factor * (n : ℚ))⟩], []⟩)
      name props rfl hcell ?_ hpr rfl hp
    unfold createElement createPath
    simp only
    rw [if_neg (by rw [List.length_map]; omega), hb, heb]
    rfl
  by_cases hext : ∃ x y, e = .ext x y
  · obtain ⟨x, y, rfl⟩ := hext
    obtain ⟨attr, h⟩ := key (some (st.factor * (pyRound (x * m) : ℚ)))
      (some (st.factor * (pyRound (y * m) : ℚ))) ⟨_, rfl, rfl⟩
    refine ⟨attr, ?_⟩
    rw [List.append_assoc]
    refine Run.trans (Run.trans (Run.trans (Run.cons (step_path st) (Run.cons (step_layer _ _)
      (Run.cons (step_datatype _ _) (Run.cons (step_pathtype _ _) (Run.one (step_width _ _))))))
      (Run.cons (step_bgnextn _ _) (Run.one (step_endextn _ _))))
      (run_xy _ chunks hne (by simp only [hk]))) ?_
    simp only [hk, mapped_eq, Bool.false_or]
    exact h
  · obtain ⟨attr, h⟩ := key none none ⟨importEnds e.pathtype, rfl, by
      cases e with
      | ext x y => exact absurd ⟨x, y, rfl⟩ hext
      | _ => rfl⟩
    refine ⟨attr, ?_⟩
    have e0 : endsRecords m e = [] := by
      cases e with
      | ext x y => exact absurd ⟨x, y, rfl⟩ hext
      | _ => rfl
    rw [List.append_assoc, e0, List.append_nil]
    refine Run.trans (Run.trans (Run.cons (step_path st) (Run.cons (step_layer _ _)
      (Run.cons (step_datatype _ _) (Run.cons (step_pathtype _ _) (Run.one (step_width _ _))))))
      (run_xy _ chunks hne (by simp only [hk]))) ?_
    simp only [hk, mapped_eq, Bool.false_or]
    exact h

end

/-! ### labels -/

theorem writeLabel_emits (m : ℚ) (b : Label) (text : Str) (ht : b.text = some text)
    (hg : GoodText text) (hx : I32 (pyRound (b.position.1 * m)))
    (hy : I32 (pyRound (b.position.2 * m))) (ha : GoodAnchor b.anchor) (hr : GoodReal b.rotation)
    (hm : GoodReal b.magnification) (hl : Word b.layer) (hd : Word b.texttype)
    (hp : GoodProps b.properties) :
    Emits (b.toGds m)
      ([⟨0x0C, .none⟩, ⟨0x0D, .i16 [b.layer]⟩, ⟨0x16, .i16 [b.texttype]⟩,
        ⟨0x17, .u16 [b.anchor.toNat]⟩]
      ++ stransRecords b.rotation b.magnification b.xReflection
      ++ [⟨0x10, .i32 [pyRound (b.position.1 * m), pyRound (b.position.2 * m)]⟩, ⟨0x19, .str text⟩]
      ++ propRecords b.properties ++ [⟨0x11, .none⟩]) := by
  have hab : 0 ≤ b.anchor ∧ b.anchor < 16 := by
    unfold GoodAnchor at ha
    simp only [List.mem_cons, List.not_mem_nil, or_false] at ha
    omega
  have e1 : Emits (pack [.H 4, .H 0x0C00, .H 6, .H 0x0D02, .h b.layer, .H 6, .H 0x1602,
      .h b.texttype, .H 6, .H 0x1701, .h b.anchor])
      [⟨0x0C, .none⟩, ⟨0x0D, .i16 [b.layer]⟩, ⟨0x16, .i16 [b.texttype]⟩,
        ⟨0x17, .u16 [b.anchor.toNat]⟩] := by
    unfold Word at hl hd
    refine ⟨[recNone 0x0C (by norm_num), recShort 0x0D b.layer (by norm_num) hl,
      recShort 0x16 b.texttype (by norm_num) hd, recWord 0x17 b.anchor.toNat (by norm_num)
      (by omega)], ?_, rfl⟩
    rw [pack_ok _ (by flds_ok)]
    refine congrArg Except.ok ?_
    have e3 : (b.anchor % 65536).toNat = b.anchor.toNat := by omega
    simp [fldsBytes, Fld.bytes, recsBytes_cons, recsBytes_nil, recShort, recNone, recWord,
      mkFrame_bytes, twosComplement_two, bigEndian_two, e3]
  obtain ⟨r1, h1, q1⟩ := e1
  obtain ⟨r2, h2, q2⟩ := writeStrans_emits b.rotation b.magnification b.xReflection hr hm
  obtain ⟨r4, h4, q4⟩ := writeProps_emits b.properties hp.2
  obtain ⟨r5, h5, q5⟩ := writeEndel_emits
  have hlen := padEven_length_le text
  have hlen2 := hg.2.2.1
  refine ⟨r1 ++ r2 ++ [recLongs 0x10 [pyRound (b.position.1 * m), pyRound (b.position.2 * m)]
    (by norm_num) (by simp) (by simp) (by simpa using ⟨hx, hy⟩), recText 0x19 text (by norm_num) hg]
    ++ r4 ++ r5, ?_, ?_⟩
  · unfold I32 at hx hy
    unfold Label.toGds
    rw [h1, py_bind_ok, h2, py_bind_ok, ht]
    simp only [padText]
    rw [py_bind_ok, pack_ok _ (by flds_ok), py_bind_ok, encodeAscii_ok (padEven_ascii hg.2.1),
      py_bind_ok, h4, py_bind_ok, h5, py_bind_ok, py_pure]
    refine congrArg Except.ok ?_
    have e3 : (4 + ((padEven text).length : Int)).toNat = 4 + (padEven text).length := by omega
    simp [recsBytes_append, fldsBytes, Fld.bytes, recsBytes_cons, recLongs, recText,
      mkFrame_bytes, i4Bytes, i4, be32, e3]
  · simp only [recsRecords_append, q1, q2, q4, q5]
    rfl

section
variable {div : ℚ → ℚ → ℚ} {trig : ℚ → ℚ × ℚ} {a : ReadArgs}

theorem run_mag (st : ReadState) (v : Option ℚ) (h : st.kwargs.magnification = none) :
    Run div trig a st (optReal 0x1B v)
      { st with kwargs := { st.kwargs with magnification := v } } := by
  cases v with
  | none =>
    have : ({ st with kwargs := { st.kwargs with magnification := none } } : ReadState) = st := by
      obtain ⟨lib, kw⟩ := st
      obtain ⟨⟩ := kw
      simp only at h
      subst h
      rfl
    rw [this]
    exact Run.nil st
  | some v => exact Run.one (step_mag st v)

theorem run_angle (st : ReadState) (v : Option ℚ) (h : st.kwargs.rotation = none) :
    Run div trig a st (optReal 0x1C v)
      { st with kwargs := { st.kwargs with rotation := v } } := by
  cases v with
  | none =>
    have : ({ st with kwargs := { st.kwargs with rotation := none } } : ReadState) = st := by
      obtain ⟨lib, kw⟩ := st
      obtain ⟨⟩ := kw
      simp only at h
      subst h
      rfl
    rw [this]
    exact Run.nil st
  | some v => exact Run.one (step_angle st v)

theorem run_strans (st : ReadState) (rot mag : Option ℚ) (xr : Bool)
    (h1 : st.kwargs.rotation = none) (h2 : st.kwargs.magnification = none)
    (h3 : st.kwargs.xReflection = none) :
    ∃ xr', xr'.getD false = xr ∧ (rot.isSome → xr' = some xr) ∧
    Run div trig a st (stransRecords rot mag xr)
      { st with kwargs := { st.kwargs with
        rotation := rot, magnification := mag, xReflection := xr' } } := by
  unfold stransRecords
  split
  · refine ⟨some xr, rfl, fun _ => rfl, ?_⟩
    refine Run.trans (Run.one (step_strans st xr)) ?_
    refine Run.trans (run_mag _ mag ?_) ?_
    · exact h2
    · exact run_angle { st with kwargs := { st.kwargs with
        xReflection := some xr, magnification := mag } } rot h1
  · rename_i h
    simp only [Bool.or_eq_true, not_or, Bool.not_eq_true, Option.isSome_eq_false_iff,
      Option.isNone_iff_eq_none] at h
    obtain ⟨⟨rfl, rfl⟩, rfl⟩ := h
    refine ⟨none, rfl, by simp, ?_⟩
    have : ({ st with kwargs := { st.kwargs with
        rotation := none, magnification := none, xReflection := none } } : ReadState) = st := by
      obtain ⟨lib, kw⟩ := st
      obtain ⟨⟩ := kw
      simp only at h1 h2 h3
      subst h1 h2 h3
      rfl
    rw [this]
    exact Run.nil _

theorem importAnchor_good {n : ℤ} (h : GoodAnchor n) : importAnchor (n.toNat : ℤ) = n := by
  unfold GoodAnchor at h
  simp only [List.mem_cons, List.not_mem_nil, or_false] at h
  rcases h with rfl | rfl | rfl | rfl | rfl | rfl | rfl | rfl | rfl <;> rfl

theorem run_label (st : ReadState) (name : Str) (hst : Ready st name) (layer texttype anchor : Int)
    (ha : GoodAnchor anchor) (rot mag : Option ℚ) (xr : Bool) (x y : Int) (text : Str)
    (props : Properties) (hp : GoodProps props) :
    ∃ attr, Run div trig a st
      ([⟨0x0C, .none⟩, ⟨0x0D, .i16 [layer]⟩, ⟨0x16, .i16 [texttype]⟩,
        ⟨0x17, .u16 [anchor.toNat]⟩]
      ++ stransRecords rot mag xr ++ [⟨0x10, .i32 [x, y]⟩, ⟨0x19, .str text⟩]
      ++ propRecords props ++ [⟨0x11, .none⟩])
      (afterEl { st with attr := attr } name
        (.label ⟨some text, (st.factor * (x : ℚ), st.factor * (y : ℚ)), anchor, rot, mag, xr,
          mapped a.layers layer, mapped a.texttypes texttype, props⟩)) := by
  obtain ⟨hk, hpr, hcell⟩ := hst
  obtain ⟨xr', hx1, -, hrun⟩ := run_strans (div := div) (trig := trig) (a := a) { st with
      create := some .label
      kwargs := ⟨some (mapped a.layers layer), none, some (mapped a.texttypes texttype), none,
        none, false, none, none, none, none, none, none, none, some anchor, none, none, none⟩ }
    rot mag xr rfl rfl rfl
  obtain ⟨attr, h⟩ := run_close (div := div) (trig := trig) (a := a) { st with
      create := some .label
      kwargs := ⟨some (mapped a.layers layer), none, some (mapped a.texttypes texttype),
        some [st.factor * (x : ℚ), st.factor * (y : ℚ)],
        none, false, none, none, none, xr', mag, rot, some (some text), some anchor,
        none, none, none⟩ } .label
    (.label ⟨some text, (st.factor * (x : ℚ), st.factor * (y : ℚ)), anchor, rot, mag, xr,
          mapped a.layers layer, mapped a.texttypes texttype, []⟩) name props rfl hcell (by
      unfold createElement createLabel
      simp only [hx1, Option.getD_some]) hpr rfl hp
  refine ⟨attr, ?_⟩
  rw [List.append_assoc]
  have hb : Run div trig a st [⟨0x0C, .none⟩, ⟨0x0D, .i16 [layer]⟩, ⟨0x16, .i16 [texttype]⟩,
      ⟨0x17, .u16 [anchor.toNat]⟩] { st with
      create := some .label
      kwargs := ⟨some (mapped a.layers layer), none, some (mapped a.texttypes texttype), none,
        none, false, none, none, none, none, none, none, none, some anchor, none, none, none⟩ } := by
    have := Run.cons (step_text (div := div) (trig := trig) (a := a) st)
      (Run.cons (step_layer _ layer) (Run.cons (step_texttype _ texttype)
        (Run.one (step_presentation _ anchor.toNat))))
    simp only [hk, mapped_eq, importAnchor_good ha] at this
    exact this
  exact ((hb.trans hrun).trans (Run.cons (step_xy _ _) (Run.one (step_string _ _)))).trans h

end

/-! ### references -/

def refXYRecords (trig : ℚ → ℚ × ℚ) (m : ℚ) (r : Ref) : List Record :=
  match r.array with
  | none => [⟨0x10, .i32 [pyRound (r.origin.1 * m), pyRound (r.origin.2 * m)]⟩]
  | some (columns, rows, spacing) =>
    let c := arrayCorners trig r columns rows spacing
    [⟨0x13, .i16 [columns, rows]⟩, ⟨0x10, .i32 [pyRound (r.origin.1 * m), pyRound (r.origin.2 * m),
      pyRound (c.1.1 * m), pyRound (c.1.2 * m), pyRound (c.2.1 * m), pyRound (c.2.2 * m)]⟩]

/-- The stored numbers of a reference are in range. -/
def RefFits (trig : ℚ → ℚ × ℚ) (m : ℚ) (r : Ref) : Prop :=
  I32 (pyRound (r.origin.1 * m)) ∧ I32 (pyRound (r.origin.2 * m)) ∧
  ∀ columns rows spacing, r.array = some (columns, rows, spacing) →
    Word columns ∧ Word rows ∧
    I32 (pyRound ((arrayCorners trig r columns rows spacing).1.1 * m)) ∧
    I32 (pyRound ((arrayCorners trig r columns rows spacing).1.2 * m)) ∧
    I32 (pyRound ((arrayCorners trig r columns rows spacing).2.1 * m)) ∧
    I32 (pyRound ((arrayCorners trig r columns rows spacing).2.2 * m))

theorem writeRefXY_emits (trig : ℚ → ℚ × ℚ) (m : ℚ) (r : Ref) (h : RefFits trig m r) :
    Emits (writeRefXY trig m r) (refXYRecords trig m r) := by
  obtain ⟨h1, h2, h3⟩ := h
  unfold writeRefXY refXYRecords
  cases har : r.array with
  | none =>
    simp only
    generalize pyRound (r.origin.1 * m) = x at *
    generalize pyRound (r.origin.2 * m) = y at *
    refine ⟨[recLongs 0x10 [x, y] (by norm_num) (by simp) (by simp) (by simpa using ⟨h1, h2⟩)],
      ?_, rfl⟩
    unfold I32 at h1 h2
    rw [pack_ok _ (by flds_ok)]
    refine congrArg Except.ok ?_
    simp [fldsBytes, Fld.bytes, recsBytes_cons, recsBytes_nil, recLongs, mkFrame_bytes, i4Bytes,
      i4, be32]
  | some t =>
    obtain ⟨columns, rows, spacing⟩ := t
    obtain ⟨w1, w2, h3, h4, h5, h6⟩ := h3 columns rows spacing har
    simp only
    generalize pyRound (r.origin.1 * m) = x at *
    generalize pyRound (r.origin.2 * m) = y at *
    generalize pyRound ((arrayCorners trig r columns rows spacing).1.1 * m) = x2 at *
    generalize pyRound ((arrayCorners trig r columns rows spacing).1.2 * m) = y2 at *
    generalize pyRound ((arrayCorners trig r columns rows spacing).2.1 * m) = x3 at *
    generalize pyRound ((arrayCorners trig r columns rows spacing).2.2 * m) = y3 at *
    refine ⟨[recShort2 0x13 columns rows (by norm_num) w1 w2,
      recLongs 0x10 [x, y, x2, y2, x3, y3] (by norm_num) (by simp) (by simp)
        (by simpa using ⟨h1, h2, h3, h4, h5, h6⟩)], ?_, rfl⟩
    unfold I32 at h1 h2 h3 h4 h5 h6
    unfold Word at w1 w2
    rw [pack_ok _ (by flds_ok)]
    refine congrArg Except.ok ?_
    simp [fldsBytes, Fld.bytes, recsBytes_cons, recsBytes_nil, recLongs, recShort2, mkFrame_bytes,
      twosComplement_two, i4Bytes, i4, be32, be16]

theorem writeRef_emits (trig : ℚ → ℚ × ℚ) (m : ℚ) (r : Ref) (hg : GoodText r.target.str)
    (hf : RefFits trig m r) (hr : GoodReal r.rotation) (hm : GoodReal r.magnification)
    (hp : GoodProps r.properties) :
    Emits (r.toGds trig m)
      ([⟨if r.array.isSome then 0x0B else 0x0A, .none⟩, ⟨0x12, .str r.target.str⟩]
      ++ stransRecords r.rotation r.magnification r.xReflection ++ refXYRecords trig m r
      ++ propRecords r.properties ++ [⟨0x11, .none⟩]) := by
  obtain ⟨r2, h2, q2⟩ := writeStrans_emits r.rotation r.magnification r.xReflection hr hm
  obtain ⟨r3, h3, q3⟩ := writeRefXY_emits trig m r hf
  obtain ⟨r4, h4, q4⟩ := writeProps_emits r.properties hp.2
  obtain ⟨r5, h5, q5⟩ := writeEndel_emits
  have hlen := padEven_length_le r.target.str
  have hlen2 := hg.2.2.1
  have ht : (if r.array.isSome then 0x0B else 0x0A : Nat) < 256 := by split <;> norm_num
  have ht2 : 0 ≤ (if r.array.isSome then 0x0B00 else 0x0A00 : Int) ∧
    (if r.array.isSome then 0x0B00 else 0x0A00 : Int) < 65536 := by split <;> norm_num
  have ht3 : (if r.array.isSome then 0x0B00 else 0x0A00 : Int).toNat
    = (if r.array.isSome then 0x0B else 0x0A : Nat) * 256 := by split <;> rfl
  refine ⟨[recNone (if r.array.isSome then 0x0B else 0x0A) ht,
    recText 0x12 r.target.str (by norm_num) hg] ++ r2 ++ r3 ++ r4 ++ r5, ?_, ?_⟩
  · unfold Ref.toGds
    rw [pack_ok _ (by flds_ok), py_bind_ok, encodeAscii_ok (padEven_ascii hg.2.1),
      py_bind_ok, h2, py_bind_ok, h3, py_bind_ok, h4, py_bind_ok, h5, py_bind_ok, py_pure]
    refine congrArg Except.ok ?_
    have e3 : (4 + ((padEven r.target.str).length : Int)).toNat
      = 4 + (padEven r.target.str).length := by omega
    simp only [recsBytes_append, recsBytes_cons, recsBytes_nil, recNone, recText,
      mkFrame_bytes _ _ _ ht (show 0 < 256 by norm_num),
      mkFrame_bytes _ _ _ (show 0x12 < 256 by norm_num) (show 6 < 256 by norm_num), fldsBytes,
      Fld.bytes, ht3, e3]
    simp
  · simp only [recsRecords_append, q2, q3, q4, q5]
    rfl

section
variable {div : ℚ → ℚ → ℚ} {trig : ℚ → ℚ × ℚ} {a : ReadArgs}

theorem run_ref (st : ReadState) (name : Str) (hst : Ready st name) (target : Str)
    (rot mag : Option ℚ) (xr : Bool) (x y : Int) (props : Properties) (hp : GoodProps props) :
    ∃ attr, Run div trig a st
      ([⟨0x0A, .none⟩, ⟨0x12, .str target⟩] ++ stransRecords rot mag xr ++ [⟨0x10, .i32 [x, y]⟩]
      ++ propRecords props ++ [⟨0x11, .none⟩])
      (afterEl { st with attr := attr } name
        (.ref ⟨.name (a.nameMap target), none, (st.factor * (x : ℚ), st.factor * (y : ℚ)), rot, mag,
          xr, props⟩)) := by
  obtain ⟨hk, hpr, hcell⟩ := hst
  obtain ⟨xr', hx1, -, hrun⟩ := run_strans (div := div) (trig := trig) (a := a) { st with
      create := some .reference
      kwargs := ⟨none, none, none, none, none, false, some (a.nameMap target), none, none, none,
        none, none, none, none, none, none, none⟩ } rot mag xr rfl rfl rfl
  obtain ⟨attr, h⟩ := run_close (div := div) (trig := trig) (a := a) { st with
      create := some .reference
      kwargs := ⟨none, none, none, some [st.factor * (x : ℚ), st.factor * (y : ℚ)], none, false,
        some (a.nameMap target), none, none, xr', mag, rot, none, none, none, none, none⟩ }
    .reference (.ref ⟨.name (a.nameMap target), none, (st.factor * (x : ℚ), st.factor * (y : ℚ)),
      rot, mag, xr, []⟩) name props rfl hcell (by
      unfold createElement createReference
      simp only [hx1]) hpr rfl hp
  refine ⟨attr, ?_⟩
  rw [List.append_assoc]
  have hb : Run div trig a st [⟨0x0A, .none⟩, ⟨0x12, .str target⟩] { st with
      create := some .reference
      kwargs := ⟨none, none, none, none, none, false, some (a.nameMap target), none, none, none,
        none, none, none, none, none, none, none⟩ } := by
    have := Run.cons (step_sref (div := div) (trig := trig) (a := a) st)
      (Run.one (step_sname _ target))
    simp only [hk] at this
    exact this
  exact ((hb.trans hrun).trans (Run.one (step_xy _ _))).trans h

theorem run_array (st : ReadState) (name : Str) (hst : Ready st name) (target : Str)
    (rot mag : Option ℚ) (xr : Bool) (columns rows x y x2 y2 x3 y3 : Int) (hc : columns ≠ 0)
    (hr : rows ≠ 0) (props : Properties) (hp : GoodProps props) :
    ∃ attr, Run div trig a st
      ([⟨0x0B, .none⟩, ⟨0x12, .str target⟩] ++ stransRecords rot mag xr
      ++ [⟨0x13, .i16 [columns, rows]⟩, ⟨0x10, .i32 [x, y, x2, y2, x3, y3]⟩]
      ++ propRecords props ++ [⟨0x11, .none⟩])
      (afterEl { st with attr := attr } name
        (.ref ⟨.name (a.nameMap target), some (columns, rows, arraySpacing trig (some xr) rot
          columns rows (st.factor * (x : ℚ)) (st.factor * (y : ℚ)) (st.factor * (x2 : ℚ))
          (st.factor * (y2 : ℚ)) (st.factor * (x3 : ℚ)) (st.factor * (y3 : ℚ))),
          (st.factor * (x : ℚ), st.factor * (y : ℚ)), rot, mag, xr, props⟩)) := by
  obtain ⟨hk, hpr, hcell⟩ := hst
  obtain ⟨xr', hx1, hx2, hrun⟩ := run_strans (div := div) (trig := trig) (a := a) { st with
      create := some .array
      kwargs := ⟨none, none, none, none, none, false, some (a.nameMap target), none, none, none,
        none, none, none, none, none, none, none⟩ } rot mag xr rfl rfl rfl
  have hsp : ∀ x0 y0 x2 y2 x3 y3 : ℚ, arraySpacing trig xr' rot columns rows x0 y0 x2 y2 x3 y3
      = arraySpacing trig (some xr) rot columns rows x0 y0 x2 y2 x3 y3 := by
    intro x0 y0 x2 y2 x3 y3
    cases rot with
    | some r => rw [hx2 rfl]
    | none =>
      cases xr' with
      | some b => simp only [Option.getD_some] at hx1; rw [hx1]
      | none =>
        simp only [Option.getD_none] at hx1
        subst hx1
        rfl
  obtain ⟨attr, h⟩ := run_close (div := div) (trig := trig) (a := a) { st with
      create := some .array
      kwargs := ⟨none, none, none, some [st.factor * (x : ℚ), st.factor * (y : ℚ),
        st.factor * (x2 : ℚ), st.factor * (y2 : ℚ), st.factor * (x3 : ℚ), st.factor * (y3 : ℚ)],
        none, false, some (a.nameMap target), some columns, some rows, xr', mag, rot, none, none,
        none, none, none⟩ }
    .array (.ref ⟨.name (a.nameMap target), some (columns, rows, arraySpacing trig (some xr) rot
          columns rows (st.factor * (x : ℚ)) (st.factor * (y : ℚ)) (st.factor * (x2 : ℚ))
          (st.factor * (y2 : ℚ)) (st.factor * (x3 : ℚ)) (st.factor * (y3 : ℚ))),
          (st.factor * (x : ℚ), st.factor * (y : ℚ)), rot, mag, xr, []⟩) name props rfl hcell (by
      unfold createElement createArray
      simp only [hx1, hsp]
      rw [if_neg (by rintro (h | h); exact hc h; exact hr h)]) hpr rfl hp
  refine ⟨attr, ?_⟩
  rw [List.append_assoc]
  have hb : Run div trig a st [⟨0x0B, .none⟩, ⟨0x12, .str target⟩] { st with
      create := some .array
      kwargs := ⟨none, none, none, none, none, false, some (a.nameMap target), none, none, none,
        none, none, none, none, none, none, none⟩ } := by
    have := Run.cons (step_aref (div := div) (trig := trig) (a := a) st)
      (Run.one (step_sname _ target))
    simp only [hk] at this
    exact this
  exact ((hb.trans hrun).trans (Run.cons (step_colrow _ _ _) (Run.one (step_xy _ _)))).trans h

end

end Gdspy
