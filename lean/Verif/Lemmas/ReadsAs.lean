import Verif.Lemmas.EmitEl

/-!
Elements are read as they were written.
-/

namespace Gdspy

open Spec

section
variable {div : ℚ → ℚ → ℚ} {trig : ℚ → ℚ × ℚ} {a : ReadArgs}

theorem readFrom_recs (st st' : ReadState) (recs : List Rec)
    (h : Run div trig a st (recsRecords recs) st') (rest : Bytes) :
    readFrom div trig a st (recsBytes recs ++ rest) = readFrom div trig a st' rest := by
  unfold readFrom
  rw [recordReader_recs]
  simp only
  rw [h]

theorem cell_add_name (c : Cell) (el : El) : (c.add el).name = c.name := by
  cases el <;> rfl

theorem cell_addAll_name (els : List El) : ∀ c : Cell, (els.foldl Cell.add c).name = c.name := by
  induction els with
  | nil => intro c; rfl
  | cons e els ih => intro c; rw [List.foldl_cons, ih, cell_add_name]

theorem addTo_nil (lib : Lib) (name : Str) : lib.addTo name [] = lib := by
  unfold Lib.addTo
  simp

theorem addTo_append (lib : Lib) (name : Str) (l1 l2 : List El) :
    (lib.addTo name l1).addTo name l2 = lib.addTo name (l1 ++ l2) := by
  unfold Lib.addTo
  simp only [List.map_map]
  congr 1
  apply List.map_congr_left
  intro c _
  simp only [Function.comp]
  by_cases h : c.name = name
  · rw [if_pos h, if_pos h, if_pos (by rw [cell_addAll_name]; exact h), List.foldl_append]
  · rw [if_neg h, if_neg h, if_neg h]

theorem ReadsAs.nil (f : ℚ) : ReadsAs div trig a f (.ok []) [] := by
  refine ⟨[], rfl, fun lib name attr created => ⟨attr, fun rest => ?_⟩⟩
  rw [addTo_nil]; rfl

theorem ReadsAs.append {f : ℚ} {w1 w2 : Py Bytes} {l1 l2 : List El}
    (h1 : ReadsAs div trig a f w1 l1) (h2 : ReadsAs div trig a f w2 l2) :
    ReadsAs div trig a f (do let x ← w1; let y ← w2; pure (x ++ y)) (l1 ++ l2) := by
  obtain ⟨b1, rfl, h1⟩ := h1
  obtain ⟨b2, rfl, h2⟩ := h2
  refine ⟨b1 ++ b2, ?_, fun lib name attr created => ?_⟩
  · rw [py_bind_ok, py_bind_ok, py_pure]
  · obtain ⟨attr1, h1⟩ := h1 lib name attr created
    obtain ⟨attr2, h2⟩ := h2 (lib.addTo name l1) name attr1 created
    refine ⟨attr2, fun rest => ?_⟩
    rw [List.append_assoc, h1, h2, addTo_append]

theorem ReadsAs.writeAll {α : Type _} {f : ℚ} {w : α → Py Bytes} {g : α → List El} :
    ∀ {l : List α}, (∀ x ∈ l, ReadsAs div trig a f (w x) (g x)) →
      ReadsAs div trig a f (writeAll w l) (l.flatMap g) := by
  intro l
  induction l with
  | nil => intro _; exact ReadsAs.nil f
  | cons x l ih =>
    intro h
    exact ReadsAs.append (h x List.mem_cons_self) (ih fun y hy => h y (List.mem_cons_of_mem _ hy))

/-- From records to bytes. -/
theorem ReadsAs.of_run {f : ℚ} {w : Py Bytes} {rs : List Record} (hw : Emits w rs) (el : El)
    (h : ∀ st name, Ready st name → st.factor = f →
      ∃ attr, Run div trig a st rs (afterEl { st with attr := attr } name el)) :
    ReadsAs div trig a f w [el] := by
  obtain ⟨recs, hw, hrs⟩ := hw
  refine ⟨_, hw, fun lib name attr created => ?_⟩
  obtain ⟨attr', hr⟩ := h (cellState lib f name attr created) name ⟨rfl, rfl, rfl⟩ rfl
  refine ⟨attr', fun rest => ?_⟩
  rw [← hrs] at hr
  rw [readFrom_recs _ _ recs hr]
  rfl

theorem pairs_map_scaled (k : ℚ) : ∀ l : List ℚ,
    pairs (l.map fun x => k * x) = (pairs l).map (scale2 k)
  | [] => rfl
  | [_] => rfl
  | x :: y :: r => by
    simp only [List.map_cons, pairs, pairs_map_scaled k r]
    rfl

theorem pairs_scaled (k d : ℚ) (g : List Int) :
    pairs (g.map fun n : Int => k * d * (n : ℚ))
      = (pairs (g.map fun n : Int => d * (n : ℚ))).map (scale2 k) := by
  rw [← pairs_map_scaled, List.map_map]
  congr 1
  apply List.map_congr_left
  intro n _
  simp only [Function.comp]
  ring

/-! ### polygons -/

theorem writePoly_reads {m d k : ℚ} (props : Properties) (p : Poly) (h0 : p.points ≠ [])
    (hl : Word p.layer) (hd : Word p.datatype) (hg : ∀ q ∈ p.points, OnGrid2 m d q)
    (hp : GoodProps props) :
    ReadsAs div trig a (k * d) (writePoly m props p)
      [.polygon ⟨[⟨p.points.map (scale2 k), mapped a.layers p.layer,
        mapped a.datatypes p.datatype⟩], props⟩] := by
  obtain ⟨h1, h2⟩ := gridPoints_on hg
  obtain ⟨chunks, hne, hc, he⟩ := writePoly_emits m props p h0 hl hd h1 hp
  refine ReadsAs.of_run he _ fun st name hst hf => ?_
  rw [hf]
  have hlen := gridPoints_length m p.points
  have hpos : 0 < p.points.length := List.length_pos_of_ne_nil h0
  have hne' : gridPoints m p.points ≠ [] := by
    intro hc
    have := congrArg List.length hc
    rw [List.length_nil] at this
    omega
  have := run_poly (div := div) (trig := trig) (a := a) st name hst p.layer p.datatype
    (gridPoints m p.points) (by omega) hne' chunks hne hc props hp
  rw [hf, pairs_scaled, h2] at this
  exact this

theorem polygonSet_reads {m d k : ℚ} (s : PolygonSet) (h : s.Good m d) :
    ReadsAs div trig a (k * d) (s.toGds m) (((s.scaled k).imported a).map .polygon) := by
  have : ((s.scaled k).imported a).map El.polygon = s.polys.flatMap fun p =>
      [.polygon ⟨[⟨p.points.map (scale2 k), mapped a.layers p.layer,
        mapped a.datatypes p.datatype⟩], s.properties⟩] := by
    unfold PolygonSet.imported PolygonSet.scaled
    rw [List.map_map, List.map_map, ← List.map_eq_flatMap]
    rfl
  rw [this]
  exact ReadsAs.writeAll fun p hp => writePoly_reads s.properties p (h.points p hp).1
    (h.words p hp).1 (h.words p hp).2 (h.points p hp).2 h.props

/-! ### paths -/

theorem grid_back {m d k x : ℚ} (h : OnGrid m d x) :
    I32 (pyRound (x * m)) ∧ k * d * (pyRound (x * m) : ℚ) = k * x := by
  obtain ⟨n, hn⟩ := h
  rw [pyRound_grid hn]
  refine ⟨hn.2.2, ?_⟩
  rw [hn.1]; ring

theorem endsBack_eq {m d k : ℚ} (e : Ends)
    (h : ∀ x y, e = .ext x y → OnGrid m d x ∧ OnGrid m d y) :
    endsBack m (k * d) e = endsImported (e.scaled k) := by
  cases e with
  | ext x y =>
    obtain ⟨h1, h2⟩ := h x y rfl
    simp only [endsBack, Ends.scaled, endsImported, (grid_back h1).2, (grid_back h2).2]
  | _ => rfl

theorem writeSubPath_reads {m d k : ℚ} (wt : Bool) (props : Properties) (s : SubPath)
    (h0 : s.spine ≠ []) (hl : Word s.layer) (hd : Word s.datatype)
    (hg : ∀ q ∈ s.spine, OnGrid2 m d q)
    (hw : ∃ n, OnGridAt m d s.width n ∧ if wt then 0 ≤ n else 0 < n)
    (he : ∀ x y, s.ends = .ext x y → OnGrid m d x ∧ OnGrid m d y) (hp : GoodProps props) :
    ReadsAs div trig a (k * d) (writeSubPath m (if wt then 1 else -1) props s)
      [.path ⟨wt, [⟨k * s.width, endsImported (s.ends.scaled k), mapped a.layers s.layer,
        mapped a.datatypes s.datatype, s.spine.map (scale2 k)⟩], props⟩] := by
  obtain ⟨h1, h2⟩ := gridPoints_on hg
  obtain ⟨n, hn, hn0⟩ := hw
  have hr := pyRound_grid hn
  have hnb := hn.2.2
  have hn0' : 0 ≤ n := by
    cases wt <;> simp at hn0 <;> omega
  obtain ⟨chunks, hne, hc, hem⟩ := writeSubPath_emits m (if wt then 1 else -1) props s h0 hl hd h1
    (by rw [hr]; unfold I32; cases wt <;> simp <;> omega)
    (fun x y hxy => ⟨(grid_back (k := k) (he x y hxy).1).1, (grid_back (k := k) (he x y hxy).2).1⟩)
    hp
  refine ReadsAs.of_run hem _ fun st name hst hf => ?_
  rw [hf]
  have hlen := gridPoints_length m s.spine
  have := run_path (div := div) (trig := trig) (a := a) m st name hst s.layer s.datatype s.ends
    ((if wt then 1 else -1) * pyRound (s.width * m)) (gridPoints m s.spine) (by omega) chunks hne hc
    props hp
  rw [hf, pairs_scaled, h2, endsBack_eq s.ends he] at this
  have e1 : (!decide ((if wt then 1 else -1) * pyRound (s.width * m) < 0)) = wt := by
    rw [hr]
    cases wt <;> simp at hn0 ⊢ <;> omega
  have e2 : k * d * |(((if wt then 1 else -1) * pyRound (s.width * m) : Int) : ℚ)| = k * s.width := by
    have : |(((if wt then 1 else -1) * pyRound (s.width * m) : Int) : ℚ)| = (n : ℚ) := by
      rw [hr]
      have hnq : (0 : ℚ) ≤ n := by exact_mod_cast hn0'
      cases wt <;> simp [abs_of_nonneg hnq]
    rw [this, hn.1]; ring
  rw [e1, e2] at this
  exact this

theorem gdsPath_reads {m d k : ℚ} (p : GdsPath) (h : p.Good m d) :
    ReadsAs div trig a (k * d) (p.toGds m) (((p.scaled k).imported a).map .path) := by
  have : ((p.scaled k).imported a).map El.path = p.subs.flatMap fun s =>
      [.path ⟨p.widthTransform, [⟨k * s.width, endsImported (s.ends.scaled k),
        mapped a.layers s.layer, mapped a.datatypes s.datatype, s.spine.map (scale2 k)⟩],
        p.properties⟩] := by
    unfold GdsPath.imported GdsPath.scaled
    rw [List.map_map, List.map_map, ← List.map_eq_flatMap]
    rfl
  rw [this]
  exact ReadsAs.writeAll fun s hs => writeSubPath_reads p.widthTransform p.properties s
    (h.points s hs).1 (h.words s hs).1 (h.words s hs).2 (h.points s hs).2 (h.width s hs)
    (h.ends s hs) h.props

/-! ### labels -/

theorem label_reads {m d k : ℚ} (b : Label) (h : b.Good m d) :
    ReadsAs div trig a (k * d) (b.toGds m) [.label ((b.scaled k).imported a)] := by
  obtain ⟨text, ht, hg⟩ := h.text
  have g1 := grid_back (k := k) h.position.1
  have g2 := grid_back (k := k) h.position.2
  refine ReadsAs.of_run (writeLabel_emits m b text ht hg g1.1 g2.1 h.anchor h.rotation
    h.magnification h.words.1 h.words.2 h.props) _ fun st name hst hf => ?_
  rw [hf]
  have := run_label (div := div) (trig := trig) (a := a) st name hst b.layer b.texttype b.anchor
    h.anchor b.rotation b.magnification b.xReflection (pyRound (b.position.1 * m))
    (pyRound (b.position.2 * m)) text b.properties h.props
  rw [hf, g1.2, g2.2, ← ht] at this
  exact this

/-! ### references -/

theorem arrayCorners_eq (r : Ref) (columns rows : Int) (sp : ℚ × ℚ) :
    arrayCorners trig r columns rows sp
      = cornersOf (trigOf trig r.rotation) r.xReflection r.origin columns rows sp := by
  unfold arrayCorners cornersOf trigOf rotAbout
  simp only
  cases r.rotation <;> cases r.xReflection <;> simp <;> ring_nf <;> trivial

theorem arraySpacing_scaled (k : ℚ) (xr : Bool) (rot : Option ℚ) (columns rows : Int)
    (x0 y0 x2 y2 x3 y3 : ℚ) :
    arraySpacing trig (some xr) rot columns rows (k * x0) (k * y0) (k * x2) (k * y2) (k * x3)
      (k * y3) = scale2 k (arraySpacing trig (some xr) rot columns rows x0 y0 x2 y2 x3 y3) := by
  unfold arraySpacing scale2
  simp only
  cases rot <;> cases xr <;> simp <;> constructor <;> ring

/-- The spacing computed from the exact corners is the original one times `cos² + sin²`. -/
theorem arraySpacing_corners (xr : Bool) (rot : Option ℚ) (columns rows : Int) (o sp : ℚ × ℚ)
    (hc : columns ≠ 0) (hr : rows ≠ 0) :
    arraySpacing trig (some xr) rot columns rows o.1 o.2
      (cornersOf (trigOf trig rot) xr o columns rows sp).1.1
      (cornersOf (trigOf trig rot) xr o columns rows sp).1.2
      (cornersOf (trigOf trig rot) xr o columns rows sp).2.1
      (cornersOf (trigOf trig rot) xr o columns rows sp).2.2
      = scale2 ((trigOf trig rot).1 ^ 2 + (trigOf trig rot).2 ^ 2) sp := by
  have hc' : (columns : ℚ) ≠ 0 := by exact_mod_cast hc
  have hr' : (rows : ℚ) ≠ 0 := by exact_mod_cast hr
  unfold arraySpacing scale2 cornersOf trigOf
  simp only
  cases rot <;> cases xr <;> refine Prod.ext ?_ ?_ <;> simp <;> field_simp <;> try ring

theorem scale2_one (p : ℚ × ℚ) : scale2 1 p = p := by
  simp [scale2]

theorem ref_reads {m d k : ℚ} (r : Ref) (h : r.Good trig m d) :
    ReadsAs div trig a (k * d) (r.toGds trig m) [.ref ((r.scaled k).imported a)] := by
  have g1 := grid_back (k := k) h.origin.1
  have g2 := grid_back (k := k) h.origin.2
  cases har : r.array with
  | none =>
    have hfit : RefFits trig m r := ⟨g1.1, g2.1, by simp [har]⟩
    have hem := writeRef_emits trig m r h.target hfit h.rotation h.magnification h.props
    refine ReadsAs.of_run hem _ fun st name hst hf => ?_
    rw [hf]
    have := run_ref (div := div) (trig := trig) (a := a) st name hst r.target.str
      r.rotation r.magnification r.xReflection (pyRound (r.origin.1 * m))
      (pyRound (r.origin.2 * m)) r.properties h.props
    rw [hf, g1.2, g2.2] at this
    simp only [refXYRecords, har, Ref.scaled, Ref.imported, Option.map_none, Option.isSome_none]
    exact this
  | some t =>
    obtain ⟨columns, rows, sp⟩ := t
    obtain ⟨w1, w2, hc, hr, htr, c1, c2⟩ := h.array columns rows sp har
    have e := arrayCorners_eq (trig := trig) r columns rows sp
    have g3 := grid_back (k := k) c1.1
    have g4 := grid_back (k := k) c1.2
    have g5 := grid_back (k := k) c2.1
    have g6 := grid_back (k := k) c2.2
    have hfit : RefFits trig m r := by
      refine ⟨g1.1, g2.1, ?_⟩
      intro columns' rows' sp' h'
      rw [har] at h'
      cases h'
      rw [e]
      exact ⟨w1, w2, g3.1, g4.1, g5.1, g6.1⟩
    have hem := writeRef_emits trig m r h.target hfit h.rotation h.magnification h.props
    refine ReadsAs.of_run hem _ fun st name hst hf => ?_
    rw [hf]
    have := run_array (div := div) (trig := trig) (a := a) st name hst r.target.str
      r.rotation r.magnification r.xReflection columns rows (pyRound (r.origin.1 * m))
      (pyRound (r.origin.2 * m))
      (pyRound ((arrayCorners trig r columns rows sp).1.1 * m))
      (pyRound ((arrayCorners trig r columns rows sp).1.2 * m))
      (pyRound ((arrayCorners trig r columns rows sp).2.1 * m))
      (pyRound ((arrayCorners trig r columns rows sp).2.2 * m)) hc hr r.properties h.props
    rw [hf, e, g1.2, g2.2, g3.2, g4.2, g5.2, g6.2, arraySpacing_scaled, arraySpacing_corners _ _ _ _ _ _ hc hr,
      htr, scale2_one] at this
    simp only [refXYRecords, har, Ref.scaled, Ref.imported, Option.map_some, Option.isSome_some, e]
    exact this

end

end Gdspy
