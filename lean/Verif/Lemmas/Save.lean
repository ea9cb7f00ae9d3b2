import Verif.Model.Save
import Verif.Lemmas.ReadLib

/-!
The sequences of writes give the same files and exceptions as the functions that return whole files.
-/

namespace Gdspy

open Spec

/-- The sequence of writes `ws` puts into the file what the function `w` returns, or stops with its
exception. -/
def Does (ws : List (Py Bytes)) (w : Py Bytes) : Prop :=
  match w with
  | .ok b => runWrites ws = (b, none)
  | .error e => (runWrites ws).2 = some e

theorem runWrites_append_ok {ws vs : List (Py Bytes)} {b : Bytes} (h : runWrites ws = (b, none)) :
    runWrites (ws ++ vs) = (b ++ (runWrites vs).1, (runWrites vs).2) := by
  induction ws generalizing b with
  | nil =>
    obtain rfl : [] = b := congrArg Prod.fst h
    rfl
  | cons x ws ih =>
    cases x with
    | error e => exact absurd (congrArg Prod.snd h) (by simp [runWrites])
    | ok c =>
      have h1 := congrArg Prod.fst h
      have h2 := congrArg Prod.snd h
      simp only [runWrites] at h1 h2
      have := ih (b := (runWrites ws).1) (Prod.ext rfl h2)
      simp only [List.cons_append, runWrites, this, ← h1, List.append_assoc]

theorem runWrites_append_error {ws vs : List (Py Bytes)} {b : Bytes} {e : PyErr}
    (h : runWrites ws = (b, some e)) : runWrites (ws ++ vs) = (b, some e) := by
  induction ws generalizing b with
  | nil => exact absurd (congrArg Prod.snd h) (by simp [runWrites])
  | cons x ws ih =>
    cases x with
    | error e' => exact h
    | ok c =>
      have h1 := congrArg Prod.fst h
      have h2 := congrArg Prod.snd h
      simp only [runWrites] at h1 h2
      have := ih (b := (runWrites ws).1) (Prod.ext rfl h2)
      simp only [List.cons_append, runWrites, this, ← h1]

theorem Does.nil : Does [] (.ok []) := rfl

theorem Does.one (w : Py Bytes) : Does [w] w := by
  cases w with
  | ok b => simp [Does, runWrites]
  | error e => rfl

theorem Does.append {ws vs : List (Py Bytes)} {w v : Py Bytes} (h1 : Does ws w) (h2 : Does vs v) :
    Does (ws ++ vs) (do let x ← w; let y ← v; pure (x ++ y)) := by
  cases w with
  | error e =>
    rw [py_bind_error]
    have : runWrites ws = ((runWrites ws).1, some e) := Prod.ext rfl h1
    show (runWrites (ws ++ vs)).2 = some e
    rw [runWrites_append_error this]
  | ok b =>
    rw [py_bind_ok]
    have h1 : runWrites ws = (b, none) := h1
    cases v with
    | error e =>
      rw [py_bind_error]
      show (runWrites (ws ++ vs)).2 = some e
      rw [runWrites_append_ok h1]
      exact h2
    | ok c =>
      rw [py_bind_ok, py_pure]
      have h2 : runWrites vs = (c, none) := h2
      show runWrites (ws ++ vs) = (b ++ c, none)
      rw [runWrites_append_ok h1, h2]

theorem Does.cons {vs : List (Py Bytes)} (w : Py Bytes) {v : Py Bytes} (h2 : Does vs v) :
    Does (w :: vs) (do let x ← w; let y ← v; pure (x ++ y)) := (Does.one w).append h2

theorem Does.writeAll {α : Type _} {ws : α → List (Py Bytes)} {w : α → Py Bytes} :
    ∀ {l : List α}, (∀ x ∈ l, Does (ws x) (w x)) → Does (l.flatMap ws) (writeAll w l) := by
  intro l
  induction l with
  | nil => intro _; exact Does.nil
  | cons x l ih =>
    intro h
    exact (h x List.mem_cons_self).append (ih fun y hy => h y (List.mem_cons_of_mem _ hy))

theorem Does.of_eq {ws : List (Py Bytes)} {w v : Py Bytes} (h : Does ws w) (e : w = v) : Does ws v :=
  e ▸ h

theorem props_does (l : Properties) : Does (propsWrites l) (writeProps l) := by
  induction l with
  | nil => exact Does.nil
  | cons p l ih =>
    obtain ⟨n, v⟩ := p
    cases v with
    | none => exact Does.one _
    | some v =>
      refine (Does.cons _ (Does.cons _ ih)).of_eq ?_
      rw [writeProps]
      cases pack [.H 6, .H 0x2B02, .H n, .H (4 + (padEven v).length), .H 0x2C06] <;>
        cases encodeAscii (padEven v) <;> cases writeProps l <;>
        simp [bind, Except.bind, pure, Except.pure]

theorem poly_does (m : ℚ) (props : Properties) (p : Poly) :
    Does (polyWrites m props p) (writePoly m props p) := by
  unfold polyWrites writePoly writePolyHead
  have hp := props_does props
  split_ifs with h1 h2
  · refine ((Does.cons _ (Does.one _)).append (hp.append (Does.one _))).of_eq ?_
    generalize pack [.H 4, .H 0x0800, .H 6, .H 0x0D02, .h p.layer, .H 6, .H 0x0E02, .h p.datatype] = x1
    generalize Gdspy.writeChunks 8190 _ = x2
    generalize writeProps props = x3
    generalize pack [.H 4, .H 0x1100] = x4
    cases x1 <;> cases x2 <;> cases x3 <;> cases x4 <;> simp [bind, Except.bind, pure, Except.pure]
  · refine ((Does.cons _ (Does.cons _ (Does.one _))).append (hp.append (Does.one _))).of_eq ?_
    generalize pack [.H 4, .H 0x0800, .H 6, .H 0x0D02, .h p.layer, .H 6, .H 0x0E02, .h p.datatype,
        .H (12 + 8 * p.points.length), .H 0x1003] = x1
    cases x1 <;> simp [bind, Except.bind]
  · refine ((Does.cons _ (Does.cons _ (Does.one _))).append (hp.append (Does.one _))).of_eq ?_
    generalize pack [.H 4, .H 0x0800, .H 6, .H 0x0D02, .h p.layer, .H 6, .H 0x0E02, .h p.datatype,
        .H (12 + 8 * p.points.length), .H 0x1003] = x1
    generalize writeProps props = x3
    generalize pack [.H 4, .H 0x1100] = x4
    cases x1 <;> cases x3 <;> cases x4 <;> simp [bind, Except.bind, pure, Except.pure]

theorem subPath_does (m : ℚ) (sign : Int) (props : Properties) (s : SubPath) :
    Does (subPathWrites m sign props s) (writeSubPath m sign props s) := by
  unfold subPathWrites writeSubPath
  have hp := props_does props
  refine ((Does.cons _ (Does.cons _ (Does.one _))).append (hp.append (Does.one _))).of_eq ?_
  generalize pack [.H 4, .H 0x0900, .H 6, .H 0x0D02, .h s.layer, .H 6, .H 0x0E02, .h s.datatype,
    .H 6, .H 0x2102, .h s.ends.pathtype, .H 8, .H 0x0F03, .l (sign * pyRound (s.width * m))] = x1
  generalize writeEnds m s.ends = x2
  generalize writeSpine m s.spine = x3
  generalize writeProps props = x4
  generalize pack [.H 4, .H 0x1100] = x5
  cases x1 <;> cases x2 <;> cases x3 <;> cases x4 <;> cases x5 <;>
    simp [bind, Except.bind, pure, Except.pure]

theorem label_does (m : ℚ) (b : Label) : Does (labelWrites m b) (b.toGds m) := by
  unfold labelWrites Label.toGds
  have hp := props_does b.properties
  cases b.text with
  | none =>
    refine ((Does.cons _ (Does.one _)).append ((Does.one _).append (hp.append (Does.one _)))).of_eq ?_
    generalize pack [.H 4, .H 0x0C00, .H 6, .H 0x0D02, .h b.layer, .H 6, .H 0x1602, .h b.texttype,
      .H 6, .H 0x1701, .h b.anchor] = x1
    generalize writeStrans b.rotation b.magnification b.xReflection = x2
    cases x1 <;> cases x2 <;> simp [bind, Except.bind, pure, Except.pure, padText]
  | some text =>
    refine ((Does.cons _ (Does.one _)).append ((Does.cons _ (Does.one _)).append
      (hp.append (Does.one _)))).of_eq ?_
    simp only [padText, py_bind_ok]
    generalize pack [.H 4, .H 0x0C00, .H 6, .H 0x0D02, .h b.layer, .H 6, .H 0x1602, .h b.texttype,
      .H 6, .H 0x1701, .h b.anchor] = x1
    generalize writeStrans b.rotation b.magnification b.xReflection = x2
    generalize pack [.H 12, .H 0x1003, .l (pyRound (b.position.1 * m)),
      .l (pyRound (b.position.2 * m)), .H (4 + (padEven text).length), .H 0x1906] = x3
    generalize encodeAscii (padEven text) = x4
    generalize writeProps b.properties = x5
    generalize pack [.H 4, .H 0x1100] = x6
    cases x1 <;> cases x2 <;> cases x3 <;> cases x4 <;> cases x5 <;> cases x6 <;>
      simp [bind, Except.bind, pure, Except.pure]

theorem ref_does (trig : ℚ → ℚ × ℚ) (m : ℚ) (r : Ref) : Does (refWrites trig m r) (r.toGds trig m) := by
  unfold refWrites Ref.toGds
  have hp := props_does r.properties
  refine ((Does.cons _ (Does.cons _ (Does.cons _ (Does.one _)))).append
    (hp.append (Does.one _))).of_eq ?_
  generalize pack [.H 4, .H (if r.array.isSome then 0x0B00 else 0x0A00),
    .H (4 + (padEven r.target.str).length), .H 0x1206] = x1
  generalize encodeAscii (padEven r.target.str) = x2
  generalize writeStrans r.rotation r.magnification r.xReflection = x3
  generalize writeRefXY trig m r = x4
  generalize writeProps r.properties = x5
  generalize pack [.H 4, .H 0x1100] = x6
  cases x1 <;> cases x2 <;> cases x3 <;> cases x4 <;> cases x5 <;> cases x6 <;>
    simp [bind, Except.bind, pure, Except.pure]

/-- The bytes of one element. -/
def CellItem.toGds (trig : ℚ → ℚ × ℚ) (m : ℚ) : CellItem → Py Bytes
  | .polygons s => s.toGds m
  | .path p => p.toGds m
  | .label b => b.toGds m
  | .ref r => r.toGds trig m

theorem item_does (trig : ℚ → ℚ × ℚ) (m : ℚ) (i : CellItem) : Does (i.writes trig m) (i.toGds trig m) := by
  cases i with
  | polygons s => exact Does.writeAll fun p _ => poly_does m _ p
  | path p =>
    cases p with
    | gds p => exact Does.writeAll fun s _ => subPath_does m _ _ s
    | outline s => exact Does.writeAll fun p _ => poly_does m _ p
  | label b => exact label_does m b
  | ref r => exact ref_does trig m r

theorem writeAll_append' {α : Type _} (f : α → Py Bytes) (l1 l2 : List α) :
    writeAll f (l1 ++ l2) = (do let x ← writeAll f l1; let y ← writeAll f l2; pure (x ++ y)) := by
  induction l1 with
  | nil => cases h : writeAll f l2 <;> simp [writeAll, bind, Except.bind, pure, Except.pure, h]
  | cons x l1 ih =>
    rw [List.cons_append, writeAll, writeAll, ih]
    cases f x <;> cases writeAll f l1 <;> cases writeAll f l2 <;>
      simp [bind, Except.bind, pure, Except.pure]

theorem writeAll_map' {α β : Type _} (f : β → Py Bytes) (g : α → β) (l : List α) :
    writeAll f (l.map g) = writeAll (fun x => f (g x)) l := by
  induction l with
  | nil => rfl
  | cons x l ih => rw [List.map_cons, writeAll, writeAll, ih]

/-- The head of a cell. -/
def cellHead (ts : Timestamp) (name : Str) : Py Bytes := do
  let h1 ← pack [.H 28, .H 0x0502]
  let t ← packTs ts
  let h2 ← pack [.H (4 + (padEven name).length), .H 0x0606]
  let nm ← encodeAscii (padEven name)
  pure (h1 ++ t ++ h2 ++ nm)

theorem cellHead_does (ts : Timestamp) (name : Str) : Does (cellHeadWrites ts name) (cellHead ts name) := by
  refine (Does.cons _ (Does.one _)).of_eq ?_
  unfold cellHead
  generalize pack [.H 28, .H 0x0502] = x1
  generalize packTs ts = x2
  generalize pack [.H (4 + (padEven name).length), .H 0x0606] = x3
  generalize encodeAscii (padEven name) = x4
  cases x1 <;> cases x2 <;> cases x3 <;> cases x4 <;> simp [bind, Except.bind, pure, Except.pure]

theorem cell_toGds_eq (trig : ℚ → ℚ × ℚ) (m : ℚ) (ts : Timestamp) (c : Cell) :
    c.toGds trig m ts = (do
      let x ← cellHead ts c.name
      let y ← (do
        let x ← writeAll (CellItem.toGds trig m) c.items
        let y ← pack [.H 4, .H 0x0700]
        pure (x ++ y))
      pure (x ++ y)) := by
  unfold Cell.toGds cellHead Cell.items
  simp only [writeAll_append', writeAll_map', CellItem.toGds]
  generalize pack [.H 28, .H 0x0502] = x1
  generalize packTs ts = x2
  generalize pack [.H (4 + (padEven c.name).length), .H 0x0606] = x3
  generalize encodeAscii (padEven c.name) = x4
  cases x1 with
  | error e => simp [bind, Except.bind]
  | ok x1 =>
  cases x2 with
  | error e => simp [bind, Except.bind]
  | ok x2 =>
  cases x3 with
  | error e => simp [bind, Except.bind]
  | ok x3 =>
  cases x4 with
  | error e => simp [bind, Except.bind]
  | ok x4 =>
  generalize writeAll (PolygonSet.toGds m) c.polygons = y1
  generalize writeAll (PathEl.toGds m) c.paths = y2
  generalize writeAll (Label.toGds m) c.labels = y3
  generalize writeAll (Ref.toGds trig m) c.references = y4
  generalize pack [.H 4, .H 0x0700] = y5
  cases y1 <;> cases y2 <;> cases y3 <;> cases y4 <;> cases y5 <;>
    simp [bind, Except.bind, pure, Except.pure]

theorem cell_does (trig : ℚ → ℚ × ℚ) (m : ℚ) (ts : Timestamp) (c : Cell) :
    Does (c.writes trig m ts) (c.toGds trig m ts) := by
  rw [cell_toGds_eq]
  exact (cellHead_does ts c.name).append
    ((Does.writeAll fun i _ => item_does trig m i).append (Does.one _))

end Gdspy
