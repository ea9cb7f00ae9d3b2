import Verif.Spec.Flex
import Verif.Props.C46
import Verif.Lemmas.RealNum
import Verif.Props.C56
import Verif.Props.C57
import Verif.Props.C58

/-!
# C59: FlexPath bookkeeping
-/

set_option linter.unusedSectionVars false

namespace Gdspy

open Spec

variable {K : Type}

section Rows

variable [Field K]

theorem lastRow_length {rows : List (List K)} {n : Nat} (h : ∀ r ∈ rows, r.length = n) (hne : rows ≠ []) :
    (lastRow rows).length = n := by
  unfold lastRow
  rw [List.getLastD_eq_getLast?, List.getLast?_eq_some_getLast hne]
  exact h _ (List.getLast_mem hne)

theorem vstackRows_ok {rows new out : List (List K)} (h : vstackRows rows new = .ok out) :
    out = rows ++ new ∧ ∀ r ∈ new, r.length = (lastRow rows).length := by
  unfold vstackRows at h
  split at h
  · rename_i hc
    simp only [Except.ok.injEq] at h
    exact ⟨h.symm, fun r hr => by simpa using List.all_eq_true.1 hc r hr⟩
  · cases h

theorem vstackRows_of {rows new : List (List K)} {n : Nat} (h : ∀ r ∈ rows, r.length = n) (hne : rows ≠ [])
    (h2 : ∀ r ∈ new, r.length = n) : vstackRows rows new = .ok (rows ++ new) := by
  unfold vstackRows
  rw [if_pos]
  rw [List.all_eq_true]
  intro r hr
  simp [h2 r hr, lastRow_length h hne]

theorem bcast2_of {g : K → K → K} {a b : List K} (h : a.length = b.length) :
    bcast2 g a b = .ok (List.zipWith g a b) := by
  unfold bcast2
  rw [if_pos h]

theorem py_mapM_length {α β : Type} {f : α → Py β} {l : List α} {r : List β} (h : l.mapM f = .ok r) :
    r.length = l.length := by
  induction l generalizing r with
  | nil =>
    simp only [List.mapM_nil, pure, Except.pure, Except.ok.injEq] at h
    subst h; rfl
  | cons a l ih =>
    rw [List.mapM_cons] at h
    cases hf : f a with
    | error e => rw [hf] at h; cases h
    | ok b =>
      rw [hf] at h
      cases hm : l.mapM f with
      | error e => rw [hm] at h; cases h
      | ok bs =>
        rw [hm] at h
        simp only [bind, Except.bind, pure, Except.pure, Except.ok.injEq] at h
        subst h
        simp [ih hm]

theorem taperRows_length {c : Bool} {a b : List K} {k : Nat} {rows : List (List K)}
    (h : taperRows c a b k = .ok rows) : rows.length = k := by
  unfold taperRows at h
  split at h
  · simp only [Except.ok.injEq] at h
    subst h; simp
  · rw [py_mapM_length h]
    simp [linspace]

theorem taperRows_of {a b : List K} (c : Bool) (k : Nat) (h : a.length = b.length) :
    ∃ rows, taperRows c a b k = .ok rows ∧ ∀ r ∈ rows, r.length = b.length := by
  unfold taperRows
  cases c with
  | true =>
    refine ⟨List.replicate k b, by simp, ?_⟩
    intro r hr
    rw [List.mem_replicate] at hr
    rw [hr.2]
  | false =>
    refine ⟨((linspace (0 : K) 1 (k + 1)).drop 1).map fun u => List.zipWith (fun a b => (1 - u) * a + u * b) a b,
      ?_, ?_⟩
    · rw [if_neg (by simp)]
      exact py_mapM_ok _ _ _ fun u _ => bcast2_of h
    · intro r hr
      obtain ⟨u, _, rfl⟩ := List.mem_map.1 hr
      simp [h]

end Rows

section Steps

variable [Field K]

theorem Spec.FlexAligned.widths_ne {f : Flex K} (h : FlexAligned f) : f.widths ≠ [] := by
  intro h0
  have := h.widths
  rw [h0] at this
  exact h.nonempty (List.length_eq_zero_iff.1 this.symm)

theorem Spec.FlexAligned.offsets_ne {f : Flex K} (h : FlexAligned f) : f.offsets ≠ [] := by
  intro h0
  have := h.offsets
  rw [h0] at this
  exact h.nonempty (List.length_eq_zero_iff.1 this.symm)

theorem Spec.FlexAligned.uncached {f : Flex K} (h : FlexAligned f) (c : Option (PolyDict K)) :
    FlexAligned { f with cache := c } :=
  ⟨h.widths, h.offsets, h.widthCols, h.offsetCols, h.ends, h.corners, h.bendRadius, h.layers, h.datatypes, h.nonempty⟩

/-- The path with rows added. -/
def Flex.appended (f : Flex K) (c : Option (PolyDict K)) (pts : List (Pt K)) (ws os : List (List K)) : Flex K :=
  { f with
    cache := c
    points := f.points ++ pts
    widths := f.widths ++ ws
    offsets := f.offsets ++ os }

theorem segment_returns {f g : Flex K} {p : Pt K} {w o : FArg K} {rel : Bool}
    (h : f.segment p w o rel = (g, none)) :
    ∃ q ws os, g = f.appended none [q] [ws] [os] ∧
      q = (if rel then (f.tip.1 + p.1, f.tip.2 + p.2) else p) ∧ ws = segWidth f w ∧ os = segOffset f o ∧
      ws.length = (lastRow f.widths).length ∧ os.length = (lastRow f.offsets).length := by
  unfold Flex.segment at h
  simp only at h
  split at h
  · cases h
  · rename_i ws hws
    split at h
    · cases h
    · rename_i os hos
      obtain ⟨e1, l1⟩ := vstackRows_ok hws
      obtain ⟨e2, l2⟩ := vstackRows_ok hos
      subst e1 e2
      simp only [Prod.mk.injEq, and_true] at h
      exact ⟨_, _, _, h.symm, rfl, rfl, rfl, l1 _ List.mem_cons_self, l2 _ List.mem_cons_self⟩

theorem append_aligned {f : Flex K} (h : FlexAligned f) (pts : List (Pt K)) (ws os : List (List K))
    (hw : ws.length = pts.length) (ho : os.length = pts.length) (hwl : ∀ r ∈ ws, r.length = f.n)
    (hol : ∀ r ∈ os, r.length = f.n) (c : Option (PolyDict K)) :
    FlexAligned (f.appended c pts ws os) := by
  refine ⟨?_, ?_, ?_, ?_, h.ends, h.corners, h.bendRadius, h.layers, h.datatypes, ?_⟩
  · simp [Flex.appended, h.widths, hw]
  · simp [Flex.appended, h.offsets, ho]
  · intro r hr
    rcases List.mem_append.1 hr with hr | hr
    · exact h.widthCols r hr
    · exact hwl r hr
  · intro r hr
    rcases List.mem_append.1 hr with hr | hr
    · exact h.offsetCols r hr
    · exact hol r hr
  · simp [Flex.appended, h.nonempty]

theorem extend_returns {f g : Flex K} {new : List (Pt K)} {w o : FArg K} (h : f.extend new w o = (g, none)) :
    ∃ ws os, g = f.appended f.cache new ws os ∧
      taperRows w.isNone (lastRow f.widths) (f.finalWidth w) new.length = .ok ws ∧
      taperRows o.isNone (lastRow f.offsets) (f.finalOffset o) new.length = .ok os ∧
      (∀ r ∈ ws, r.length = (lastRow f.widths).length) ∧ (∀ r ∈ os, r.length = (lastRow f.offsets).length) := by
  unfold Flex.extend at h
  simp only at h
  cases h1 : taperRows w.isNone (lastRow f.widths) (f.finalWidth w) new.length with
  | error e => rw [h1] at h; cases h
  | ok ws =>
    rw [h1] at h
    simp only [bind, Except.bind] at h
    cases h2 : vstackRows f.widths ws with
    | error e => rw [h2] at h; cases h
    | ok ws' =>
      rw [h2] at h
      simp only at h
      cases h3 : taperRows o.isNone (lastRow f.offsets) (f.finalOffset o) new.length with
      | error e => rw [h3] at h; cases h
      | ok os =>
        rw [h3] at h
        simp only at h
        cases h4 : vstackRows f.offsets os with
        | error e => rw [h4] at h; cases h
        | ok os' =>
          rw [h4] at h
          obtain ⟨e1, l1⟩ := vstackRows_ok h2
          obtain ⟨e2, l2⟩ := vstackRows_ok h4
          subst e1 e2
          simp only [Prod.mk.injEq, and_true] at h
          exact ⟨ws, os, h.symm, rfl, rfl, l1, l2⟩

theorem extend_aligned {f g : Flex K} {new : List (Pt K)} {w o : FArg K} (hf : FlexAligned f)
    (h : f.extend new w o = (g, none)) : FlexAligned g := by
  obtain ⟨ws, os, rfl, h1, h2, l1, l2⟩ := extend_returns h
  have := append_aligned hf new ws os (taperRows_length h1) (taperRows_length h2)
    (fun r hr => (l1 r hr).trans (lastRow_length hf.widthCols hf.widths_ne))
    (fun r hr => (l2 r hr).trans (lastRow_length hf.offsetCols hf.offsets_ne)) f.cache
  exact this

theorem finalWidth_length {f : Flex K} {w : FArg K} (hf : FlexAligned f) (h : FArgOk f.n w) :
    (f.finalWidth w).length = f.n := by
  cases w with
  | none => exact lastRow_length hf.widthCols hf.widths_ne
  | num x => simp [Flex.finalWidth]
  | list l => exact h

theorem finalOffset_length {f : Flex K} {w : FArg K} (hf : FlexAligned f) (h : FArgOk f.n w) :
    (f.finalOffset w).length = f.n := by
  cases w with
  | none => exact lastRow_length hf.offsetCols hf.offsets_ne
  | num x => simp [Flex.finalOffset, lastRow_length hf.offsetCols hf.offsets_ne]
  | list l => exact h

theorem extend_good {f : Flex K} {w o : FArg K} (new : List (Pt K)) (hf : FlexAligned f) (hw : FArgOk f.n w)
    (ho : FArgOk f.n o) : ∃ g, f.extend new w o = (g, none) := by
  have lw := finalWidth_length hf hw
  have lo := finalOffset_length hf ho
  have rw' := lastRow_length hf.widthCols hf.widths_ne
  have ro := lastRow_length hf.offsetCols hf.offsets_ne
  obtain ⟨ws, e1, l1⟩ := taperRows_of w.isNone new.length (rw'.trans lw.symm)
  obtain ⟨os, e2, l2⟩ := taperRows_of o.isNone new.length (ro.trans lo.symm)
  have v1 := vstackRows_of hf.widthCols hf.widths_ne (fun r hr => (l1 r hr).trans lw)
  have v2 := vstackRows_of hf.offsetCols hf.offsets_ne (fun r hr => (l2 r hr).trans lo)
  unfold Flex.extend
  simp only [e1, e2, v1, v2, bind, Except.bind]
  exact ⟨_, rfl⟩

theorem segWidth_length {f : Flex K} {w : FArg K} (hf : FlexAligned f) (h : FArgOk f.n w) :
    (segWidth f w).length = f.n := by
  unfold segWidth
  split
  · exact lastRow_length hf.widthCols hf.widths_ne
  · cases w with
    | none => exact lastRow_length hf.widthCols hf.widths_ne
    | num x => simp
    | list l => exact h

theorem segOffset_length {f : Flex K} {w : FArg K} (hf : FlexAligned f) (h : FArgOk f.n w) :
    (segOffset f w).length = f.n := by
  cases w with
  | none => exact lastRow_length hf.offsetCols hf.offsets_ne
  | num x => simp [segOffset, lastRow_length hf.offsetCols hf.offsets_ne]
  | list l => exact h

theorem segment_good {f : Flex K} {w o : FArg K} (p : Pt K) (rel : Bool) (hf : FlexAligned f)
    (hw : FArgOk f.n w) (ho : FArgOk f.n o) : ∃ g, f.segment p w o rel = (g, none) := by
  have lw := segWidth_length hf hw
  have lo := segOffset_length hf ho
  have v1 : vstackRows f.widths [segWidth f w] = .ok _ := vstackRows_of hf.widthCols hf.widths_ne
    (new := [segWidth f w]) (fun r hr => by rw [List.mem_singleton.1 hr]; exact lw)
  have v2 : vstackRows f.offsets [segOffset f o] = .ok _ := vstackRows_of hf.offsetCols hf.offsets_ne
    (new := [segOffset f o]) (fun r hr => by rw [List.mem_singleton.1 hr]; exact lo)
  unfold Flex.segment
  simp only
  have e1 : segWidth { f with cache := none, points := f.points ++ [if rel then (f.tip.1 + p.1, f.tip.2 + p.2) else p] } w
    = segWidth f w := rfl
  rw [e1, v1]
  simp only
  have e2 : segOffset { f with
      cache := none, points := f.points ++ [if rel then (f.tip.1 + p.1, f.tip.2 + p.2) else p],
      widths := f.widths ++ [segWidth f w] } o = segOffset f o := rfl
  rw [e2, v2]
  exact ⟨_, rfl⟩

theorem mapPoints_aligned {f : Flex K} (h : FlexAligned f) (g : Pt K → Pt K) (c : Option (PolyDict K)) :
    FlexAligned { f with cache := c, points := f.points.map g } :=
  ⟨by simp [h.widths], by simp [h.offsets], h.widthCols, h.offsetCols, h.ends, h.corners, h.bendRadius, h.layers,
    h.datatypes, by simp [h.nonempty]⟩

theorem scaled_cols {rows : List (List K)} {n : Nat} (h : ∀ r ∈ rows, r.length = n) (s : K) :
    ∀ r ∈ rows.map (List.map (· * s)), r.length = n := by
  intro r hr
  obtain ⟨x, hx, rfl⟩ := List.mem_map.1 hr
  simp [h x hx]

theorem scale_aligned {f : Flex K} (h : FlexAligned f) (s : K) (c : Pt K) : FlexAligned (f.scale s c) := by
  refine ⟨?_, by simp [Flex.scale, h.offsets], ?_, scaled_cols h.offsetCols s, by simp [Flex.scale, h.ends],
    h.corners, h.bendRadius, h.layers, h.datatypes, by simp [Flex.scale, h.nonempty]⟩
  · simp only [Flex.scale]
    split <;> simp [h.widths]
  · simp only [Flex.scale]
    split
    · exact scaled_cols h.widthCols s
    · exact h.widthCols

theorem transform_aligned {f : Flex K} (h : FlexAligned f) (t : Num K) (tr : Option (Pt K)) (r s : Option K)
    (x : Bool) (a : Option (Pt K)) : FlexAligned (f.transform t tr r s x a) := by
  refine ⟨?_, ?_, ?_, ?_, h.ends, h.corners, h.bendRadius, h.layers, h.datatypes, by simp [Flex.transform, h.nonempty]⟩
  · simp only [Flex.transform]
    cases s with
    | none => simp [h.widths]
    | some s => simp only; split <;> simp [h.widths]
  · simp only [Flex.transform]
    cases s with
    | none => simp [h.offsets]
    | some s => simp [h.offsets]
  · simp only [Flex.transform]
    cases s with
    | none => exact h.widthCols
    | some s =>
      simp only
      split
      · exact scaled_cols h.widthCols s
      · exact h.widthCols
  · simp only [Flex.transform]
    cases s with
    | none => exact h.offsetCols
    | some s => exact scaled_cols h.offsetCols s

end Steps

section Calls

variable [Field K] [LinearOrder K] [FloorRing K]

theorem dedupFrom_mem {α : Type} {prev : Pt K} {l : List (Pt K × α)} {x : Pt K × α} (h : x ∈ dedupFrom prev l) :
    x ∈ l := by
  induction l generalizing prev with
  | nil => cases h
  | cons y r ih =>
    unfold dedupFrom at h
    split at h
    · exact List.mem_cons_of_mem _ (ih h)
    · rcases List.mem_cons.1 h with rfl | h
      · exact List.mem_cons_self
      · exact List.mem_cons_of_mem _ (ih h)

theorem dedupRows_mem {α : Type} {l : List (Pt K × α)} {x : Pt K × α} (h : x ∈ dedupRows l) : x ∈ l := by
  cases l with
  | nil => cases h
  | cons y r =>
    rcases List.mem_cons.1 h with rfl | h
    · exact List.mem_cons_self
    · exact List.mem_cons_of_mem _ (dedupFrom_mem h)

theorem dedup_aligned {f : Flex K} (h : FlexAligned f) : FlexAligned f.dedup := by
  unfold Flex.dedup
  split
  · exact h
  · refine ⟨by simp, by simp, ?_, ?_, h.ends, h.corners, h.bendRadius, h.layers, h.datatypes, ?_⟩
    · intro r hr
      obtain ⟨x, hx, rfl⟩ := List.mem_map.1 hr
      have := (List.of_mem_zip (List.of_mem_zip (dedupRows_mem hx)).2).1
      exact h.widthCols _ this
    · intro r hr
      obtain ⟨x, hx, rfl⟩ := List.mem_map.1 hr
      have := (List.of_mem_zip (List.of_mem_zip (dedupRows_mem hx)).2).2
      exact h.offsetCols _ this
    · have h1 := h.nonempty
      have h2 := h.widths_ne
      have h3 := h.offsets_ne
      simp only
      cases hp : f.points with
      | nil => exact absurd hp h1
      | cons p ps =>
        cases hw : f.widths with
        | nil => exact absurd hw h2
        | cons w ws =>
          cases ho : f.offsets with
          | nil => exact absurd ho h3
          | cons o os => simp [dedupRows]

theorem getPolygons_aligned {f : Flex K} (ctx : FlexCtx K) (h : FlexAligned f) :
    FlexAligned (f.getPolygons ctx).1 := by
  have key : FlexAligned (f.compute ctx).1 := by
    unfold Flex.compute
    split
    · split
      · split <;> exact h
      · exact h
    · exact dedup_aligned h
  unfold Flex.getPolygons
  split
  · exact h
  · split
    · rename_i hc
      rw [hc] at key
      exact key.uncached _
    · rename_i hc
      rw [hc] at key
      exact key.uncached _

theorem toPolygonset_fst (ctx : FlexCtx K) (f : Flex K) :
    (f.toPolygonset ctx).1 = f ∨ (f.toPolygonset ctx).1 = (f.getPolygons ctx).1 := by
  unfold Flex.toPolygonset
  split
  · exact Or.inl rfl
  · split
    · rename_i hc
      right
      rw [hc]
    · rename_i hc
      right
      rw [hc]

theorem area_fst (ctx : FlexCtx K) (f : Flex K) : (f.area ctx).1 = (f.toPolygonset ctx).1 := by
  unfold Flex.area
  split <;> rename_i hc <;> rw [hc]

theorem toPolygonset_aligned {f : Flex K} (ctx : FlexCtx K) (h : FlexAligned f) :
    FlexAligned (f.toPolygonset ctx).1 := by
  rcases toPolygonset_fst ctx f with e | e <;> rw [e]
  · exact h
  · exact getPolygons_aligned ctx h

theorem arc_cases (t : Num K) (r ia fa : K) (w o : FArg K) (f : Flex K) :
    (∃ e, f.arc t r ia fa w o = ({ f with cache := none }, some e)) ∨
      ∃ np, Flex.arcPoints t r ia fa (f.widthArg w) o { f with cache := none } = .ok np ∧
        f.arc t r ia fa w o = Flex.extend (((linspace ia fa np).map fun a => (r * t.cos a, r * t.sin a)).drop 1 |>.map
          fun p => (p.1 + (f.tip.1 - (((linspace ia fa np).map fun a => (r * t.cos a, r * t.sin a)).headD (0, 0)).1),
            p.2 + (f.tip.2 - (((linspace ia fa np).map fun a => (r * t.cos a, r * t.sin a)).headD (0, 0)).2)))
          (f.widthArg w) o { f with cache := none } := by
  unfold Flex.arc
  simp only
  have e : ({ f with cache := none } : Flex K).widthArg w = f.widthArg w := rfl
  rw [e]
  cases h : Flex.arcPoints t r ia fa (f.widthArg w) o { f with cache := none } with
  | error e => exact Or.inl ⟨e, rfl⟩
  | ok np => exact Or.inr ⟨np, rfl, rfl⟩

theorem widthArg_ok {f : Flex K} {w : FArg K} {n : Nat} (h : FArgOk n w) : FArgOk n (f.widthArg w) := by
  unfold Flex.widthArg
  split
  · trivial
  · exact h

theorem arc_aligned {t : Num K} {r ia fa : K} {w o : FArg K} {f g : Flex K} {e : Option PyErr} (hf : FlexAligned f)
    (h : f.arc t r ia fa w o = (g, e)) (he : e = none ∨ FArgOk f.n w ∧ FArgOk f.n o) : FlexAligned g := by
  rcases arc_cases t r ia fa w o f with ⟨e', h'⟩ | ⟨np, _, h'⟩
  · rw [h'] at h
    obtain ⟨rfl, rfl⟩ := h
    exact hf.uncached none
  · rw [h'] at h
    rcases he with rfl | ⟨hw, ho⟩
    · exact extend_aligned (hf.uncached none) h
    · obtain ⟨g', hg⟩ := extend_good (w := f.widthArg w) (o := o) _ (hf.uncached none) (widthArg_ok hw) ho
      rw [hg] at h
      obtain ⟨rfl, rfl⟩ := h
      exact extend_aligned (hf.uncached none) hg

theorem turn_aligned {t : Num K} {r : K} {a : TurnArg K} {w o : FArg K} {f g : Flex K} {e : Option PyErr}
    (hf : FlexAligned f) (h : f.turn t r a w o = (g, e)) (he : e = none ∨ FArgOk f.n w ∧ FArgOk f.n o) :
    FlexAligned g := by
  unfold Flex.turn at h
  simp only at h
  split at h
  · exact arc_aligned (hf.uncached none) h he
  · obtain ⟨rfl, rfl⟩ := h
    exact hf.uncached none

theorem parametric_aligned {fuel : Nat} {c : K → Pt K} {w o : FArg K} {rel : Bool} {f g : Flex K} {e : Option PyErr}
    (hf : FlexAligned f) (h : f.parametric fuel c w o rel = (g, e)) (he : e = none ∨ FArgOk f.n w ∧ FArgOk f.n o) :
    FlexAligned g := by
  unfold Flex.parametric at h
  simp only at h
  split at h
  · obtain ⟨rfl, rfl⟩ := h
    exact hf.uncached none
  · rcases he with rfl | ⟨hw, ho⟩
    · exact extend_aligned (hf.uncached none) h
    · obtain ⟨g', hg⟩ := extend_good (w := f.widthArg w) (o := o) _ (hf.uncached none) (widthArg_ok hw) ho
      rw [show ({ f with cache := none } : Flex K).widthArg w = f.widthArg w from rfl, hg] at h
      obtain ⟨rfl, rfl⟩ := h
      exact extend_aligned (hf.uncached none) hg

theorem bezier_aligned {fuel : Nat} {c : List (Pt K)} {w o : FArg K} {rel : Bool} {f g : Flex K} {e : Option PyErr}
    (hf : FlexAligned f) (h : f.bezier fuel c w o rel = (g, e)) (he : e = none ∨ FArgOk f.n w ∧ FArgOk f.n o) :
    FlexAligned g := by
  unfold Flex.bezier at h
  simp only at h
  split at h
  · obtain ⟨rfl, rfl⟩ := h
    exact hf.uncached none
  · exact parametric_aligned (hf.uncached none) h he

/-- The number of paths never changes. -/
theorem extend_n (new : List (Pt K)) (w o : FArg K) (f : Flex K) : (f.extend new w o).1.n = f.n := by
  unfold Flex.extend
  simp only
  split
  · rfl
  · split <;> rfl

theorem bezier_n (fuel : Nat) (c : List (Pt K)) (w o : FArg K) (rel : Bool) (f : Flex K) :
    (f.bezier fuel c w o rel).1.n = f.n := by
  unfold Flex.bezier Flex.parametric
  simp only
  split
  · rfl
  · split
    · rfl
    · exact extend_n _ _ _ _

theorem forOut_bezier_aligned {fuel : Nat} {w o : FArg K} (l : List (List (Pt K))) {f g : Flex K} {e : Option PyErr}
    (hf : FlexAligned f) (h : forOut (fun g p => Flex.bezier fuel p w o false g) f l = (g, e))
    (he : e = none ∨ FArgOk f.n w ∧ FArgOk f.n o) : FlexAligned g := by
  induction l generalizing f with
  | nil =>
    simp only [forOut, Prod.mk.injEq] at h
    rw [← h.1]; exact hf
  | cons p l ih =>
    rw [forOut] at h
    cases hb : Flex.bezier fuel p w o false f with
    | mk f' e' =>
      rw [hb] at h
      have hn : f'.n = f.n := by have := bezier_n fuel p w o false f; rw [hb] at this; exact this
      cases e' with
      | some e' =>
        simp only [Prod.mk.injEq] at h
        obtain ⟨rfl, rfl⟩ := h
        exact bezier_aligned hf hb (he.imp (fun h => absurd h (by simp)) id)
      | none =>
        simp only at h
        exact ih (bezier_aligned hf hb (Or.inl rfl)) h (by rw [hn]; exact he)

theorem smooth_aligned {fuel : Nat} {hobby : Hobby K} {pts : List (Pt K)} {cyc : Bool} {w o : FArg K} {rel : Bool}
    {f g : Flex K} {e : Option PyErr} (hf : FlexAligned f) (h : f.smooth fuel hobby pts cyc w o rel = (g, e))
    (he : e = none ∨ FArgOk f.n w ∧ FArgOk f.n o) : FlexAligned g := by
  unfold Flex.smooth at h
  split at h
  · obtain ⟨rfl, rfl⟩ := h; exact hf
  · split at h
    · obtain ⟨rfl, rfl⟩ := h; exact hf
    · split at h
      · obtain ⟨rfl, rfl⟩ := h; exact hf
      · exact forOut_bezier_aligned _ hf h he

theorem segment_aligned {p : Pt K} {w o : FArg K} {rel : Bool}
    {f g : Flex K} {e : Option PyErr} (hf : FlexAligned f) (h : f.segment p w o rel = (g, e))
    (he : e = none ∨ FArgOk f.n w ∧ FArgOk f.n o) : FlexAligned g := by
  have key : ∀ g, f.segment p w o rel = (g, none) → FlexAligned g := by
    intro g h
    obtain ⟨q, ws, os, rfl, _, _, _, l1, l2⟩ := segment_returns h
    refine append_aligned hf [q] [ws] [os] rfl rfl ?_ ?_ none
    · intro r hr
      rw [List.mem_singleton.1 hr, l1]
      exact lastRow_length hf.widthCols hf.widths_ne
    · intro r hr
      rw [List.mem_singleton.1 hr, l2]
      exact lastRow_length hf.offsetCols hf.offsets_ne
  rcases he with rfl | ⟨hw, ho⟩
  · exact key g h
  · obtain ⟨g', hg⟩ := segment_good p rel hf hw ho
    rw [hg] at h
    obtain ⟨rfl, rfl⟩ := h
    exact key _ hg

theorem run_aligned {ctx : FlexCtx K} {op : FlexOp K} {f g : Flex K} {e : Option PyErr} (hf : FlexAligned f)
    (h : f.run ctx op = (g, e)) (he : e = none ∨ FlexArgsOk f.n op) : FlexAligned g := by
  cases op with
  | segment p w o r => exact segment_aligned hf h he
  | arc r ia fa w o => exact arc_aligned hf h he
  | turn r a w o => exact turn_aligned hf h he
  | parametric c w o r => exact parametric_aligned hf h he
  | bezier p w o r => exact bezier_aligned hf h he
  | smooth hb p c w o r => exact smooth_aligned hf h he
  | translate dx dy => obtain ⟨rfl, rfl⟩ := h; exact mapPoints_aligned hf _ none
  | rotate a c => obtain ⟨rfl, rfl⟩ := h; exact mapPoints_aligned hf _ none
  | scale s c => obtain ⟨rfl, rfl⟩ := h; exact scale_aligned hf s c
  | transform tr r s x a => obtain ⟨rfl, rfl⟩ := h; exact transform_aligned hf _ _ _ _ _ _
  | polygons => obtain ⟨rfl, rfl⟩ := h; exact getPolygons_aligned ctx hf
  | polygonset => obtain ⟨rfl, rfl⟩ := h; exact toPolygonset_aligned ctx hf
  | area =>
    obtain ⟨rfl, rfl⟩ := h
    rw [area_fst]
    exact toPolygonset_aligned ctx hf

theorem toPolygonset_n (ctx : FlexCtx K) (f : Flex K) : (f.toPolygonset ctx).1.n = f.n := by
  have key : (f.getPolygons ctx).1.n = f.n := by
    have hd : f.dedup.n = f.n := by unfold Flex.dedup; split <;> rfl
    have hc : (f.compute ctx).1.n = f.n := by
      unfold Flex.compute
      split
      · split
        · split <;> rfl
        · rfl
      · exact hd
    unfold Flex.getPolygons
    split
    · rfl
    · split <;> rename_i h <;> rw [h] at hc <;> exact hc
  rcases toPolygonset_fst ctx f with e | e <;> rw [e]
  exact key

theorem arc_n (t : Num K) (r ia fa : K) (w o : FArg K) (f : Flex K) : (f.arc t r ia fa w o).1.n = f.n := by
  rcases arc_cases t r ia fa w o f with ⟨e', h'⟩ | ⟨np, _, h'⟩ <;> rw [h']
  rw [extend_n]

theorem run_n (ctx : FlexCtx K) (op : FlexOp K) (f : Flex K) : (f.run ctx op).1.n = f.n := by
  cases op with
  | segment p w o r =>
    show (f.segment p w o r).1.n = f.n
    unfold Flex.segment
    simp only
    split
    · rfl
    · split <;> rfl
  | arc r ia fa w o => exact arc_n _ _ _ _ _ _ _
  | turn r a w o =>
    show (f.turn ctx.num r a w o).1.n = f.n
    unfold Flex.turn
    simp only
    split
    · exact arc_n _ _ _ _ _ _ _
    · rfl
  | parametric c w o r =>
    show (f.parametric ctx.fuel c w o r).1.n = f.n
    unfold Flex.parametric
    simp only
    split
    · rfl
    · exact extend_n _ _ _ _
  | bezier p w o r => exact bezier_n _ _ _ _ _ _
  | smooth hb p c w o r =>
    show (f.smooth ctx.fuel hb p c w o r).1.n = f.n
    have hfor : ∀ (l : List (List (Pt K))) (g : Flex K),
        (forOut (fun g p => Flex.bezier ctx.fuel p w o false g) g l).1.n = g.n := by
      intro l
      induction l with
      | nil => intro g; rfl
      | cons p l ih =>
        intro g
        rw [forOut]
        have := bezier_n ctx.fuel p w o false g
        cases hb : Flex.bezier ctx.fuel p w o false g with
        | mk f' e' =>
          rw [hb] at this
          cases e' with
          | some e' => exact this
          | none => exact (ih f').trans this
    unfold Flex.smooth
    split
    · rfl
    · split
      · rfl
      · split
        · rfl
        · exact hfor _ _
  | translate dx dy => rfl
  | rotate a c => rfl
  | scale s c => rfl
  | transform tr r s x a => rfl
  | polygons =>
    have hd : f.dedup.n = f.n := by unfold Flex.dedup; split <;> rfl
    have hc : (f.compute ctx).1.n = f.n := by
      unfold Flex.compute
      split
      · split
        · split <;> rfl
        · rfl
      · exact hd
    show (f.getPolygons ctx).1.n = f.n
    unfold Flex.getPolygons
    split
    · rfl
    · split <;> rename_i h <;> rw [h] at hc <;> exact hc
  | polygonset => exact toPolygonset_n ctx f
  | area =>
    show (f.area ctx).1.n = f.n
    rw [area_fst]
    exact toPolygonset_n ctx f

/-! ## The theorems -/

theorem spread_length {α : Type} {n : Nat} {a : CycArg α} {l : List α} (h : a.spread n = .ok l) : l.length = n := by
  cases a with
  | one a =>
    simp only [CycArg.spread, Except.ok.injEq] at h
    subst h; simp
  | list r =>
    unfold CycArg.spread at h
    rw [py_mapM_length h]
    simp

theorem bind_ok {α β : Type} {x : Py α} {f : α → Py β} {b : β} (h : (x >>= f) = .ok b) :
    ∃ a, x = .ok a ∧ f a = .ok b := by
  cases x with
  | error e => cases h
  | ok a => exact ⟨a, rfl, h⟩

theorem flexNew_ok {points : PointsIn K} {width offset : CycArg K} {corners : CycArg (FlexCorner K)}
    {ends : CycArg (FlexEnd K)} {bendRadius : CycArg (Option K)} {tolerance precision : K} {maxPoints : Nat}
    {gdsiiPath widthTransform : Bool} {layer datatype : CycArg Int} {f : Flex K}
    (h : Flex.new points width offset corners ends bendRadius tolerance precision maxPoints gdsiiPath widthTransform
      layer datatype = .ok f) :
    f.points = points.rows ∧ f.widths = List.replicate points.len (flexRows width offset).2.1 ∧
      f.offsets = List.replicate points.len (flexRows width offset).2.2 ∧ f.n = (flexRows width offset).1 ∧
      f.ends.length = f.n ∧ f.corners.length = f.n ∧ f.bendRadius.length = f.n ∧ f.layers.length = f.n ∧
      f.datatypes.length = f.n ∧ f.cache = none ∧ f.gdsiiPath = gdsiiPath := by
  unfold Flex.new at h
  obtain ⟨e, he, h⟩ := bind_ok h
  obtain ⟨c, hc, h⟩ := bind_ok h
  obtain ⟨b, hb, h⟩ := bind_ok h
  obtain ⟨l, hl, h⟩ := bind_ok h
  obtain ⟨d, hd, h⟩ := bind_ok h
  simp only [Except.ok.injEq] at h
  subst h
  exact ⟨rfl, rfl, rfl, rfl, spread_length he, spread_length hc, spread_length hb, spread_length hl, spread_length hd,
    rfl, rfl⟩

/-- **C59.** A new path made from a list of points (and, if both widths and offsets are lists, lists of the same
length) has one row of widths and of offsets per point, with one entry per path. -/
theorem C59_new {pts : List (Pt K)} (hne : pts ≠ []) {width offset : CycArg K} {corners : CycArg (FlexCorner K)}
    {ends : CycArg (FlexEnd K)} {bendRadius : CycArg (Option K)} {tolerance precision : K} {maxPoints : Nat}
    {gdsiiPath widthTransform : Bool} {layer datatype : CycArg Int} {f : Flex K}
    (hlists : ∀ a b, width = .list a → offset = .list b → b.length = a.length)
    (h : Flex.new (.list pts) width offset corners ends bendRadius tolerance precision maxPoints gdsiiPath widthTransform
      layer datatype = .ok f) : FlexAligned f := by
  obtain ⟨hp, hw, ho, hn, h1, h2, h3, h4, h5, _⟩ := flexNew_ok h
  have key : (flexRows width offset).2.1.length = (flexRows width offset).1 ∧
      (flexRows width offset).2.2.length = (flexRows width offset).1 := by
    cases width with
    | one w => cases offset with
      | one o => exact ⟨rfl, rfl⟩
      | list o => simp [flexRows]
    | list w => cases offset with
      | one o => simp [flexRows]
      | list o => simp [flexRows, hlists w o rfl rfl]
  refine ⟨?_, ?_, ?_, ?_, h1, h2, h3, h4, h5, ?_⟩
  · rw [hp, hw]; simp [PointsIn.len, PointsIn.rows]
  · rw [hp, ho]; simp [PointsIn.len, PointsIn.rows]
  · intro r hr
    rw [hw] at hr
    rw [List.eq_of_mem_replicate hr, hn]
    exact key.1
  · intro r hr
    rw [ho] at hr
    rw [List.eq_of_mem_replicate hr, hn]
    exact key.2
  · rw [hp]; exact hne

/-- **C59.** After any sequence of calls of construction, transformation and query methods that all return, there
is one row of widths and one of offsets per point, with one entry per path. -/
theorem C59_history (ctx : FlexCtx K) (ops : List (FlexOp K)) {f g : Flex K} (hf : FlexAligned f)
    (h : forOut (Flex.run ctx) f ops = (g, none)) : FlexAligned g ∧ g.n = f.n := by
  induction ops generalizing f with
  | nil =>
    simp only [forOut, Prod.mk.injEq, and_true] at h
    subst h
    exact ⟨hf, rfl⟩
  | cons op ops ih =>
    rw [forOut] at h
    have hn := run_n ctx op f
    cases hr : f.run ctx op with
    | mk f' e =>
      rw [hr] at h hn
      cases e with
      | some e => cases h
      | none =>
        obtain ⟨h1, h2⟩ := ih (run_aligned hf hr (Or.inl rfl)) h
        exact ⟨h1, h2.trans hn⟩

/-- **C59.** If the lists given as widths and offsets have one entry per path, this holds also after calls that raise
(when the exceptions are caught and the path is used again). -/
theorem C59_history_raising (ctx : FlexCtx K) (ops : List (FlexOp K)) {f : Flex K} (hf : FlexAligned f)
    (hargs : ∀ op ∈ ops, FlexArgsOk f.n op) : FlexAligned (ops.foldl (fun f op => (f.run ctx op).1) f) := by
  induction ops generalizing f with
  | nil => exact hf
  | cons op ops ih =>
    rw [List.foldl_cons]
    refine ih (run_aligned (op := op) hf rfl (Or.inr (hargs op List.mem_cons_self))) ?_
    intro op' h'
    rw [run_n]
    exact hargs op' (List.mem_cons_of_mem _ h')

/-- **C59.** `segment` adds one point, one row of widths and one of offsets. With `gdsii_path` the width is
ignored. -/
theorem C59_segment {f g : Flex K} {p : Pt K} {w o : FArg K} {rel : Bool} (h : f.segment p w o rel = (g, none)) :
    g.points = f.points ++ [if rel then (f.tip.1 + p.1, f.tip.2 + p.2) else p] ∧
      g.widths = f.widths ++ [if f.gdsiiPath then lastRow f.widths else askedWidths f.n (lastRow f.widths) w] ∧
      g.offsets = f.offsets ++ [askedOffsets (lastRow f.offsets) o] := by
  obtain ⟨q, ws, os, rfl, hq, hw, ho, _, _⟩ := segment_returns h
  subst hq hw ho
  refine ⟨rfl, ?_, ?_⟩
  · unfold Flex.appended segWidth
    cases w <;> rfl
  · unfold Flex.appended segOffset
    cases o <;> rfl

end Calls

section Taper

variable [Field K] [LinearOrder K] [IsStrictOrderedRing K]

theorem taperRows_tapered {n : Nat} {c : Bool} {a b : List K} {k : Nat} {rows : List (List K)} (ha : a.length = n)
    (hc : c = true → b = a) (hrows : ∀ r ∈ rows, r.length = n) (hb : b.length = n)
    (h : taperRows c a b k = .ok rows) : Tapered n k a b rows := by
  refine ⟨taperRows_length h, ?_⟩
  intro i j hi hj
  have hrlen := taperRows_length h
  obtain ⟨r, hr⟩ : ∃ r, rows[i]? = some r := ⟨rows[i], List.getElem?_eq_getElem (by omega)⟩
  refine ⟨r, a[j], b[j], hr, List.getElem?_eq_getElem (by omega), List.getElem?_eq_getElem (by omega), ?_⟩
  unfold taperRows at h
  split at h
  · rename_i hct
    have hba := hc hct
    subst hba
    simp only [Except.ok.injEq] at h
    subst h
    rw [List.getElem?_replicate, if_pos hi] at hr
    simp only [Option.some.injEq] at hr
    subst hr
    rw [List.getElem?_eq_getElem (by omega)]
    simp
  · have hm := py_mapM_ok (fun u => bcast2 (fun a b => (1 - u) * a + u * b) a b)
      (fun u => List.zipWith (fun a b => (1 - u) * a + u * b) a b) ((linspace (0 : K) 1 (k + 1)).drop 1)
      fun u _ => bcast2_of (ha.trans hb.symm)
    rw [hm] at h
    simp only [Except.ok.injEq] at h
    subst h
    rw [List.getElem?_map, List.getElem?_drop, linspace_getElem? _ _ _ _ (by omega)] at hr
    simp only [Option.map_some, Option.some.injEq] at hr
    subst hr
    rw [List.getElem?_zipWith, List.getElem?_eq_getElem (by omega), List.getElem?_eq_getElem (by omega)]
    simp only [Option.some.injEq]
    have e0 : ((k + 1 : Nat) : K) - 1 = k := by push_cast; ring
    have e1 : ((1 + i : Nat) : K) = (i : K) + 1 := by push_cast; ring
    rw [e0, e1]
    ring

variable [FloorRing K]

/-- The rows added by the calls other than `segment`. -/
theorem extend_rows {f g : Flex K} (hf : FlexAligned f) {new : List (Pt K)} {w o : FArg K} (hw : FArgOk f.n w)
    (ho : FArgOk f.n o) (h : f.extend new w o = (g, none)) :
    g.points = f.points ++ new ∧
      ∃ ws os, g.widths = f.widths ++ ws ∧ g.offsets = f.offsets ++ os ∧
        Tapered f.n new.length (lastRow f.widths) (askedWidths f.n (lastRow f.widths) w) ws ∧
        Tapered f.n new.length (lastRow f.offsets) (askedOffsets (lastRow f.offsets) o) os := by
  obtain ⟨ws, os, rfl, h1, h2, l1, l2⟩ := extend_returns h
  have rw' := lastRow_length hf.widthCols hf.widths_ne
  have ro := lastRow_length hf.offsetCols hf.offsets_ne
  have e1 : f.finalWidth w = askedWidths f.n (lastRow f.widths) w := by cases w <;> rfl
  have e2 : f.finalOffset o = askedOffsets (lastRow f.offsets) o := by cases o <;> rfl
  refine ⟨rfl, ws, os, rfl, rfl, ?_, ?_⟩
  · rw [← e1]
    refine taperRows_tapered rw' ?_ (fun r hr => (l1 r hr).trans rw') (finalWidth_length hf hw) h1
    intro hc
    cases w with
    | none => rfl
    | num x => cases hc
    | list l => cases hc
  · rw [← e2]
    refine taperRows_tapered ro ?_ (fun r hr => (l2 r hr).trans ro) (finalOffset_length hf ho) h2
    intro hc
    cases o with
    | none => rfl
    | num x => cases hc
    | list l => cases hc

/-- **C59.** `arc` adds points of a circle, at equal steps of the angle, of which the last is at the final angle; widths
and offsets go to the requested values in equal steps. -/
theorem C59_arc {f g : Flex K} (hf : FlexAligned f) (t : Num K) (r ia fa : K) {w o : FArg K} (hw : FArgOk f.n w)
    (ho : FArgOk f.n o) (h : f.arc t r ia fa w o = (g, none)) :
    ∃ m ws os, 2 ≤ m ∧
      g.points = f.points ++ (List.range m).map (fun (i : Nat) =>
        (f.tip.1 + r * (t.cos (ia + (fa - ia) * (((i : K) + 1) / (m : K))) - t.cos ia),
         f.tip.2 + r * (t.sin (ia + (fa - ia) * (((i : K) + 1) / (m : K))) - t.sin ia))) ∧
      g.widths = f.widths ++ ws ∧ g.offsets = f.offsets ++ os ∧
      Tapered f.n m (lastRow f.widths)
        (if f.gdsiiPath then lastRow f.widths else askedWidths f.n (lastRow f.widths) w) ws ∧
      Tapered f.n m (lastRow f.offsets) (askedOffsets (lastRow f.offsets) o) os := by
  rcases arc_cases t r ia fa w o f with ⟨e', h'⟩ | ⟨np, hnp, h'⟩
  · rw [h'] at h; cases h
  · rw [h'] at h
    have h3 : 3 ≤ np := by
      unfold Flex.arcPoints at hnp
      obtain ⟨m0, _, hnp⟩ := bind_ok hnp
      obtain ⟨m1, _, hnp⟩ := bind_ok hnp
      obtain ⟨s, _, hnp⟩ := bind_ok hnp
      simp only [Except.ok.injEq] at hnp
      omega
    obtain ⟨m, rfl⟩ : ∃ m, np = m + 1 := ⟨np - 1, by omega⟩
    obtain ⟨hp, ws, os, e1, e2, t1, t2⟩ := extend_rows (hf.uncached none) (widthArg_ok hw) ho h
    simp only [List.length_map, List.length_drop, linspace_len, Nat.add_one_sub_one] at t1 t2
    refine ⟨m, ws, os, by omega, ?_, e1, e2, ?_, t2⟩
    · rw [hp]
      congr 1
      apply List.ext_getElem?
      intro i
      simp only [List.getElem?_map, List.getElem?_drop]
      by_cases hi : i < m
      · rw [linspace_getElem? _ _ _ _ (by omega), List.getElem?_range hi]
        have hh : (linspace ia fa (m + 1)).head? = some ia := linspace_head _ _ (by omega)
        obtain ⟨tl, htl⟩ : ∃ tl, linspace ia fa (m + 1) = ia :: tl := by
          cases hl : linspace ia fa (m + 1) with
          | nil => rw [hl] at hh; cases hh
          | cons x tl => rw [hl] at hh; simp only [List.head?_cons, Option.some.injEq] at hh; exact ⟨tl, by rw [hh]⟩
        rw [htl]
        simp only [Option.map_some, List.map_cons, List.headD_cons, Option.some.injEq, Prod.mk.injEq]
        have e0 : ((m + 1 : Nat) : K) - 1 = m := by push_cast; ring
        have e3 : ((1 + i : Nat) : K) = (i : K) + 1 := by push_cast; ring
        have e4 : ia + ((1 + i : Nat) : K) * ((fa - ia) / (((m + 1 : Nat) : K) - 1)) =
            ia + (fa - ia) * (((i : K) + 1) / (m : K)) := by rw [e0, e3]; ring
        rw [e4]
        constructor <;> ring
      · rw [List.getElem?_eq_none (by rw [linspace_len]; omega), List.getElem?_eq_none (by simp; omega)]
        rfl
    · unfold Flex.widthArg at t1
      cases hg : f.gdsiiPath with
      | true => simp only [hg, if_true] at t1 ⊢; exact t1
      | false => simpa [hg] using t1

/-- **C59.** Where `arc` ends. -/
theorem C59_arc_end {f g : Flex K} (hf : FlexAligned f) (t : Num K) (r ia fa : K) {w o : FArg K} (hw : FArgOk f.n w)
    (ho : FArgOk f.n o) (h : f.arc t r ia fa w o = (g, none)) :
    g.tip = (f.tip.1 + r * (t.cos fa - t.cos ia), f.tip.2 + r * (t.sin fa - t.sin ia)) := by
  obtain ⟨m, ws, os, hm, hp, _⟩ := C59_arc hf t r ia fa hw ho h
  obtain ⟨k, rfl⟩ : ∃ k, m = k + 1 := ⟨m - 1, by omega⟩
  unfold Flex.tip at hp ⊢
  rw [hp, List.range_succ, List.map_append, ← List.append_assoc, List.map_singleton]
  rw [List.getLastD_eq_getLast?, List.getLast?_concat]
  have hk : ((k : K) + 1) ≠ 0 := by positivity
  have e : ((k : K) + 1) / ((k + 1 : Nat) : K) = 1 := by push_cast; exact div_self hk
  simp only [Option.getD_some]
  rw [e]
  congr 3 <;> ring_nf

/-- **C59.** `parametric` adds points of the curve, from `c 0` (which is the last point of the path already, or not
added) to `c 1`. -/
theorem C59_parametric {f g : Flex K} (hf : FlexAligned f) {fuel : Nat} (c : K → Pt K) {w o : FArg K} {rel : Bool}
    (hw : FArgOk f.n w) (ho : FArgOk f.n o) (h : f.parametric fuel c w o rel = (g, none)) :
    ∃ us ws os, us ≠ [] ∧ (0 :: us).Pairwise (· < ·) ∧ us.getLast? = some 1 ∧
      g.points = f.points ++ us.map (fun u =>
        if rel then ((c u).1 + f.tip.1, (c u).2 + f.tip.2) else c u) ∧
      g.widths = f.widths ++ ws ∧ g.offsets = f.offsets ++ os ∧
      Tapered f.n us.length (lastRow f.widths)
        (if f.gdsiiPath then lastRow f.widths else askedWidths f.n (lastRow f.widths) w) ws ∧
      Tapered f.n us.length (lastRow f.offsets) (askedOffsets (lastRow f.offsets) o) os := by
  unfold Flex.parametric at h
  simp only at h
  split at h
  · cases h
  · rename_i samples hs
    obtain ⟨m, e1, _, e2, e3, e4, _⟩ := subLoop_spec c (f.tolerance ^ 2) none fuel [] (0, c 0) [(1, c 1)] samples hs rfl
      (by simp) (by simp)
    rw [List.reverse_nil, List.nil_append] at e1
    subst e1
    have hm : m ≠ [] := by
      rintro rfl
      simp at e4
    obtain ⟨hp, ws, os, w1, w2, t1, t2⟩ := extend_rows (hf.uncached none) (widthArg_ok hw) ho h
    have hlen : (if rel = true then List.map (fun p => (p.1 + f.tip.1, p.2 + f.tip.2))
        (List.drop 1 (List.map Prod.snd ((0, c 0) :: m))) else List.drop 1 (List.map Prod.snd ((0, c 0) :: m))).length
        = (m.map Prod.fst).length := by
      split <;> simp
    refine ⟨m.map Prod.fst, ws, os, by simpa using hm, ?_, ?_, ?_, w1, w2, ?_, ?_⟩
    · have := List.Pairwise.map (f := Prod.fst) (S := fun a b : K => a < b) (fun a b h => h) e3
      simpa using this
    · rw [List.getLast?_cons_of_ne_nil hm] at e4
      rw [List.getLast?_map, e4]
      rfl
    · rw [hp]
      have hmm : m.map Prod.snd = (m.map Prod.fst).map c := by
        rw [List.map_map]
        exact List.map_congr_left fun q hq => e2 q hq
      cases rel with
      | true =>
        simp only [if_true, List.map_cons, List.drop_succ_cons, List.drop_zero]
        rw [hmm, List.map_map]
        rfl
      | false =>
        simp only [Bool.false_eq_true, if_false, List.map_cons, List.drop_succ_cons, List.drop_zero]
        rw [hmm]
    · rw [← hlen]
      unfold Flex.widthArg at t1
      cases hg : f.gdsiiPath with
      | true => simp only [hg, if_true] at t1 ⊢; exact t1
      | false => simp only [hg, Bool.false_eq_true, if_false] at t1 ⊢; exact t1
    · rw [← hlen]
      exact t2

/-- **C59.** Where `parametric` and `bezier` end. -/
theorem C59_curve_end {f g : Flex K} (hf : FlexAligned f) {fuel : Nat} {w o : FArg K} {rel : Bool}
    (hw : FArgOk f.n w) (ho : FArgOk f.n o) :
    (∀ c, f.parametric fuel c w o rel = (g, none) →
      g.tip = if rel then ((c 1).1 + f.tip.1, (c 1).2 + f.tip.2) else c 1) ∧
    (∀ pts p, f.bezier fuel (pts ++ [p]) w o rel = (g, none) →
      g.tip = if rel then (f.tip.1 + p.1, f.tip.2 + p.2) else p) := by
  have key : ∀ {f : Flex K} {rel : Bool}, FlexAligned f → FArgOk f.n w → FArgOk f.n o → ∀ c,
      f.parametric fuel c w o rel = (g, none) →
      g.tip = if rel then ((c 1).1 + f.tip.1, (c 1).2 + f.tip.2) else c 1 := by
    intro f rel hf hw ho c h
    obtain ⟨us, ws, os, _, _, hl, hp, _⟩ := C59_parametric hf c hw ho h
    have : g.tip = (g.points.getLast?).getD (0, 0) := by unfold Flex.tip; rw [List.getLastD_eq_getLast?]
    rw [this, hp, List.getLast?_append, List.getLast?_map, hl]
    rfl
  refine ⟨fun c h => key hf hw ho c h, ?_⟩
  intro pts p h
  unfold Flex.bezier at h
  simp only at h
  rw [if_neg (by simp)] at h
  have := key (f := { f with cache := none }) (hf.uncached none) hw ho _ h
  rw [this]
  have hne : Flex.ctrl (pts ++ [p]) rel { f with cache := none } ≠ [] := by
    unfold Flex.ctrl; split <;> simp
  rw [C58_end _ hne]
  simp only [Bool.false_eq_true, if_false]
  have hq : (Flex.ctrl (pts ++ [p]) rel { f with cache := none }).getLast? =
      some (if rel then (f.tip.1 + p.1, f.tip.2 + p.2) else p) := by
    cases rel with
    | true =>
      simp only [Flex.ctrl, if_true, List.map_cons, List.map_append, List.map_nil]
      rw [← List.cons_append, List.getLast?_concat]
      rfl
    | false =>
      simp only [Flex.ctrl, Bool.false_eq_true, if_false]
      rw [← List.cons_append, List.getLast?_concat]
  rw [List.getLast?_eq_getLast_of_ne_nil hne] at hq
  exact Option.some.inj hq

/-- Where a turn ends. -/
theorem turtle_turn {t : Num K} (ht : Num.Laws t) (r : K) (p : Pt K) (b : K) (angle : TurnArg K) :
    ((⟨p, (t.cos b, t.sin b)⟩ : Turtle K).turn t r angle).pos =
      (p.1 + r * (t.cos (b + (if angle.value t < 0 then t.halfpi else -t.halfpi) + angle.value t) -
          t.cos (b + (if angle.value t < 0 then t.halfpi else -t.halfpi))),
        p.2 + r * (t.sin (b + (if angle.value t < 0 then t.halfpi else -t.halfpi) + angle.value t) -
          t.sin (b + (if angle.value t < 0 then t.halfpi else -t.halfpi)))) := by
  have hleft : ∀ a, ¬ a < 0 → ((⟨p, (t.cos b, t.sin b)⟩ : Turtle K).left t r a).pos =
      (p.1 + r * (t.cos (b + (if a < 0 then t.halfpi else -t.halfpi) + a) -
          t.cos (b + (if a < 0 then t.halfpi else -t.halfpi))),
        p.2 + r * (t.sin (b + (if a < 0 then t.halfpi else -t.halfpi) + a) -
          t.sin (b + (if a < 0 then t.halfpi else -t.halfpi)))) := by
    intro a ha
    rw [if_neg ha, show p = (p.1, p.2) from rfl, ← (turn_math t ht r b p.1 p.2 a).1]
    simp only [Prod.mk.injEq]
    rw [show b + (a - t.halfpi) = b + -t.halfpi + a by ring, show b - t.halfpi = b + -t.halfpi by ring]
    constructor <;> ring
  have hright : ∀ a, a < 0 → ((⟨p, (t.cos b, t.sin b)⟩ : Turtle K).right t r (-a)).pos =
      (p.1 + r * (t.cos (b + (if a < 0 then t.halfpi else -t.halfpi) + a) -
          t.cos (b + (if a < 0 then t.halfpi else -t.halfpi))),
        p.2 + r * (t.sin (b + (if a < 0 then t.halfpi else -t.halfpi) + a) -
          t.sin (b + (if a < 0 then t.halfpi else -t.halfpi)))) := by
    intro a ha
    rw [if_pos ha, show p = (p.1, p.2) from rfl, ← (turn_math t ht r b p.1 p.2 (-a)).2]
    simp only [Prod.mk.injEq]
    rw [show b + (t.halfpi - -a) = b + t.halfpi + a by ring]
    constructor <;> ring
  have hpi := ht.pos
  cases angle with
  | l => exact hleft _ (not_lt.mpr hpi.le)
  | ll => exact hleft _ (not_lt.mpr (by linarith))
  | r =>
    have := hright (-t.halfpi) (by linarith)
    rw [neg_neg] at this
    exact this
  | rr =>
    have := hright (-(2 * t.halfpi)) (by linarith)
    rw [neg_neg] at this
    exact this
  | num a =>
    simp only [Turtle.turn, TurnArg.value]
    split
    · rename_i h0
      exact hleft a (not_lt.mpr h0.le)
    · rename_i h0
      rcases lt_or_eq_of_le (not_lt.mp h0) with h1 | rfl
      · exact hright a h1
      · simp [Turtle.right, Turtle.around, turnVec, ht.trig.zero.1, ht.trig.zero.2]

/-- **C59.** `turn` leaves the path tangentially: it ends where a turtle does that stands at the last point, looks
along the last segment and turns left (positive angles) or right (negative ones) with the given radius. -/
theorem C59_turn {f g : Flex K} (hf : FlexAligned f) {t : Num K} (ht : Num.Laws t) (hp : Num.Polar t) {r : K}
    {angle : TurnArg K} {w o : FArg K} (hw : FArgOk f.n w) (ho : FArgOk f.n o) {pre : List (Pt K)} {p q : Pt K}
    (hpts : f.points = pre ++ [q, p]) (hne : p ≠ q) (h : f.turn t r angle w o = (g, none)) :
    g.tip = ((⟨p, ((p.1 - q.1) / t.sqrt ((p.1 - q.1) ^ 2 + (p.2 - q.2) ^ 2),
      (p.2 - q.2) / t.sqrt ((p.1 - q.1) ^ 2 + (p.2 - q.2) ^ 2))⟩ : Turtle K).turn t r angle).pos := by
  have htip : f.tip = p := by
    unfold Flex.tip
    rw [hpts, List.getLastD_eq_getLast?]
    simp
  unfold Flex.turn at h
  simp only at h
  have hrev : f.points.reverse = p :: q :: pre.reverse := by rw [hpts]; simp
  rw [hrev] at h
  simp only at h
  have hend := C59_arc_end (hf.uncached none) t _ _ _ hw ho h
  have hpos : 0 < (p.1 - q.1) ^ 2 + (p.2 - q.2) ^ 2 := by
    by_contra hc
    have h1 : 0 ≤ (p.1 - q.1) ^ 2 := sq_nonneg _
    have h2 : 0 ≤ (p.2 - q.2) ^ 2 := sq_nonneg _
    have h3 : (p.1 - q.1) ^ 2 = 0 := by linarith
    have h4 : (p.2 - q.2) ^ 2 = 0 := by linarith
    exact hne (Prod.ext (sub_eq_zero.mp (pow_eq_zero_iff (two_ne_zero) |>.mp h3))
      (sub_eq_zero.mp (pow_eq_zero_iff (two_ne_zero) |>.mp h4)))
  have hs : t.sqrt ((p.1 - q.1) ^ 2 + (p.2 - q.2) ^ 2) ≠ 0 := by
    intro h0
    have := hp.sqrtSq _ hpos.le
    rw [h0] at this
    simp only [ne_eq, OfNat.ofNat_ne_zero, not_false_eq_true, zero_pow] at this
    exact hpos.ne this
  have hc : (p.1 - q.1) / t.sqrt ((p.1 - q.1) ^ 2 + (p.2 - q.2) ^ 2) = t.cos (t.atan2 (p.2 - q.2) (p.1 - q.1)) := by
    rw [div_eq_iff hs, mul_comm]
    exact (hp.cos _ _).symm
  have hsn : (p.2 - q.2) / t.sqrt ((p.1 - q.1) ^ 2 + (p.2 - q.2) ^ 2) = t.sin (t.atan2 (p.2 - q.2) (p.1 - q.1)) := by
    rw [div_eq_iff hs, mul_comm]
    exact (hp.sin _ _).symm
  rw [hc, hsn, hend]
  have htip' : ({ f with cache := none } : Flex K).tip = p := htip
  rw [htip']
  exact (turtle_turn ht r p _ angle).symm

theorem forOut_bezier_end {fuel : Nat} {w o : FArg K} (l : List (List (Pt K))) {f g : Flex K} (hf : FlexAligned f)
    (hw : FArgOk f.n w) (ho : FArgOk f.n o) {pts : List (Pt K)} {p : Pt K}
    (h : forOut (fun g p => Flex.bezier fuel p w o false g) f (l ++ [pts ++ [p]]) = (g, none)) : g.tip = p := by
  induction l generalizing f with
  | nil =>
    rw [List.nil_append, forOut] at h
    cases hb : Flex.bezier fuel (pts ++ [p]) w o false f with
    | mk f' e' =>
      rw [hb] at h
      cases e' with
      | some e' => cases h
      | none =>
        simp only [forOut, Prod.mk.injEq, and_true] at h
        subst h
        have := (C59_curve_end hf (rel := false) hw ho).2 pts p hb
        simpa using this
  | cons x l ih =>
    rw [List.cons_append, forOut] at h
    have hn := bezier_n fuel x w o false f
    cases hb : Flex.bezier fuel x w o false f with
    | mk f' e' =>
      rw [hb] at h hn
      cases e' with
      | some e' => cases h
      | none =>
        simp only at hn
        exact ih (bezier_aligned hf hb (Or.inl rfl)) (hn ▸ hw) (hn ▸ ho) h

theorem idx_eq {α : Type} {l : List α} {i : Nat} {a : α} (h : idx l i = .ok a) : l[i]? = some a := by
  unfold idx at h
  split at h
  · rename_i b hb
    simp only [Except.ok.injEq] at h
    rw [hb, h]
  · cases h

/-- **C59.** `smooth` ends at the last of the given points, or, as a cycle, where it began. -/
theorem C59_smooth_end {f g : Flex K} (hf : FlexAligned f) {fuel : Nat} {hobby : Hobby K} {pts : List (Pt K)} {p : Pt K}
    {cycle : Bool} {w o : FArg K} {rel : Bool} (hw : FArgOk f.n w) (ho : FArgOk f.n o)
    (h : f.smooth fuel hobby (pts ++ [p]) cycle w o rel = (g, none)) :
    g.tip = if cycle then f.tip else if rel then (f.tip.1 + p.1, f.tip.2 + p.2) else p := by
  unfold Flex.smooth at h
  rw [if_neg (by simp)] at h
  split at h
  · cases h
  · rename_i cta ctb _
    split at h
    · cases h
    · rename_i l hl
      have hlen : (f.ctrl (pts ++ [p]) rel).length = pts.length + 2 := by
        unfold Flex.ctrl; split <;> simp
      have hlast : (f.ctrl (pts ++ [p]) rel)[pts.length + 1]? =
          some (if rel then (f.tip.1 + p.1, f.tip.2 + p.2) else p) := by
        unfold Flex.ctrl; split <;> simp
      have h0 : (f.ctrl (pts ++ [p]) rel)[0]? = some f.tip := by
        unfold Flex.ctrl; split <;> simp
      unfold smoothPieces at hl
      obtain ⟨l', hl', hl⟩ := bind_ok hl
      rw [hlen] at hl'
      cases cycle with
      | true =>
        rw [if_pos rfl] at hl
        obtain ⟨a, _, hl⟩ := bind_ok hl
        obtain ⟨b, _, hl⟩ := bind_ok hl
        obtain ⟨c, hc, hl⟩ := bind_ok hl
        have hc := idx_eq hc
        rw [h0] at hc
        simp only [Option.some.injEq] at hc
        subst hc
        have hl : l' ++ [[a, b] ++ [f.tip]] = l := by
          injection hl
        subst hl
        rw [if_pos rfl]
        exact forOut_bezier_end _ hf hw ho h
      | false =>
        rw [if_neg (by simp)] at hl
        have hl : l' = l := by injection hl
        subst hl
        rw [if_neg (by simp)]
        rw [show pts.length + 2 - 1 = pts.length + 1 by omega, List.range_succ, List.mapM_append] at hl'
        obtain ⟨x, _, hl'⟩ := bind_ok hl'
        obtain ⟨y, hy, hl'⟩ := bind_ok hl'
        have hl' : x ++ y = l' := by injection hl'
        subst hl'
        rw [List.mapM_cons] at hy
        obtain ⟨z, hz, hy⟩ := bind_ok hy
        obtain ⟨a, _, hz⟩ := bind_ok hz
        obtain ⟨b, _, hz⟩ := bind_ok hz
        obtain ⟨c, hc, hz⟩ := bind_ok hz
        have hc := idx_eq hc
        rw [hlast] at hc
        simp only [Option.some.injEq] at hc
        subst hc
        have hz : [a, b] ++ [if rel then (f.tip.1 + p.1, f.tip.2 + p.2) else p] = z := by injection hz
        subst hz
        have hy : [[a, b] ++ [if rel then (f.tip.1 + p.1, f.tip.2 + p.2) else p]] = y := by injection hy
        subst hy
        exact forOut_bezier_end _ hf hw ho h

end Taper

/-! ## Where the bookkeeping fails -/

section Flat

variable [Field K] [LinearOrder K] [FloorRing K]

theorem column_ok {rows : List (List K)} {k n : Nat} (hk : k < n) (h : ∀ r ∈ rows, r.length = n) :
    ∃ l, column rows k = .ok l := by
  unfold column
  refine ⟨_, py_mapM_ok _ (fun r => r.getD k 0) rows ?_⟩
  intro r hr
  unfold idx
  rw [List.getElem?_eq_getElem (by rw [h r hr]; exact hk)]
  simp [List.getD_eq_getElem?_getD, List.getElem?_eq_getElem (show k < r.length by rw [h r hr]; exact hk)]

/-- **C59**, violated: a path that starts from one point given as a pair `(x, y)` has two rows of widths for its one
point. -/
theorem C59_flat_pair_misaligned {p : Pt K} {width offset : CycArg K} {corners : CycArg (FlexCorner K)}
    {ends : CycArg (FlexEnd K)} {bendRadius : CycArg (Option K)} {tolerance precision : K} {maxPoints : Nat}
    {gdsiiPath widthTransform : Bool} {layer datatype : CycArg Int} {f : Flex K}
    (h : Flex.new (.flat p) width offset corners ends bendRadius tolerance precision maxPoints gdsiiPath widthTransform
      layer datatype = .ok f) :
    f.points = [p] ∧ f.widths.length = 2 ∧ f.offsets.length = 2 ∧ ¬ FlexAligned f := by
  obtain ⟨hp, hw, ho, _⟩ := flexNew_ok h
  have h1 : f.points = [p] := hp
  have h2 : f.widths.length = 2 := by rw [hw]; simp [PointsIn.len]
  refine ⟨h1, h2, by rw [ho]; simp [PointsIn.len], fun hf => ?_⟩
  have := hf.widths
  rw [h1, h2] at this
  cases this

/-- **C59**, violated: after one segment such a path has two points and three rows, of which the first two are used:
the width and offset given to the segment have no effect on the polygons. -/
theorem C59_flat_pair_ignores (ctx : FlexCtx K) {p : Pt K} {width offset : CycArg K} {corners : CycArg (FlexCorner K)}
    {ends : CycArg (FlexEnd K)} {bendRadius : CycArg (Option K)} {tolerance precision : K} {maxPoints : Nat}
    {gdsiiPath widthTransform : Bool} {layer datatype : CycArg Int} {f : Flex K}
    (h : Flex.new (.flat p) width offset corners ends bendRadius tolerance precision maxPoints gdsiiPath widthTransform
      layer datatype = .ok f) (q : Pt K) (w o : FArg K) (rel : Bool) {g g' : Flex K}
    (hg : f.segment q w o rel = (g, none)) (hg' : f.segment q .none .none rel = (g', none)) :
    (g.getPolygons ctx).2 = (g'.getPolygons ctx).2 := by
  obtain ⟨hp, hw, ho, _⟩ := flexNew_ok h
  obtain ⟨z, ws, os, rfl, hz, _⟩ := segment_returns hg
  obtain ⟨z', ws', os', rfl, hz', _⟩ := segment_returns hg'
  have hp1 : f.points = [p] := hp
  have hw2 : f.widths = [(flexRows width offset).2.1, (flexRows width offset).2.1] := hw
  have ho2 : f.offsets = [(flexRows width offset).2.2, (flexRows width offset).2.2] := ho
  have hzz : z' = z := by rw [hz, hz']
  subst hzz
  have e : ∀ (a b : List K), Flex.twoOf ctx (f.appended none [z'] [a] [b]) =
      Flex.twoOf ctx (f.appended none [z'] [ws] [os]) := by
    intro a b
    funext k
    unfold Flex.twoOf Flex.appended
    simp only [hp1, hw2, ho2, List.cons_append, List.nil_append]
    rfl
  have h1 : ∀ (a b : List K), ((f.appended none [z'] [a] [b]).compute ctx).2 =
      ((f.appended none [z'] [ws] [os]).compute ctx).2 := by
    intro a b
    have e2 : Flex.pathPolys ctx (f.appended none [z'] [a] [b]) (Flex.twoOf ctx (f.appended none [z'] [a] [b])) =
        Flex.pathPolys ctx (f.appended none [z'] [ws] [os]) (Flex.twoOf ctx (f.appended none [z'] [ws] [os])) := by
      rw [e a b]
      funext d k
      unfold Flex.pathPolys
      rfl
    have hc : ∀ (a b : List K), (f.appended none [z'] [a] [b]).compute ctx =
        if p = z' then (f.appended none [z'] [a] [b], [], none)
        else (f.appended none [z'] [a] [b], forOut (Flex.pathPolys ctx (f.appended none [z'] [a] [b])
          (Flex.twoOf ctx (f.appended none [z'] [a] [b]))) [] (List.range f.n)) := by
      intro a b
      have hpp : (f.appended none [z'] [a] [b]).points = [p, z'] := by simp [Flex.appended, hp1]
      unfold Flex.compute
      rw [if_pos (by rw [hpp]; rfl)]
      split
      · rename_i x y hxy
        rw [hpp] at hxy
        simp only [List.cons.injEq, and_true] at hxy
        rw [hxy.1, hxy.2]
        rfl
      · rename_i hno
        exact absurd hpp (hno _ _)
    rw [hc a b, hc ws os, e2]
    split <;> rfl
  have h2 : ∀ (F : Flex K), F.cache = none → (F.getPolygons ctx).2 =
      match (F.compute ctx).2 with
      | (d, none) => .ok d
      | (_, some e) => .error e := by
    intro F hF
    unfold Flex.getPolygons
    rw [hF]
    simp only
    cases F.compute ctx with
    | mk x y => cases y with
      | mk d e => cases e <;> rfl
  rw [h2 _ rfl, h2 _ rfl, h1 ws' os']

/-- **C59**, violated: after two segments (of positive length) `get_polygons` raises ValueError. -/
theorem C59_flat_pair_raises (ctx : FlexCtx K) {p : Pt K} {width offset : CycArg K} {corners : CycArg (FlexCorner K)}
    {ends : CycArg (FlexEnd K)} {bendRadius : CycArg (Option K)} {tolerance precision : K} {maxPoints : Nat}
    {gdsiiPath widthTransform : Bool} {layer datatype : CycArg Int} {f : Flex K}
    (h : Flex.new (.flat p) width offset corners ends bendRadius tolerance precision maxPoints gdsiiPath widthTransform
      layer datatype = .ok f) (hlists : ∀ a b, width = .list a → offset = .list b → b.length = a.length)
    (hn : f.n ≠ 0) {q r : Pt K} {g g' : Flex K} (hq : q ≠ p) (hr : r ≠ q)
    (hg : f.segment q .none .none false = (g, none)) (hg' : g.segment r .none .none false = (g', none)) :
    (g'.getPolygons ctx).2 = .error .valueError := by
  obtain ⟨hp, hw, ho, hfn, h1, h2, h3, h4, h5, _⟩ := flexNew_ok h
  obtain ⟨z, ws, os, rfl, hz, hws, hos, _⟩ := segment_returns hg
  obtain ⟨z', ws', os', rfl, hz', hws', hos', _⟩ := segment_returns hg'
  simp only [Bool.false_eq_true, if_false] at hz hz'
  subst hz hz'
  have hp1 : f.points = [p] := hp
  have hw2 : f.widths = [(flexRows width offset).2.1, (flexRows width offset).2.1] := hw
  have ho2 : f.offsets = [(flexRows width offset).2.2, (flexRows width offset).2.2] := ho
  have hpts : ((f.appended none [z] [ws] [os]).appended none [z'] [ws'] [os']).points = [p, z, z'] := by simp [Flex.appended, hp1]
  have hwe : ws = (flexRows width offset).2.1 := by rw [hws]; simp [segWidth, hw2, lastRow]
  have hoe : os = (flexRows width offset).2.2 := by rw [hos]; simp [segOffset, ho2, lastRow]
  have hwe' : ws' = (flexRows width offset).2.1 := by rw [hws', ← hwe]; simp [segWidth, Flex.appended, lastRow]
  have hoe' : os' = (flexRows width offset).2.2 := by rw [hos', ← hoe]; simp [segOffset, Flex.appended, lastRow]
  have key : (flexRows width offset).2.1.length = f.n ∧ (flexRows width offset).2.2.length = f.n := by
    rw [hfn]
    cases width with
    | one w => cases offset with
      | one o => exact ⟨rfl, rfl⟩
      | list o => simp [flexRows]
    | list w => cases offset with
      | one o => simp [flexRows]
      | list o => simp [flexRows, hlists w o rfl rfl]
  generalize hG : (f.appended none [z] [ws] [os]).appended none [z'] [ws'] [os'] = G at hpts
  have hGw : G.widths = List.replicate 4 (flexRows width offset).2.1 := by
    rw [← hG]; simp [Flex.appended, hw2, hwe, hwe', List.replicate]
  have hGo : G.offsets = List.replicate 4 (flexRows width offset).2.2 := by
    rw [← hG]; simp [Flex.appended, ho2, hoe, hoe', List.replicate]
  have hGn : G.n = f.n := by rw [← hG]; rfl
  have hGc : G.cache = none := by rw [← hG]; rfl
  have hded : G.dedup = G := by
    unfold Flex.dedup
    rw [if_pos]
    rw [hpts]
    simp only [List.map_cons, List.map_nil, dedupRows, dedupFrom, if_neg hq, if_neg hr, List.length_cons, List.length_nil]
  have hmany : G.manyOf ctx 0 = .error .valueError := by
    have hpos : 0 < f.n := Nat.pos_of_ne_zero hn
    have c1 : ∃ a, idx G.corners 0 = .ok a := by
      have : G.corners.length = f.n := by rw [← hG]; exact h2
      exact ⟨G.corners[0], by unfold idx; rw [List.getElem?_eq_getElem (by omega)]⟩
    have c2 : ∃ a, idx G.ends 0 = .ok a := by
      have : G.ends.length = f.n := by rw [← hG]; exact h1
      exact ⟨G.ends[0], by unfold idx; rw [List.getElem?_eq_getElem (by omega)]⟩
    have c3 : ∃ a, idx G.bendRadius 0 = .ok a := by
      have : G.bendRadius.length = f.n := by rw [← hG]; exact h3
      exact ⟨G.bendRadius[0], by unfold idx; rw [List.getElem?_eq_getElem (by omega)]⟩
    obtain ⟨a1, c1⟩ := c1
    obtain ⟨a2, c2⟩ := c2
    obtain ⟨a3, c3⟩ := c3
    obtain ⟨a4, c4⟩ := column_ok (rows := G.offsets) (k := 0) hpos (by
      intro r hr; rw [hGo] at hr; rw [List.eq_of_mem_replicate hr]; exact key.2)
    obtain ⟨a5, c5⟩ := column_ok (rows := G.widths) (k := 0) hpos (by
      intro r hr; rw [hGw] at hr; rw [List.eq_of_mem_replicate hr]; exact key.1)
    unfold Flex.manyOf
    rw [c1, c2, c3, c4, c5]
    show (if G.points.length < 2 then _ else _) = _
    rw [hpts, hGw, hGo]
    rfl
  unfold Flex.getPolygons Flex.compute
  rw [hGc]
  simp only
  rw [if_neg (by rw [hpts]; simp), hded, hGn]
  obtain ⟨m, hm⟩ : ∃ m, f.n = m + 1 := ⟨f.n - 1, by omega⟩
  rw [hm, List.range_succ_eq_map, forOut]
  have : Flex.pathPolys ctx G (Flex.manyOf ctx G) [] 0 = ([], some .valueError) := by
    unfold Flex.pathPolys
    rw [hmany]
    rfl
  rw [this]

end Flat

/-! ## Concrete cases -/

/-- Two paths side by side, with rational arithmetic. -/
def sampleFlex : Py (Flex ℚ) :=
  Flex.new (.list [(0, 0), (10, 0)]) (.list [2, 1]) (.one 5) (.one .natural) (.one .flush) (.one none) (1 / 100)
    (1 / 1000) 199 false true (.one 0) (.list [0, 1])

def sampleCtx : FlexCtx ℚ := ⟨{ ratNum with acos := fun _ => some 45 }, fun _ _ _ _ => .error .unmodelled, fun _ _ _ _ => .ok [], 100⟩

def flexShape (r : Out (Flex ℚ)) : List (Pt ℚ) × List (List ℚ) × List (List ℚ) × Bool :=
  (r.1.points, r.1.widths, r.1.offsets, r.2.isNone)

def sampleFlexRun (l : List (FlexOp ℚ)) : Option (List (Pt ℚ) × List (List ℚ) × List (List ℚ) × Bool) :=
  match sampleFlex with
  | .ok f => some (flexShape (forOut (Flex.run sampleCtx) f l))
  | .error _ => none

/-- The hypotheses of `C59_new`, `C59_history`, `C59_segment` and `C59_arc` hold for a path with different kinds of
arguments. -/
example : sampleFlexRun [.segment (0, 10) (.num 3) (.list [1, 4]) true, .arc 5 0 90 (.list [1, 2]) (.num 1), .scale 2 (0, 0)]
    = some ([(0, 0), (20, 0), (20, 20), (20, 20), (10, 30)],
      [[4, 2], [4, 2], [6, 6], [4, 5], [2, 4]],
      [[-5, 5], [-5, 5], [2, 8], [3, 9], [4, 10]], true) := by
  decide +kernel

/-- **C59**, limit: a call that raises may leave a point without rows: a list of the wrong length raises
ValueError after the point has been added. -/
theorem C59_raising_call_misaligns :
    sampleFlexRun [.segment (0, 10) (.list [1, 2, 3]) .none true] =
      some ([(0, 0), (10, 0), (10, 10)], [[2, 1], [2, 1]], [[-5 / 2, 5 / 2], [-5 / 2, 5 / 2]], false) := by
  decide +kernel

/-- One path from a point given as a pair. -/
def sampleFlat : Py (Flex ℚ) :=
  Flex.new (.flat (0, 0)) (.one 2) (.one 0) (.one .natural) (.one .flush) (.one none) (1 / 100)
    (1 / 1000) 199 false true (.one 0) (.one 0)

def sampleFlatRun (l : List (FlexOp ℚ)) : Option (List (Pgon ℚ)) × Option PyErr :=
  match sampleFlat with
  | .ok f =>
    let r := forOut (Flex.run sampleCtx) f l
    let d := (r.1.getPolygons { sampleCtx with num := { ratNum with sqrt := fun _ => 10 } }).2
    (d.toOption.map PolyDict.all, errOf d)
  | .error e => (none, some e)

/-- The hypotheses of the three theorems about pairs hold: the width 20 has no effect, and a second segment raises. -/
example : sampleFlatRun [.segment (10, 0) (.num 20) .none false] =
      (some [[(0, -1), (0, 1), (10, 1), (10, -1)]], none) ∧
    sampleFlatRun [.segment (10, 0) .none .none false, .segment (10, 10) .none .none false] =
      (none, some .valueError) := by
  refine ⟨?_, ?_⟩
  · decide +kernel
  · decide +kernel

/-- The laws of the square root and of `atan2` hold for the real numbers. -/
theorem realNum_polar : Num.Polar realNum where
  sqrtNonneg x := Real.sqrt_nonneg x
  sqrtSq x hx := Real.sq_sqrt hx
  cos x y := by
    have h := Complex.norm_mul_cos_arg ⟨x, y⟩
    rw [Complex.norm_eq_sqrt_sq_add_sq] at h
    exact h
  sin x y := by
    have h := Complex.norm_mul_sin_arg ⟨x, y⟩
    rw [Complex.norm_eq_sqrt_sq_add_sq] at h
    exact h

end Gdspy
