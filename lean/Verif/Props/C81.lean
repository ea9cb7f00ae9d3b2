import Verif.Props.C80

/-!
# C81: which layers the viewer hides
-/

namespace Gdspy

open Spec

/-- Items are drawn as the list of hidden layers says. -/
def Spec.Consistent (v : View) : Prop := ∀ k, v.state k = true ↔ k ∈ v.hidden

theorem redraw_consistent (v : View) : Consistent v.redraw := by
  intro k
  simp [View.redraw]

theorem hide_consistent {v : View} (hc : Consistent v) (l : Int × Int) :
    Consistent { v with hidden := v.hidden ++ [l], state := Function.update v.state l true } := by
  intro k
  by_cases h : k = l
  · subst h; simp
  · simp [h, hc k]

theorem unhide_consistent {v : View} (hc : Consistent v) (hn : v.hidden.Nodup) (l : Int × Int) :
    Consistent { v with hidden := v.hidden.erase l, state := Function.update v.state l false } := by
  intro k
  simp only [hn.mem_erase_iff]
  by_cases h : k = l
  · subst h; simp
  · simp [h, hc k]

theorem hide_nodup {l : List (Int × Int)} (hn : l.Nodup) {k : Int × Int} (h : k ∉ l) : (l ++ [k]).Nodup := by
  rw [List.nodup_append]
  refine ⟨hn, by simp, ?_⟩
  rintro a ha b hb rfl
  rw [List.mem_singleton] at hb
  exact h (hb ▸ ha)

/-- The two things that stay true. -/
def Spec.Good (v : View) : Prop := Consistent v ∧ v.hidden.Nodup

theorem toggle_good {v : View} (h : Good v) (l : Int × Int) : Good (v.toggle l) := by
  unfold View.toggle
  split
  · exact ⟨unhide_consistent h.1 h.2 l, h.2.erase _⟩
  · rename_i hl
    exact ⟨hide_consistent h.1 l, hide_nodup h.2 hl⟩

theorem otherStep_good {v : View} (h : Good v) (l o : Int × Int) (u : Bool) : Good (v.otherStep l u o) := by
  unfold View.otherStep
  split
  · split
    · exact ⟨unhide_consistent h.1 h.2 o, h.2.erase _⟩
    · split
      · rename_i hl
        simp only [Bool.not_eq_true', Bool.or_eq_false_iff, decide_eq_false_iff_not] at hl
        exact ⟨hide_consistent h.1 o, hide_nodup h.2 hl.2⟩
      · exact h
  · exact h

/-- One click on another layer, as a change of states. -/
theorem otherStep_state {v : View} (h : Good v) (l o : Int × Int) (u : Bool) (k : Int × Int) :
    (v.otherStep l u o).state k = if k = o ∧ k ≠ l then !u else v.state k := by
  have hc : ∀ k, v.state k = decide (k ∈ v.hidden) := fun k => by
    rw [Bool.eq_iff_iff, decide_eq_true_iff]; exact h.1 k
  unfold View.otherStep
  by_cases hlo : l = o
  · subst hlo
    have : ¬ (k = l ∧ k ≠ l) := fun e => e.2 e.1
    simp [this]
  · rw [if_pos hlo]
    by_cases hko : k = o
    · subst hko
      have hkl : k ≠ l := fun e => hlo e.symm
      cases u <;> by_cases hm : k ∈ v.hidden <;> simp [hm, hc, hkl]
    · cases u <;> by_cases hm : o ∈ v.hidden <;> simp [hm, hko]

theorem otherStep_info (v : View) (l o : Int × Int) (u : Bool) : (v.otherStep l u o).info = v.info := by
  unfold View.otherStep
  split_ifs <;> rfl

theorem others_fold (l : Int × Int) (u : Bool) : ∀ (is : List (Int × Int)) {v : View}, Good v →
    Good (is.foldl (View.otherStep l u) v) ∧ (is.foldl (View.otherStep l u) v).info = v.info ∧
      ∀ k, (is.foldl (View.otherStep l u) v).state k = if k ∈ is ∧ k ≠ l then !u else v.state k := by
  intro is
  induction is with
  | nil => intro v h; exact ⟨h, rfl, by simp⟩
  | cons o is ih =>
    intro v h
    obtain ⟨h1, h2, h3⟩ := ih (otherStep_good h l o u)
    refine ⟨h1, by rw [List.foldl_cons, h2, otherStep_info], fun k => ?_⟩
    rw [List.foldl_cons, h3, otherStep_state h]
    by_cases hl : k = l
    · simp [hl]
    · by_cases ho : k = o
      · subst ho
        simp [hl]
      · by_cases hi : k ∈ is <;> simp [hl, ho, hi]

theorem filter_good {v : View} (h : Good v) (hi : v.info.Nodup) (r : Str) : Good (v.filter r) := by
  unfold View.filter
  split
  · rename_i l hl
    refine ⟨redraw_consistent _, ?_⟩
    unfold filterHidden at hl
    split at hl
    · simp only [Option.some.injEq] at hl
      simp only [View.redraw]
      rw [← hl]
      exact hi.filter _
    · cases hl
  · exact h

/-- The layers that a cell lists are different from one another. -/
def Spec.Lists : ViewAct → Prop
  | .showCell i => i.Nodup
  | _ => True

theorem toggle_info (v : View) (l : Int × Int) : (v.toggle l).info = v.info := by
  unfold View.toggle
  split <;> rfl

theorem filter_info (v : View) (r : Str) : (v.filter r).info = v.info := by
  unfold View.filter
  split <;> rfl

theorem act_good {v : View} (h : Good v) (hi : v.info.Nodup) {a : ViewAct} (ha : Lists a) :
    Good (v.act a) ∧ (v.act a).info.Nodup := by
  cases a with
  | toggle l => exact ⟨toggle_good h l, by rw [View.act, toggle_info]; exact hi⟩
  | toggleOthers l =>
    obtain ⟨h1, h2, -⟩ := others_fold l
      (((v.info.filter fun k => l ≠ k).head?.map fun k => decide (k ∈ v.hidden)).getD false) v.info h
    exact ⟨h1, by rw [View.act, View.toggleOthers, h2]; exact hi⟩
  | filter r => exact ⟨filter_good h hi r, by rw [View.act, filter_info]; exact hi⟩
  | showCell i => exact ⟨⟨redraw_consistent _, h.2⟩, ha⟩

/-! ## The property -/

/-- Whatever a user does, exactly the layers in the list of hidden layers are drawn as hidden, if no layer
was given twice at the start. Missing: the last condition, see `C81_given_twice`. -/
theorem C81_consistent_partial {hidden info : List (Int × Int)} (hh : hidden.Nodup) (hi : info.Nodup)
    (s : Int × Int → Bool) {acts : List ViewAct} (ha : ∀ a ∈ acts, Lists a) :
    Good (acts.foldl View.act (View.redraw ⟨hidden, info, s⟩)) := by
  have key : ∀ (acts : List ViewAct) (v : View), (∀ a ∈ acts, Lists a) → Good v → v.info.Nodup →
      Good (acts.foldl View.act v) := by
    intro acts
    induction acts with
    | nil => intro v _ h _; exact h
    | cons a acts ih =>
      intro v ha h hi
      obtain ⟨h1, h2⟩ := act_good h hi (ha a List.mem_cons_self)
      exact ih _ (fun b hb => ha b (List.mem_cons_of_mem _ hb)) h1 h2
  exact key acts _ ha ⟨redraw_consistent _, hh⟩ hi

/-- A click on a layer changes that layer and no other. -/
theorem C81_toggle {v : View} (h : Good v) (l k : Int × Int) :
    (v.toggle l).state k = if k = l then !(v.state k) else v.state k := by
  have hc : ∀ k, v.state k = decide (k ∈ v.hidden) := fun k => by
    rw [Bool.eq_iff_iff, decide_eq_true_iff]; exact h.1 k
  unfold View.toggle
  by_cases hk : k = l
  · subst hk
    by_cases hm : k ∈ v.hidden <;> simp [hm, hc]
  · split_ifs <;> simp [Function.update_of_ne hk]

/-- A second click undoes it. -/
theorem C81_toggle_twice {v : View} (h : Good v) (l : Int × Int) : ((v.toggle l).toggle l).state = v.state := by
  funext k
  rw [C81_toggle (toggle_good h l), C81_toggle h]
  split <;> simp

/-- A right click on a layer leaves the layer alone and gives all others in the list the same state, the
opposite of what the first of them had. -/
theorem C81_others {v : View} (h : Good v) {l o : Int × Int} {pre post : List (Int × Int)}
    (hi : v.info = pre ++ o :: post) (hpre : ∀ k ∈ pre, k = l) (ho : o ≠ l) (k : Int × Int) :
    (v.toggleOthers l).state k = if k ∈ v.info ∧ k ≠ l then !(v.state o) else v.state k := by
  have hf : (v.info.filter fun k => decide (l ≠ k)).head? = some o := by
    rw [hi, List.filter_append]
    have : pre.filter (fun k => decide (l ≠ k)) = [] := by
      rw [List.filter_eq_nil_iff]
      intro a ha
      simp [hpre a ha]
    rw [this, List.nil_append, List.filter_cons]
    simp [Ne.symm ho]
  obtain ⟨-, -, h3⟩ := others_fold l
    (((v.info.filter fun k => decide (l ≠ k)).head?.map fun k => decide (k ∈ v.hidden)).getD false) v.info h
  have hc : decide (o ∈ v.hidden) = v.state o := by
    rw [Bool.eq_iff_iff, decide_eq_true_iff]; exact (h.1 o).symm
  have := h3 k
  rw [hf] at this
  simp only [Option.map_some, Option.getD_some, hc] at this
  rw [← this]
  unfold View.toggleOthers
  rw [hf]
  simp only [Option.map_some, Option.getD_some, hc]

/-- A right click on the only layer has no effect. -/
theorem C81_others_alone {v : View} (h : Good v) {l : Int × Int} (hi : ∀ k ∈ v.info, k = l) :
    (v.toggleOthers l).state = v.state := by
  funext k
  obtain ⟨-, -, h3⟩ := others_fold l
    (((v.info.filter fun k => decide (l ≠ k)).head?.map fun k => decide (k ∈ v.hidden)).getD false) v.info h
  refine (h3 k).trans ?_
  rw [if_neg]
  rintro ⟨h1, h2⟩
  exact h2 (hi k h1)

/-- A filter decides about all layers in the list. -/
theorem C81_filter {v : View} {rule : Str} {f : List (List FilterItem × List FilterItem)} (h : WritesFilter rule f)
    {k : Int × Int} (hk : k ∈ v.info) : (v.filter rule).state k = true ↔ ¬ Shows f k := by
  obtain ⟨l, e, hl⟩ := C80_filter h v.info
  unfold View.filter
  rw [e]
  simp only [View.redraw, decide_eq_true_eq, hl]
  exact ⟨fun h => h.2, fun h => ⟨hk, h⟩⟩

/-- The claim without the condition is wrong: a layer that was given twice in `hidden_types` is shown after
a click, although it is still in the list, and hidden again the next time the viewer draws. -/
theorem C81_given_twice : ∃ (hidden info : List (Int × Int)) (l : Int × Int), info.Nodup ∧
    let v := (View.redraw ⟨hidden, info, fun _ => false⟩).toggle l
    v.state l = false ∧ l ∈ v.hidden ∧ v.redraw.state l = true :=
  ⟨[(1, 0), (1, 0)], [(1, 0), (2, 0)], (1, 0), by decide, by decide, by decide, by decide⟩

/-- A filter only knows the layers in the list: in a cell shown afterwards a layer that the filter does not
show is visible. -/
theorem C81_filter_other_cell : ∃ (v : View) (rule : Str) (f : List (List FilterItem × List FilterItem)) (l : Int × Int),
    Good v ∧ v.hidden = [] ∧ WritesFilter rule f ∧ ¬ Shows f l ∧ l ∉ v.info ∧
      ((v.filter rule).showCell [l]).state l = false := by
  refine ⟨View.redraw ⟨[], [(1, 0), (2, 0)], fun _ => false⟩, ['(', '1', '/', '*', ')'], [([.one 1], [.any])], (3, 0),
    ⟨redraw_consistent _, by simp [View.redraw]⟩, rfl, ?_, ?_, by simp [View.redraw], by decide +kernel⟩
  · have b0 : Blank [] := by simp [Blank]
    exact .one (.mk b0 b0 b0 b0 b0 b0 (.one (.one (.digit (d := 1) (by omega)))) (.one .any))
  · simp [Shows, FilterItem.holds]

/-- The default value of `hidden_types` is changed by the clicks: a layer hidden in one viewer is hidden
from the start in the next one. -/
theorem C81_default_kept (info info' : List (Int × Int)) (l : Int × Int) :
    (((Session.start.openView info).act (.toggle l)).openView info').view.state l = true := by
  simp [Session.start, Session.openView, Session.act, View.act, View.toggle, View.redraw]

/-- What a viewer starts with, when none is given: what the clicks in earlier viewers left. -/
theorem C81_default_is_last {s : Session} (hs : s.shared = true) (acts : List ViewAct)
    (hno : ∀ r, ViewAct.filter r ∉ acts) (hne : acts ≠ []) (info : List (Int × Int)) :
    ((acts.foldl Session.act s).openView info).view.hidden = (acts.foldl View.act s.view).hidden := by
  have key : ∀ (acts : List ViewAct) (s : Session), s.shared = true → (∀ r, ViewAct.filter r ∉ acts) →
      (acts.foldl Session.act s).view = acts.foldl View.act s.view ∧ (acts ≠ [] →
        (acts.foldl Session.act s).dflt = (acts.foldl View.act s.view).hidden) := by
    intro acts
    induction acts with
    | nil => intro s _ _; exact ⟨rfl, fun h => absurd rfl h⟩
    | cons a acts ih =>
      intro s hs hno
      have hsh : (s.act a).shared = true := by
        cases a with
        | filter r => exact absurd List.mem_cons_self (hno r)
        | _ => exact hs
      have hd : (s.act a).dflt = (s.view.act a).hidden := by
        have : (s.act a).dflt = if (s.act a).shared then (s.view.act a).hidden else s.dflt := rfl
        rw [this, hsh]; rfl
      obtain ⟨h1, h2⟩ := ih (s.act a) hsh fun r h => hno r (List.mem_cons_of_mem _ h)
      refine ⟨h1, fun _ => ?_⟩
      by_cases he : acts = []
      · subst he; exact hd
      · exact h2 he
  exact (key acts s hs hno).2 hne

/-- Three layers, the second hidden: a right click on the first shows the second and third again. -/
example : let v := View.redraw ⟨[(2, 0)], [(1, 0), (2, 0), (3, 5)], fun _ => false⟩
    Good v ∧ v.state (2, 0) = true ∧ (v.toggleOthers (1, 0)).state (2, 0) = false ∧
      ((v.toggleOthers (1, 0)).toggleOthers (1, 0)).hidden = [(2, 0), (3, 5)] :=
  ⟨⟨redraw_consistent _, by decide⟩, by decide, by decide, by decide⟩

end Gdspy
