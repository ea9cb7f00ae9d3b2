import Verif.Model.Settings
import Verif.Props.C84

/-!
# C84 when the global settings are assigned between the calls
-/

namespace Gdspy

open Spec

/-- The names that a statement takes, with the library in which it takes them. -/
def Spec.taken (current : Nat) (use : Bool) : GOp → List (Nat × Str)
  | .setUse _ => []
  | .setCurrent _ => []
  | .create name ex => if use ∧ ¬ ex then [(current, name)] else []
  | .new k => if use ∧ current ≠ k.lib then [(current, k.name), (k.lib, k.name)] else [(k.lib, k.name)]

/-- The names that a program takes, with the settings of the moment. -/
def Spec.takes : Nat → Bool → List GOp → List (Nat × Str)
  | _, _, [] => []
  | c, u, o :: l => taken c u o ++ match o with
    | .setUse b => takes c b l
    | .setCurrent i => takes i u l
    | _ => takes c u l

/-! ### exchange of two numbers -/

/-- The libraries with the numbers 0 and `c` exchanged. -/
def World.swapped (w : World) (c : Nat) : World := ⟨w.heap, fun i => w.libs (Equiv.swap 0 c i)⟩

theorem swapped_swapped (w : World) (c : Nat) : (w.swapped c).swapped c = w := by
  simp [World.swapped]

theorem swapped_put (w : World) (c i : Nat) (st : LState) :
    ((w.swapped c).put (Equiv.swap 0 c i) st).swapped c = w.put i st := by
  unfold World.swapped World.put
  congr 1
  funext j
  by_cases h : j = i
  · subst h
    simp
  · have : Equiv.swap 0 c j ≠ Equiv.swap 0 c i := fun e => h ((Equiv.swap 0 c).injective e)
    simp [h, this]

theorem swapped_free (w : World) (c i : Nat) (s : Str) :
    NameFree (w.swapped c) i s ↔ NameFree w (Equiv.swap 0 c i) s := Iff.rfl

theorem swapped_ok {w : World} (hw : WorldOk w) (c : Nat) : WorldOk (w.swapped c) :=
  fun i p hp => hw (Equiv.swap 0 c i) p hp

theorem createCell_swapped (p : Program) (name : Str) (ex : Bool) :
    p.createCell name ex = ({ p with
      world := ((p.world.swapped p.current).createCell p.use name ex).1.swapped p.current },
      ((p.world.swapped p.current).createCell p.use name ex).2) := by
  unfold Program.createCell World.createCell
  have hv : ({ p.world.swapped p.current with heap := (p.world.heap.newCell name).1 } : World).view 0
      = ({ p.world with heap := (p.world.heap.newCell name).1 } : World).view p.current := by
    simp [World.view, World.swapped]
  have hp : ∀ st, (World.put ({ p.world.swapped p.current with
      heap := (p.world.heap.newCell name).1 } : World) 0 st).swapped p.current
      = ({ p.world with heap := (p.world.heap.newCell name).1 } : World).put p.current st := by
    intro st
    have := swapped_put { p.world with heap := (p.world.heap.newCell name).1 } p.current p.current st
    rw [Equiv.swap_apply_right] at this
    exact this
  have hh : (p.world.swapped p.current).heap = p.world.heap := rfl
  simp only [hh]
  by_cases hu : (p.use && !ex) = true
  · simp only [hu, if_true]
    rw [hv]
    rcases addLoop false true (World.view _ p.current) [(p.world.heap.newCell name).2] with ⟨st, _ | e⟩
    · simp only [hp]
    · simp only [hp]
  · simp only [hu]
    simp [World.swapped]

theorem newCell_swapped (p : Program) (k : NewCall) :
    p.newCell k = ({ p with
      world := ((p.world.swapped p.current).newCell p.use (Equiv.swap 0 p.current k.lib) k.name k.ow
        k.upd).1.swapped p.current },
      ((p.world.swapped p.current).newCell p.use (Equiv.swap 0 p.current k.lib) k.name k.ow k.upd).2) := by
  unfold Program.newCell World.newCell
  rw [createCell_swapped]
  rcases (p.world.swapped p.current).createCell p.use k.name false with ⟨w, e | c⟩
  · rfl
  · simp only
    have hv : (w.swapped p.current).view k.lib = w.view (Equiv.swap 0 p.current k.lib) := rfl
    rw [hv]
    rcases addLoop k.ow k.upd (w.view (Equiv.swap 0 p.current k.lib)) [c] with ⟨st, _ | e⟩
    · have := swapped_put (w.swapped p.current) p.current k.lib st
      rw [swapped_swapped] at this
      simp only [this]
    · have := swapped_put (w.swapped p.current) p.current k.lib st
      rw [swapped_swapped] at this
      simp only [this]

/-! ### one statement -/

theorem create_step (p : Program) (hw : WorldOk p.world) (name : Str) (ex : Bool) :
    ((∀ q ∈ taken p.current p.use (.create name ex), NameFree p.world q.1 q.2) →
      ∃ w, p.step (.create name ex) = ({ p with world := w }, none) ∧ WorldOk w ∧
        ∀ j s, NameFree w j s ↔ NameFree p.world j s ∧ (j, s) ∉ taken p.current p.use (.create name ex)) ∧
    (¬ (∀ q ∈ taken p.current p.use (.create name ex), NameFree p.world q.1 q.2) →
      ∃ q, p.step (.create name ex) = (q, some .valueError)) := by
  have hs := swapped_ok hw p.current
  have hst : p.step (.create name ex) = match p.createCell name ex with
    | (p', .ok _) => (p', none)
    | (p', .error e) => (p', some e) := rfl
  rw [hst, createCell_swapped]
  by_cases hu : p.use = true ∧ ex = false
  · obtain ⟨hu, rfl⟩ := hu
    have ht : taken p.current p.use (.create name false) = [(p.current, name)] := by simp [taken, hu]
    rw [ht, hu]
    have hf : NameFree (p.world.swapped p.current) 0 name ↔ NameFree p.world p.current name := by
      rw [swapped_free, Equiv.swap_apply_left]
    have hwf := (createCell_wf true _ hs name).1
    constructor
    · intro h
      have h := hf.2 (h (p.current, name) (by simp))
      rw [createCell_on_ok _ hs name h] at hwf ⊢
      refine ⟨_, rfl, swapped_ok hwf _, ?_⟩
      intro j s
      rw [swapped_free, nameFree_iff, nameFree_iff]
      by_cases hj : j = p.current
      · subst hj
        simp only [Equiv.swap_apply_right, Function.update_self, dictPut_lookup, World.swapped,
          Equiv.swap_apply_left]
        by_cases hn : s = name
        · simp [hn]
        · simp [hn]
      · have hj' : Equiv.swap 0 p.current j ≠ 0 := by
          intro e
          apply hj
          have := congrArg (Equiv.swap 0 p.current) e
          simpa using this
        simp [hj', hj, World.swapped]
    · intro h
      have h : ¬ NameFree (p.world.swapped p.current) 0 name := by
        rw [hf]
        intro h'
        apply h
        intro q hq
        rw [List.mem_singleton] at hq
        subst hq
        exact h'
      rw [createCell_on_taken _ hs name h]
      exact ⟨_, rfl⟩
  · have hoff : (p.use && !ex) = false := by
      cases hb : p.use <;> cases ex <;> simp_all
    have ht : taken p.current p.use (.create name ex) = [] := by
      simp only [taken]
      rw [if_neg]
      rintro ⟨h1, h2⟩
      exact hu ⟨h1, by simpa using h2⟩
    rw [ht, createCell_off _ name ex _ hoff]
    constructor
    · intro _
      refine ⟨_, rfl, ?_, ?_⟩
      · intro i q hq
        have := hs (Equiv.swap 0 p.current i) q hq
        show q.2 < p.world.heap.ncells + 1
        have : q.2 < p.world.heap.ncells := this
        omega
      · intro j s
        simp [NameFree, World.swapped]
    · intro h
      simp at h

theorem new_step (p : Program) (hw : WorldOk p.world) (k : NewCall) (hk : k.ow = false) :
    ((∀ q ∈ taken p.current p.use (.new k), NameFree p.world q.1 q.2) →
      ∃ w, p.step (.new k) = ({ p with world := w }, none) ∧ WorldOk w ∧
        ∀ j s, NameFree w j s ↔ NameFree p.world j s ∧ (j, s) ∉ taken p.current p.use (.new k)) ∧
    (¬ (∀ q ∈ taken p.current p.use (.new k), NameFree p.world q.1 q.2) →
      ∃ q, p.step (.new k) = (q, some .valueError)) := by
  have hs := swapped_ok hw p.current
  have hst : p.step (.new k) = match p.newCell k with
    | (p', .ok _) => (p', none)
    | (p', .error e) => (p', some e) := rfl
  rw [hst, newCell_swapped, hk]
  set i := Equiv.swap 0 p.current k.lib with hi
  have hi' : Equiv.swap 0 p.current i = k.lib := by simp [hi]
  have hf0 : NameFree (p.world.swapped p.current) 0 k.name ↔ NameFree p.world p.current k.name := by
    rw [swapped_free, Equiv.swap_apply_left]
  have hfi : NameFree (p.world.swapped p.current) i k.name ↔ NameFree p.world k.lib k.name := by
    rw [swapped_free, hi']
  have hmem : (∀ q ∈ taken p.current p.use (.new k), NameFree p.world q.1 q.2) ↔
      (p.use = true → NameFree p.world p.current k.name) ∧ NameFree p.world k.lib k.name := by
    simp only [taken]
    by_cases hc : p.use = true ∧ p.current ≠ k.lib
    · rw [if_pos hc]
      simp [hc.1]
    · rw [if_neg hc]
      simp only [List.mem_singleton, forall_eq]
      constructor
      · intro h
        refine ⟨fun hu => ?_, h⟩
        have : p.current = k.lib := by
          by_contra hne
          exact hc ⟨hu, hne⟩
        rw [this]
        exact h
      · exact fun h => h.2
  have hin : ∀ j s, (j, s) ∈ taken p.current p.use (.new k) ↔
      ((p.use = true ∧ j = p.current) ∨ j = k.lib) ∧ s = k.name := by
    intro j s
    simp only [taken]
    by_cases hc : p.use = true ∧ p.current ≠ k.lib
    · rw [if_pos hc]
      simp only [List.mem_cons, Prod.mk.injEq, List.not_mem_nil, or_false, hc.1, true_and]
      tauto
    · rw [if_neg hc]
      simp only [List.mem_singleton, Prod.mk.injEq]
      constructor
      · rintro ⟨h1, h2⟩
        exact ⟨Or.inr h1, h2⟩
      · rintro ⟨⟨hu, hj⟩ | hj, h2⟩
        · refine ⟨?_, h2⟩
          by_contra hne
          exact hc ⟨hu, by rw [← hj]; exact hne⟩
        · exact ⟨hj, h2⟩
  rw [hmem]
  have hwf := newCell_wf p.use _ hs i k.name false k.upd
  have done : ∀ c, ((p.world.swapped p.current).newCell p.use i k.name false k.upd).2 = .ok c →
      ∃ w, (match ((⟨((p.world.swapped p.current).newCell p.use i k.name false k.upd).1.swapped p.current,
          p.current, p.use⟩, ((p.world.swapped p.current).newCell p.use i k.name false k.upd).2) : Program × Py Nat) with
      | (p', .ok _) => (p', none)
      | (p', .error e) => (p', some e)) = ({ p with world := w }, none) ∧ WorldOk w ∧
      ∀ j s, NameFree w j s ↔ NameFree p.world j s ∧ (j, s) ∉ taken p.current p.use (.new k) := by
    intro c hc
    refine ⟨((p.world.swapped p.current).newCell p.use i k.name false k.upd).1.swapped p.current, ?_,
      swapped_ok hwf _, ?_⟩
    · rw [hc]
    · intro j s
      rw [swapped_free, newCell_free p.use _ hs i k.name k.upd c hc, hin, swapped_free, Equiv.swap_apply_self]
      have e1 : Equiv.swap 0 p.current j = 0 ↔ j = p.current := by
        rw [Equiv.swap_apply_eq_iff, Equiv.swap_apply_left]
      have e2 : Equiv.swap 0 p.current j = i ↔ j = k.lib := by
        rw [hi]; exact (Equiv.swap 0 p.current).injective.eq_iff
      rw [e1, e2]
  have fail : ((p.world.swapped p.current).newCell p.use i k.name false k.upd).2 = .error .valueError →
      ∃ q, (match ((⟨((p.world.swapped p.current).newCell p.use i k.name false k.upd).1.swapped p.current,
          p.current, p.use⟩, ((p.world.swapped p.current).newCell p.use i k.name false k.upd).2) : Program × Py Nat) with
      | (p', .ok _) => (p', none)
      | (p', .error e) => (p', some e)) = (q, some PyErr.valueError) := by
    intro hc
    rw [hc]
    exact ⟨_, rfl⟩
  cases hu : p.use with
  | false =>
    rw [hu] at done fail
    obtain ⟨h1, h2⟩ := C84_new_cell_local _ hs i k.name false k.upd
    constructor
    · rintro ⟨-, h⟩
      exact done _ (h2 (Or.inr (hfi.2 h))).1
    · intro h
      refine fail (h1 ⟨rfl, fun h' => h ⟨by simp, hfi.1 h'⟩⟩).1
  | true =>
    rw [hu] at done fail
    obtain ⟨h1, h2, h3⟩ := C84_new_cell_global _ hs i k.name false k.upd
    constructor
    · rintro ⟨h0, h⟩
      exact done _ (h3 (hf0.2 (h0 rfl)) (Or.inr (hfi.2 h))).1
    · intro h
      by_cases h0 : NameFree (p.world.swapped p.current) 0 k.name
      · refine fail (h2 h0 rfl fun h' => h ⟨fun _ => hf0.1 h0, hfi.1 h'⟩).1
      · exact fail (h1 h0).1

/-! ### programs -/

theorem taken_nodup (c : Nat) (u : Bool) (o : GOp) : (taken c u o).Nodup := by
  cases o with
  | setUse b => simp [taken]
  | setCurrent i => simp [taken]
  | create name ex => simp only [taken]; split_ifs <;> simp
  | new k =>
    simp only [taken]
    split_ifs with h
    · simp [h.2]
    · simp

theorem run_iff (l : List GOp) : ∀ p : Program, WorldOk p.world →
    (∀ k, GOp.new k ∈ l → k.ow = false) →
    ((p.run l).2 = none ↔ (∀ q ∈ takes p.current p.use l, NameFree p.world q.1 q.2) ∧
      (takes p.current p.use l).Nodup) ∧ ((p.run l).2 = none ∨ (p.run l).2 = some .valueError) := by
  induction l with
  | nil => intro p _ _; simp [Program.run, takes]
  | cons o l ih =>
    intro p hw how
    have how' : ∀ k, GOp.new k ∈ l → k.ow = false := fun k hk => how k (List.mem_cons_of_mem _ hk)
    have key : ∀ (c' : Nat) (u' : Bool),
        takes p.current p.use (o :: l) = taken p.current p.use o ++ takes c' u' l →
        ((∀ q ∈ taken p.current p.use o, NameFree p.world q.1 q.2) →
          ∃ w, p.step o = (⟨w, c', u'⟩, none) ∧ WorldOk w ∧
            ∀ j s, NameFree w j s ↔ NameFree p.world j s ∧ (j, s) ∉ taken p.current p.use o) →
        (¬ (∀ q ∈ taken p.current p.use o, NameFree p.world q.1 q.2) →
          ∃ q, p.step o = (q, some .valueError)) →
        ((p.run (o :: l)).2 = none ↔ (∀ q ∈ takes p.current p.use (o :: l), NameFree p.world q.1 q.2) ∧
          (takes p.current p.use (o :: l)).Nodup) ∧
          ((p.run (o :: l)).2 = none ∨ (p.run (o :: l)).2 = some .valueError) := by
      intro c' u' ht hok hbad
      rw [ht]
      by_cases hfree : ∀ q ∈ taken p.current p.use o, NameFree p.world q.1 q.2
      · obtain ⟨w, e, hw', hn⟩ := hok hfree
        have hr : p.run (o :: l) = (⟨w, c', u'⟩ : Program).run l := by
          rw [Program.run, e]
        rw [hr]
        obtain ⟨i1, i2⟩ := ih ⟨w, c', u'⟩ hw' how'
        refine ⟨?_, i2⟩
        rw [i1, List.nodup_append]
        simp only [hn, List.mem_append]
        constructor
        · rintro ⟨h1, h2⟩
          refine ⟨?_, taken_nodup _ _ _, h2, ?_⟩
          · rintro q (hq | hq)
            · exact hfree q hq
            · exact (h1 q hq).1
          · intro a ha b hb hab
            subst hab
            exact (h1 a hb).2 ha
        · rintro ⟨h1, -, h2, h3⟩
          exact ⟨fun q hq => ⟨h1 q (Or.inr hq), fun hq' => h3 q hq' q hq rfl⟩, h2⟩
      · obtain ⟨q, e⟩ := hbad hfree
        have hr : p.run (o :: l) = (q, some .valueError) := by
          rw [Program.run, e]
        rw [hr]
        refine ⟨?_, Or.inr rfl⟩
        simp only [reduceCtorEq, false_iff, not_and]
        intro h
        exact absurd (fun q hq => h q (List.mem_append_left _ hq)) hfree
    cases o with
    | setUse b =>
      exact key p.current b rfl (fun _ => ⟨p.world, rfl, hw, by simp [taken]⟩)
        (fun h => absurd (by simp [taken]) h)
    | setCurrent i =>
      exact key i p.use rfl (fun _ => ⟨p.world, rfl, hw, by simp [taken]⟩)
        (fun h => absurd (by simp [taken]) h)
    | create name ex =>
      obtain ⟨h1, h2⟩ := create_step p hw name ex
      exact key p.current p.use rfl h1 h2
    | new k =>
      obtain ⟨h1, h2⟩ := new_step p hw k (how k List.mem_cons_self)
      exact key p.current p.use rfl h1 h2

/-- **C84.** A program that creates cells with `Cell` and `new_cell` (without overwriting) in any number
of libraries and assigns `use_current_library` and `gdspy.current_library` in between: it runs to the
end exactly when no library gets the same name twice, where a cell is also put into the library that is
the global one at that moment; otherwise it ends with `ValueError`. -/
theorem C84_settings (l : List GOp) (h : ∀ k, GOp.new k ∈ l → k.ow = false) :
    ((Program.run ⟨emptyWorld, 0, true⟩ l).2 = none ↔ (takes 0 true l).Nodup) ∧
    ((Program.run ⟨emptyWorld, 0, true⟩ l).2 = none ∨
      (Program.run ⟨emptyWorld, 0, true⟩ l).2 = some .valueError) := by
  obtain ⟨h1, h2⟩ := run_iff l ⟨emptyWorld, 0, true⟩ emptyWorld_ok h
  refine ⟨?_, h2⟩
  rw [h1]
  simp [NameFree, emptyWorld]

theorem run_names (l : List GOp) : ∀ p : Program, WorldOk p.world →
    (∀ k, GOp.new k ∈ l → k.ow = false) → (p.run l).2 = none →
    ∀ j s, NameFree (p.run l).1.world j s ↔
      NameFree p.world j s ∧ (j, s) ∉ takes p.current p.use l := by
  induction l with
  | nil => intro p _ _ _ j s; simp [Program.run, takes]
  | cons o l ih =>
    intro p hw how hnone
    have how' : ∀ k, GOp.new k ∈ l → k.ow = false := fun k hk => how k (List.mem_cons_of_mem _ hk)
    have key : ∀ (c' : Nat) (u' : Bool),
        takes p.current p.use (o :: l) = taken p.current p.use o ++ takes c' u' l →
        ((∀ q ∈ taken p.current p.use o, NameFree p.world q.1 q.2) →
          ∃ w, p.step o = (⟨w, c', u'⟩, none) ∧ WorldOk w ∧
            ∀ j s, NameFree w j s ↔ NameFree p.world j s ∧ (j, s) ∉ taken p.current p.use o) →
        ∀ j s, NameFree (p.run (o :: l)).1.world j s ↔
          NameFree p.world j s ∧ (j, s) ∉ takes p.current p.use (o :: l) := by
      intro c' u' ht hok j s
      have hfree := ((run_iff (o :: l) p hw how).1.1 hnone).1
      rw [ht] at hfree ⊢
      obtain ⟨w, e, hw', hn⟩ := hok fun q hq => hfree q (List.mem_append_left _ hq)
      have hr : p.run (o :: l) = (⟨w, c', u'⟩ : Program).run l := by
        rw [Program.run, e]
      rw [hr] at hnone ⊢
      rw [ih ⟨w, c', u'⟩ hw' how' hnone j s]
      simp only [hn, List.mem_append]
      tauto
    cases o with
    | setUse b => exact key p.current b rfl (fun _ => ⟨p.world, rfl, hw, by simp [taken]⟩)
    | setCurrent i => exact key i p.use rfl (fun _ => ⟨p.world, rfl, hw, by simp [taken]⟩)
    | create name ex => exact key p.current p.use rfl (create_step p hw name ex).1
    | new k => exact key p.current p.use rfl (new_step p hw k (how k List.mem_cons_self)).1

/-- **C84.** When such a program has run to the end, every library has exactly the names that it got. -/
theorem C84_settings_names (l : List GOp) (h : ∀ k, GOp.new k ∈ l → k.ow = false)
    (hend : (takes 0 true l).Nodup) (j : Nat) (s : Str) :
    (∃ q ∈ (Program.run ⟨emptyWorld, 0, true⟩ l).1.world.libs j, q.1 = s) ↔ (j, s) ∈ takes 0 true l := by
  have := run_names l ⟨emptyWorld, 0, true⟩ emptyWorld_ok h ((C84_settings l h).1.2 hend) j s
  have he : NameFree emptyWorld j s := by simp [NameFree, emptyWorld]
  simp only [he, true_and] at this
  rw [← not_iff_not, ← this]
  unfold NameFree
  push Not
  rfl

/-- **C84.** With the default setting, a program that makes each library the global one before it creates
cells in it runs to the end exactly when no library is asked twice for the same name: the libraries are
then independent, as with `use_current_library` false. -/
theorem C84_current_follows (l : List NewCall) (h : ∀ k ∈ l, k.ow = false) :
    (Program.run ⟨emptyWorld, 0, true⟩ (l.flatMap fun k => [.setCurrent k.lib, .new k])).2 = none ↔
      (l.map fun k => (k.lib, k.name)).Nodup := by
  rw [(C84_settings _ ?_).1]
  · have : ∀ c, takes c true (l.flatMap fun k => [.setCurrent k.lib, .new k])
        = l.map fun k => (k.lib, k.name) := by
      induction l with
      | nil => intro c; rfl
      | cons k l ih =>
        intro c
        have ih := ih (fun x hx => h x (List.mem_cons_of_mem _ hx)) k.lib
        simp [takes, taken, ih]
    rw [this]
  · intro k hk
    rw [List.mem_flatMap] at hk
    obtain ⟨k', hk', hm⟩ := hk
    simp only [List.mem_cons, reduceCtorEq, GOp.new.injEq, List.not_mem_nil, or_false, false_or] at hm
    subst hm
    exact h k hk'

/-- A program with the same name in two libraries, the second time after the assignment of
`gdspy.current_library`; and one without it. -/
example : (takes 0 true [.new ⟨1, ['A'], false, true⟩, .setCurrent 2, .new ⟨2, ['A'], false, true⟩]).Nodup ∧
    ¬ (takes 0 true [.new ⟨1, ['A'], false, true⟩, .new ⟨2, ['A'], false, true⟩]).Nodup := by
  constructor <;> decide

end Gdspy
