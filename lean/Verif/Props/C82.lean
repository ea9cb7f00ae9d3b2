import Verif.Spec.Viewer

/-!
# C82: the stacking order of the layers in the viewer
-/

namespace Gdspy

open Spec

section

variable {α : Type} [DecidableEq α]

/-- From bottom to top the items of the layers in the list follow the order of the list. -/
def Spec.Stacked (layers : List α) (items : List (α × Nat)) : Prop :=
  items.Pairwise fun i j => i.1 ∈ layers → j.1 ∈ layers → layers.idxOf i.1 ≤ layers.idxOf j.1

/-- The items of each layer are the same, in the same order. -/
def Spec.SameItems (a b : List (α × Nat)) : Prop :=
  ∀ c, a.filter (fun i => i.1 = c) = b.filter (fun i => i.1 = c)

theorem idxOf_split {l1 : List α} {a b : α} {l2 : List α} (h : (l1 ++ a :: b :: l2).Nodup) :
    (l1 ++ a :: b :: l2).idxOf a = l1.length ∧ (l1 ++ a :: b :: l2).idxOf b = l1.length + 1 ∧ a ≠ b := by
  have h' := List.nodup_append.1 h
  have ha : a ∉ l1 := fun hm => h'.2.2 a hm a (by simp) rfl
  have hb : b ∉ l1 := fun hm => h'.2.2 b hm b (by simp) rfl
  have hab : a ≠ b := fun e => (List.nodup_cons.1 h'.2.1).1 (by simp [e])
  refine ⟨?_, ?_, hab⟩
  · rw [List.idxOf_append_of_notMem ha]; simp
  · rw [List.idxOf_append_of_notMem hb, List.idxOf_cons_ne _ hab]; simp

omit [DecidableEq α] in
theorem nodup_swap {l1 : List α} {a b : α} {l2 : List α} (h : (l1 ++ a :: b :: l2).Nodup) :
    (l1 ++ b :: a :: l2).Nodup :=
  (List.Perm.nodup_iff (List.Perm.append_left l1 (List.Perm.swap a b l2))).2 h

theorem idxOf_other {l1 : List α} {a b c : α} {l2 : List α} (h1 : c ≠ a) (h2 : c ≠ b) :
    (l1 ++ b :: a :: l2).idxOf c = (l1 ++ a :: b :: l2).idxOf c := by
  by_cases hc : c ∈ l1
  · rw [List.idxOf_append_of_mem hc, List.idxOf_append_of_mem hc]
  · rw [List.idxOf_append_of_notMem hc, List.idxOf_append_of_notMem hc, List.idxOf_cons_ne _ (Ne.symm h2),
      List.idxOf_cons_ne _ (Ne.symm h1), List.idxOf_cons_ne _ (Ne.symm h1), List.idxOf_cons_ne _ (Ne.symm h2)]

omit [DecidableEq α] in
theorem mem_swap {l1 : List α} {a b c : α} {l2 : List α} : c ∈ l1 ++ b :: a :: l2 ↔ c ∈ l1 ++ a :: b :: l2 := by
  simp only [List.mem_append, List.mem_cons]
  tauto

/-- Where the raised items go. -/
theorem tagRaise_split {a b : α} (hab : a ≠ b) {items : List (α × Nat)} (hb : ∃ i ∈ items, i.1 = b) :
    ∃ pre x post, items.filter (fun i => i.1 ≠ a) = pre ++ x :: post ∧ x.1 = b ∧ (∀ i ∈ post, i.1 ≠ b) ∧
      tagRaise a b items = pre ++ [x] ++ items.filter (fun i => i.1 = a) ++ post := by
  have hr : ∃ i ∈ items.filter (fun i => i.1 ≠ a), i.1 = b := by
    obtain ⟨i, hi, e⟩ := hb
    exact ⟨i, List.mem_filter.2 ⟨hi, by simpa [e] using Ne.symm hab⟩, e⟩
  unfold tagRaise
  generalize items.filter (fun i => i.1 ≠ a) = rest at hr
  have key : ∀ rest : List (α × Nat), (∃ i ∈ rest, i.1 = b) → ∃ pre x post, rest = pre ++ x :: post ∧ x.1 = b ∧
      ∀ i ∈ post, i.1 ≠ b := by
    intro rest
    induction rest with
    | nil => rintro ⟨i, hi, -⟩; simp at hi
    | cons y rest ih =>
      rintro ⟨i, hi, e⟩
      by_cases hm : ∃ i ∈ rest, i.1 = b
      · obtain ⟨pre, x, post, rfl, h1, h2⟩ := ih hm
        exact ⟨y :: pre, x, post, rfl, h1, h2⟩
      · rcases List.mem_cons.1 hi with rfl | hi
        · exact ⟨[], i, rest, rfl, e, fun j hj h => hm ⟨j, hj, h⟩⟩
        · exact absurd ⟨i, hi, e⟩ hm
  obtain ⟨pre, x, post, rfl, h1, h2⟩ := key rest hr
  refine ⟨pre, x, post, rfl, h1, h2, ?_⟩
  have ht : (pre ++ x :: post).reverse.takeWhile (fun i => decide (i.1 ≠ b)) = post.reverse := by
    have e : (pre ++ x :: post).reverse = post.reverse ++ x :: pre.reverse := by simp
    rw [e, List.takeWhile_append_of_pos (by simpa using fun a b h => h2 (a, b) h)]
    simp [h1]
  simp only [ht]
  have hk : (pre ++ x :: post).length - post.reverse.length = (pre ++ [x]).length := by simp; omega
  rw [hk]
  have e : pre ++ x :: post = (pre ++ [x]) ++ post := by simp
  rw [e, List.take_left, List.drop_left]

theorem tagRaise_same {a b : α} (hab : a ≠ b) {items : List (α × Nat)} (hb : ∃ i ∈ items, i.1 = b) :
    SameItems (tagRaise a b items) items := by
  obtain ⟨pre, x, post, e, -, -, ht⟩ := tagRaise_split hab hb
  intro c
  have hf : ∀ l : List (α × Nat), (l.filter fun i => i.1 ≠ a).filter (fun i => i.1 = c)
      = if c = a then [] else l.filter fun i => i.1 = c := by
    intro l
    rw [List.filter_filter]
    split
    · rename_i h
      rw [List.filter_eq_nil_iff]
      simp [h]
    · rename_i h
      apply List.filter_congr
      intro i _
      by_cases hi : i.1 = c
      · simp [hi, h]
      · simp [hi]
  have hm : ((items.filter fun i => i.1 = a).filter fun i => i.1 = c)
      = if c = a then items.filter (fun i => i.1 = c) else [] := by
    rw [List.filter_filter]
    split
    · rename_i h
      subst h
      simp
    · rename_i h
      rw [List.filter_eq_nil_iff]
      intro i _
      by_cases hi : i.1 = c
      · simp [hi, h]
      · simp [hi]
  have h1 := hf items
  rw [e] at h1
  rw [ht, List.filter_append, List.filter_append, hm]
  have e2 : pre ++ x :: post = (pre ++ [x]) ++ post := by simp
  rw [e2, List.filter_append] at h1
  split
  · rename_i h
    rw [if_pos h, List.append_eq_nil_iff] at h1
    rw [h1.1, h1.2]
    simp
  · rename_i h
    rw [if_neg h] at h1
    rw [← h1]
    simp

theorem tagRaise_stacked {l1 l2 : List α} {a b : α} (hn : (l1 ++ a :: b :: l2).Nodup) {items : List (α × Nat)}
    (hb : ∃ i ∈ items, i.1 = b) (hs : Stacked (l1 ++ a :: b :: l2) items) :
    Stacked (l1 ++ b :: a :: l2) (tagRaise a b items) := by
  obtain ⟨ia, ib, hab⟩ := idxOf_split hn
  obtain ⟨jb, ja, -⟩ := idxOf_split (nodup_swap hn)
  obtain ⟨pre, x, post, e, hx, hpost, ht⟩ := tagRaise_split hab hb
  have hrest : Stacked (l1 ++ a :: b :: l2) (pre ++ x :: post) := by
    rw [← e]
    exact List.Pairwise.sublist List.filter_sublist hs
  have hne : ∀ i ∈ pre ++ x :: post, i.1 ≠ a := by
    intro i hi
    rw [← e] at hi
    simpa using (List.mem_filter.1 hi).2
  have hmem_b : b ∈ l1 ++ a :: b :: l2 := by simp
  unfold Stacked at hrest ⊢
  rw [List.pairwise_append, List.pairwise_cons] at hrest
  obtain ⟨hp, ⟨hxp, hpp⟩, hcross⟩ := hrest
  -- comparing two layers other than the raised one
  have conv : ∀ c d : α, c ≠ a → d ≠ a → c ∈ l1 ++ a :: b :: l2 → d ∈ l1 ++ a :: b :: l2 →
      (l1 ++ a :: b :: l2).idxOf c ≤ (l1 ++ a :: b :: l2).idxOf d →
      (l1 ++ b :: a :: l2).idxOf c ≤ (l1 ++ b :: a :: l2).idxOf d := by
    intro c d hc hd mc md h
    have hcase : ∀ y, y ≠ a → y ≠ b → y ∈ l1 ++ a :: b :: l2 → (l1 ++ a :: b :: l2).idxOf y ≠ l1.length := by
      intro y h1 _ my hy
      apply h1
      have := (List.idxOf_inj my).1 (hy.trans ia.symm)
      exact this
    by_cases h1 : c = b
    · subst h1
      by_cases h2 : d = c
      · rw [h2]
      · rw [jb, idxOf_other hd h2]
        rw [ib] at h
        omega
    · by_cases h2 : d = b
      · subst h2
        rw [jb, idxOf_other hc h1]
        rw [ib] at h
        have h3 := hcase c hc h1 mc
        have h4 : (l1 ++ a :: d :: l2).idxOf c ≠ l1.length + 1 := by
          intro hy
          exact h1 ((List.idxOf_inj mc).1 (hy.trans ib.symm))
        omega
      · rw [idxOf_other hc h1, idxOf_other hd h2]
        exact h
  have hlow : ∀ i ∈ pre ++ [x], i.1 ∈ l1 ++ a :: b :: l2 → (l1 ++ b :: a :: l2).idxOf i.1 ≤ l1.length := by
    intro i hi mi
    have hia : i.1 ≠ a := hne i (by
      rcases List.mem_append.1 hi with h | h
      · exact List.mem_append_left _ h
      · rw [List.mem_singleton] at h; rw [h]; simp)
    rw [← jb]
    apply conv _ _ hia (Ne.symm hab) mi hmem_b
    rcases List.mem_append.1 hi with h | h
    · have := hcross i h x List.mem_cons_self mi (by rw [hx]; exact hmem_b)
      rwa [hx] at this
    · rw [List.mem_singleton] at h
      rw [h, hx]
  have hhigh : ∀ i ∈ post, i.1 ∈ l1 ++ a :: b :: l2 → l1.length + 1 ≤ (l1 ++ b :: a :: l2).idxOf i.1 := by
    intro i hi mi
    have := hxp i hi (by rw [hx]; exact hmem_b) mi
    rw [hx, ib] at this
    rw [idxOf_other (hne i (by simp [hi])) (hpost i hi)]
    exact this
  rw [ht, List.pairwise_append, List.pairwise_append]
  refine ⟨⟨?_, ?_, ?_⟩, ?_, ?_⟩
  · rw [List.pairwise_append]
    refine ⟨?_, by simp, ?_⟩
    · refine List.Pairwise.imp_of_mem ?_ hp
      intro i j hi hj h mi mj
      exact conv _ _ (hne i (by simp [hi])) (hne j (by simp [hj])) (mem_swap.1 mi) (mem_swap.1 mj)
        (h (mem_swap.1 mi) (mem_swap.1 mj))
    · intro i hi j hj mi mj
      rw [List.mem_singleton] at hj
      subst hj
      exact conv _ _ (hne i (by simp [hi])) (hne j (by simp)) (mem_swap.1 mi) (mem_swap.1 mj)
        (hcross i hi j List.mem_cons_self (mem_swap.1 mi) (mem_swap.1 mj))
  · apply List.pairwise_of_forall_mem_list
    intro i hi j hj _ _
    have h1 : i.1 = a := by simpa using (List.mem_filter.1 hi).2
    have h2 : j.1 = a := by simpa using (List.mem_filter.1 hj).2
    rw [h1, h2]
  · intro i hi j hj mi mj
    have h2 : j.1 = a := by simpa using (List.mem_filter.1 hj).2
    rw [h2, ja]
    exact (hlow i hi (mem_swap.1 mi)).trans (Nat.le_succ _)
  · refine List.Pairwise.imp_of_mem ?_ hpp
    intro i j hi hj h mi mj
    exact conv _ _ (hne i (by simp [hi])) (hne j (by simp [hj])) (mem_swap.1 mi) (mem_swap.1 mj)
      (h (mem_swap.1 mi) (mem_swap.1 mj))
  · intro i hi j hj mi mj
    have hj' := hhigh j hj (mem_swap.1 mj)
    rcases List.mem_append.1 hi with hi | hi
    · exact (hlow i hi (mem_swap.1 mi)).trans (by omega)
    · have h1 : i.1 = a := by simpa using (List.mem_filter.1 hi).2
      rw [h1, ja]
      exact hj'

theorem raise_eq {l1 l2 : List α} {a b : α} (hn : (l1 ++ a :: b :: l2).Nodup) (items : List (α × Nat)) :
    raiseLayer a (l1 ++ a :: b :: l2, items) = (l1 ++ b :: a :: l2, tagRaise a b items) := by
  obtain ⟨ia, -, -⟩ := idxOf_split hn
  have h2 : (l1 ++ a :: b :: l2)[l1.length]? = some a := by simp
  have h3 : (l1 ++ a :: b :: l2)[l1.length + 1]? = some b := by simp
  simp only [raiseLayer, ia, h2, h3]
  simp [swapAt]

theorem lower_eq {l1 l2 : List α} {a b : α} (hn : (l1 ++ a :: b :: l2).Nodup) (items : List (α × Nat)) :
    lowerLayer b (l1 ++ a :: b :: l2, items) = (l1 ++ b :: a :: l2, tagRaise a b items) := by
  obtain ⟨-, ib, -⟩ := idxOf_split hn
  have h2 : (l1 ++ a :: b :: l2)[l1.length]? = some a := by simp
  have h3 : (l1 ++ a :: b :: l2)[l1.length + 1]? = some b := by simp
  simp only [lowerLayer, ib, Nat.add_sub_cancel, h2, h3]
  simp [swapAt]

/-! ## The property -/

/-- The arrow up on a layer exchanges it with the next one in the list, and the drawing follows. -/
theorem C82_raise {l1 l2 : List α} {a b : α} (hn : (l1 ++ a :: b :: l2).Nodup) {items : List (α × Nat)}
    (hb : ∃ i ∈ items, i.1 = b) (hs : Stacked (l1 ++ a :: b :: l2) items) :
    ∃ items', raiseLayer a (l1 ++ a :: b :: l2, items) = (l1 ++ b :: a :: l2, items') ∧
      Stacked (l1 ++ b :: a :: l2) items' ∧ SameItems items' items :=
  ⟨_, raise_eq hn items, tagRaise_stacked hn hb hs, tagRaise_same (idxOf_split hn).2.2 hb⟩

/-- The arrow down on the layer above does the same. -/
theorem C82_lower {l1 l2 : List α} {a b : α} (hn : (l1 ++ a :: b :: l2).Nodup) {items : List (α × Nat)}
    (hb : ∃ i ∈ items, i.1 = b) (hs : Stacked (l1 ++ a :: b :: l2) items) :
    ∃ items', lowerLayer b (l1 ++ a :: b :: l2, items) = (l1 ++ b :: a :: l2, items') ∧
      Stacked (l1 ++ b :: a :: l2) items' ∧ SameItems items' items :=
  ⟨_, lower_eq hn items, tagRaise_stacked hn hb hs, tagRaise_same (idxOf_split hn).2.2 hb⟩

/-- At the ends of the list the arrows have no effect. -/
theorem C82_ends {l : List α} {a : α} (h : a ∉ l) (items : List (α × Nat)) :
    raiseLayer a (l ++ [a], items) = (l ++ [a], items) ∧ lowerLayer a (a :: l, items) = (a :: l, items) := by
  constructor
  · have : (l ++ [a]).idxOf a = l.length := by rw [List.idxOf_append_of_notMem h]; simp
    simp [raiseLayer, this]
  · simp [lowerLayer]

/-- A drawing is known from its layers: what is stacked in the same order is the same. -/
theorem stacked_unique {layers : List α} : ∀ {a b : List (α × Nat)}, (∀ i ∈ a, i.1 ∈ layers) →
    Stacked layers a → Stacked layers b → SameItems a b → a = b := by
  intro a
  induction a with
  | nil =>
    intro b _ _ _ h
    cases b with
    | nil => rfl
    | cons y b =>
      have := h y.1
      simp at this
  | cons x a ih =>
    intro b hm ha hb h
    cases b with
    | nil =>
      have := h x.1
      simp at this
    | cons y b =>
      have hmem : ∀ i, i ∈ x :: a ↔ i ∈ y :: b := by
        intro i
        have : i ∈ (x :: a).filter (fun j => j.1 = i.1) ↔ i ∈ (y :: b).filter (fun j => j.1 = i.1) := by rw [h i.1]
        simpa [List.mem_filter] using this
      have mx : x.1 ∈ layers := hm x List.mem_cons_self
      have my : y.1 ∈ layers := hm y ((hmem y).2 List.mem_cons_self)
      have h1 : layers.idxOf x.1 ≤ layers.idxOf y.1 := by
        rcases List.mem_cons.1 ((hmem y).2 List.mem_cons_self) with e | e
        · rw [e]
        · exact (List.pairwise_cons.1 ha).1 y e mx my
      have h2 : layers.idxOf y.1 ≤ layers.idxOf x.1 := by
        rcases List.mem_cons.1 ((hmem x).1 List.mem_cons_self) with e | e
        · rw [e]
        · exact (List.pairwise_cons.1 hb).1 x e my mx
      have he : x.1 = y.1 := (List.idxOf_inj mx).1 (Nat.le_antisymm h1 h2)
      have hxy : x = y := by
        have := h x.1
        simp only [List.filter_cons, he, decide_true, if_true] at this
        exact (List.cons.inj this).1
      subst hxy
      rw [ih (fun i hi => hm i (List.mem_cons_of_mem _ hi)) (List.pairwise_cons.1 ha).2 (List.pairwise_cons.1 hb).2]
      intro c
      have := h c
      simp only [List.filter_cons] at this
      split at this
      · exact (List.cons.inj this).2
      · exact this

/-- Lowering a layer undoes raising it, in the list and in the drawing. -/
theorem C82_undo {l1 l2 : List α} {a b : α} (hn : (l1 ++ a :: b :: l2).Nodup) {items : List (α × Nat)}
    (ha : ∃ i ∈ items, i.1 = a) (hb : ∃ i ∈ items, i.1 = b) (hs : Stacked (l1 ++ a :: b :: l2) items)
    (hall : ∀ i ∈ items, i.1 ∈ l1 ++ a :: b :: l2) :
    lowerLayer a (raiseLayer a (l1 ++ a :: b :: l2, items)) = (l1 ++ a :: b :: l2, items) := by
  have hab := (idxOf_split hn).2.2
  rw [raise_eq hn, lower_eq (nodup_swap hn)]
  have hsame := tagRaise_same hab hb
  have ha' : ∃ i ∈ tagRaise a b items, i.1 = a := by
    obtain ⟨i, hi, e⟩ := ha
    have : i ∈ items.filter (fun i => i.1 = a) := List.mem_filter.2 ⟨hi, by simpa using e⟩
    rw [← hsame a] at this
    exact ⟨i, (List.mem_filter.1 this).1, e⟩
  congr 1
  symm
  refine stacked_unique hall hs (tagRaise_stacked (nodup_swap hn) ha' (tagRaise_stacked hn hb hs)) ?_
  intro c
  rw [tagRaise_same (Ne.symm hab) ha' c, hsame c]

/-- The viewer draws the layers in the order of the list. -/
theorem C82_drawn {layers : List α} (hn : layers.Nodup) (content : α → List Nat) :
    Stacked layers (drawItems layers content) ∧
      ∀ l ∈ layers, (drawItems layers content).filter (fun i => i.1 = l) = (content l).map fun i => (l, i) := by
  have hmem : ∀ (layers : List α) (i : α × Nat), i ∈ drawItems layers content → i.1 ∈ layers := by
    intro layers i hi
    simp only [drawItems, List.mem_flatMap, List.mem_map] at hi
    obtain ⟨l, hl, n, -, rfl⟩ := hi
    exact hl
  constructor
  · unfold Stacked
    induction layers with
    | nil => exact List.Pairwise.nil
    | cons l layers ih =>
      rw [List.nodup_cons] at hn
      have e : drawItems (l :: layers) content = ((content l).map fun i => (l, i)) ++ drawItems layers content := rfl
      rw [e, List.pairwise_append]
      refine ⟨?_, ?_, ?_⟩
      · rw [List.pairwise_map]
        exact List.pairwise_of_forall fun _ _ _ _ => le_rfl
      · refine List.Pairwise.imp_of_mem ?_ (ih hn.2)
        intro i j hi hj h _ _
        have mi := hmem _ _ hi
        have mj := hmem _ _ hj
        rw [List.idxOf_cons_ne _ (fun (e : l = i.1) => hn.1 (e ▸ mi)), List.idxOf_cons_ne _ (fun (e : l = j.1) => hn.1 (e ▸ mj))]
        exact Nat.succ_le_succ (h mi mj)
      · intro i hi j _ _ _
        simp only [List.mem_map] at hi
        obtain ⟨n, -, rfl⟩ := hi
        simp
  · induction layers with
    | nil => simp
    | cons l layers ih =>
      rw [List.nodup_cons] at hn
      have e : drawItems (l :: layers) content = ((content l).map fun i => (l, i)) ++ drawItems layers content := rfl
      intro c hc
      rw [e, List.filter_append]
      rcases List.mem_cons.1 hc with rfl | hc
      · have h2 : (drawItems layers content).filter (fun i => decide (i.1 = c)) = [] := by
          rw [List.filter_eq_nil_iff]
          intro i hi h
          exact hn.1 ((by simpa using h : i.1 = c) ▸ hmem _ _ hi)
        rw [h2, List.append_nil, List.filter_eq_self]
        simp
      · have h1 : ((content l).map fun i => (l, i)).filter (fun i => decide (i.1 = c)) = [] := by
          rw [List.filter_eq_nil_iff]
          intro i hi h
          simp only [List.mem_map] at hi
          obtain ⟨n, -, rfl⟩ := hi
          exact hn.1 ((by simpa using h : l = c) ▸ hc)
        rw [h1, List.nil_append, ih hn.2 c hc]

/-- After any clicks on arrows, the drawing is stacked as the list says: it has the items that were drawn,
and the list has the same layers. -/
theorem C82_always {layers : List α} (hn : layers.Nodup) {content : α → List Nat} (hc : ∀ l ∈ layers, content l ≠ [])
    {clicks : List (Bool × α)} (hk : ∀ c ∈ clicks, c.2 ∈ layers) :
    let s := clicks.foldl arrowClick (layers, drawItems layers content)
    s.1.Perm layers ∧ Stacked s.1 s.2 ∧ SameItems s.2 (drawItems layers content) := by
  have key : ∀ (clicks : List (Bool × α)) (s : List α × List (α × Nat)), (∀ c ∈ clicks, c.2 ∈ s.1) → s.1.Nodup →
      (∀ l ∈ s.1, ∃ i ∈ s.2, i.1 = l) → Stacked s.1 s.2 →
      (clicks.foldl arrowClick s).1.Perm s.1 ∧ Stacked (clicks.foldl arrowClick s).1 (clicks.foldl arrowClick s).2 ∧
        SameItems (clicks.foldl arrowClick s).2 s.2 := by
    intro clicks
    induction clicks with
    | nil => intro s _ _ _ h; exact ⟨List.Perm.refl _, h, fun _ => rfl⟩
    | cons c clicks ih =>
      rintro ⟨ls, items⟩ hk hn hi hs
      have step : (arrowClick (ls, items) c).1.Perm ls ∧ Stacked (arrowClick (ls, items) c).1 (arrowClick (ls, items) c).2 ∧
          SameItems (arrowClick (ls, items) c).2 items := by
        obtain ⟨l1, l2, hl⟩ := List.append_of_mem (hk c List.mem_cons_self)
        simp only at hl
        obtain ⟨up, a⟩ := c
        simp only at hl
        subst hl
        simp only at hn hi hs
        have ha : a ∉ l1 ∧ a ∉ l2 := by
          have h' := List.nodup_append.1 hn
          exact ⟨fun hm => h'.2.2 a hm a (by simp) rfl, (List.nodup_cons.1 h'.2.1).1⟩
        cases up with
        | true =>
          simp only [arrowClick, if_true]
          cases l2 with
          | nil =>
            rw [(C82_ends ha.1 items).1]
            exact ⟨List.Perm.refl _, hs, fun _ => rfl⟩
          | cons b l2 =>
            rw [raise_eq hn]
            have hb := hi b (by simp)
            exact ⟨List.Perm.append_left l1 (List.Perm.swap a b l2), tagRaise_stacked hn hb hs,
              tagRaise_same (idxOf_split hn).2.2 hb⟩
        | false =>
          simp only [arrowClick, Bool.false_eq_true, if_false]
          rcases List.eq_nil_or_concat l1 with rfl | ⟨l1, b, rfl⟩
          · rw [List.nil_append, (C82_ends ha.2 items).2]
            exact ⟨List.Perm.refl _, hs, fun _ => rfl⟩
          · have e : l1.concat b ++ a :: l2 = l1 ++ b :: a :: l2 := by simp
            rw [e] at hn hi hs ⊢
            rw [lower_eq hn]
            have hb := hi a (by simp)
            exact ⟨List.Perm.append_left l1 (List.Perm.swap b a l2), tagRaise_stacked hn hb hs,
              tagRaise_same (idxOf_split hn).2.2 hb⟩
      have hi' : ∀ l ∈ (arrowClick (ls, items) c).1, ∃ i ∈ (arrowClick (ls, items) c).2, i.1 = l := by
        intro l hl
        obtain ⟨i, hi', e⟩ := hi l (step.1.mem_iff.1 hl)
        have : i ∈ items.filter (fun i => i.1 = l) := List.mem_filter.2 ⟨hi', by simpa using e⟩
        rw [← step.2.2 l] at this
        exact ⟨i, (List.mem_filter.1 this).1, e⟩
      obtain ⟨h1, h2, h3⟩ := ih (arrowClick (ls, items) c)
        (fun d hd => step.1.mem_iff.2 (hk d (List.mem_cons_of_mem _ hd))) (step.1.nodup_iff.2 hn) hi' step.2.1
      exact ⟨h1.trans step.1, h2, fun c => (h3 c).trans (step.2.2 c)⟩
  refine key clicks (layers, drawItems layers content) hk hn ?_ (C82_drawn hn content).1
  intro l hl
  obtain ⟨n, hn'⟩ := List.exists_mem_of_ne_nil _ (hc l hl)
  exact ⟨(l, n), List.mem_flatMap.2 ⟨l, hl, List.mem_map.2 ⟨n, hn', rfl⟩⟩, rfl⟩

end

/-- Three layers with two, one and one items; the first goes up twice. -/
example : [(true, 'a'), (true, 'a')].foldl arrowClick
    (['a', 'b', 'c'], drawItems ['a', 'b', 'c'] fun l => if l = 'a' then [1, 2] else [7])
    = (['b', 'c', 'a'], [('b', 7), ('c', 7), ('a', 1), ('a', 2)]) := by decide

end Gdspy
