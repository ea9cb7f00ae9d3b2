import Verif.Model.PropFlow
import Mathlib.Data.List.Nodup
import Mathlib.Tactic.Ring

/-!
# C100: Properties of elements are kept when a hierarchy is flattened

A step into a reference is its place in the list of references with a column and a row. A way from a cell is a list of steps. The
specification says to which cell a way leads; elements must be returned once for every way, with the properties they have there.
-/

namespace Gdspy

/-! ### Specification -/

/-- The references of a cell as a list. -/
def PRefs.toList : PRefs → List (Option (Int × Int) × Properties × (PCell ⊕ Str))
  | .nil => []
  | .cell a p c rest => (a, p, .inl c) :: rest.toList
  | .name a p s rest => (a, p, .inr s) :: rest.toList

def PCell.references : PCell → PRefs
  | .mk _ _ _ r => r

namespace Spec

/-- The reference puts a copy of the cell at this column and row; a single reference has one of each. -/
def HasCopy (array : Option (Int × Int)) (column row : Nat) : Prop :=
  match array with
  | none => column = 0 ∧ row = 0
  | some (columns, rows) => (column : Int) < columns ∧ (row : Int) < rows

/-- The way leads from the first cell to the second. -/
inductive Leads : PCell → List (Nat × Nat × Nat) → PCell → Prop
  | here (c : PCell) : Leads c [] c
  | step (c d e : PCell) (i column row : Nat) (array : Option (Int × Int)) (p : Properties)
      (w : List (Nat × Nat × Nat)) (h : c.references.toList[i]? = some (array, p, .inl d))
      (hc : HasCopy array column row) (hw : Leads d w e) : Leads c ((i, column, row) :: w) e

/-- The way does not go deeper than asked for; depths below zero count as zero. -/
def Shallow (depth : Option Int) (w : List (Nat × Nat × Nat)) : Prop :=
  ∀ d, depth = some d → w = [] ∨ (w.length : Int) ≤ d

end Spec

open Spec

/-! ### All ways -/

/-- The columns and rows of a reference in the order of the loops. -/
def arraySteps (array : Option (Int × Int)) : List (Nat × Nat) :=
  match array with
  | none => [(0, 0)]
  | some (columns, rows) =>
    (List.range columns.toNat).flatMap fun a => (List.range rows.toNat).map fun b => (a, b)

mutual
/-- All ways from a cell. -/
def PCell.ways (depth : Option Int) : PCell → List (List (Nat × Nat × Nat) × PCell)
  | .mk a b c refs =>
    ([], .mk a b c refs) :: if deeper depth then PRefs.ways (depth.map fun d => d - 1) 0 refs else []

def PRefs.ways (depth : Option Int) (i : Nat) : PRefs → List (List (Nat × Nat × Nat) × PCell)
  | .nil => []
  | .cell array _ c rest =>
    ((arraySteps array).flatMap fun s => (PCell.ways depth c).map fun w => ((i, s.1, s.2) :: w.1, w.2))
      ++ PRefs.ways depth (i + 1) rest
  | .name _ _ _ rest => PRefs.ways depth (i + 1) rest
end

theorem mem_arraySteps (array : Option (Int × Int)) (s : Nat × Nat) :
    s ∈ arraySteps array ↔ HasCopy array s.1 s.2 := by
  obtain ⟨x, y⟩ := s
  rcases array with _ | ⟨columns, rows⟩
  · simp [arraySteps, HasCopy]
  · simp only [arraySteps, HasCopy, List.mem_flatMap, List.mem_range, List.mem_map, Prod.mk.injEq]
    constructor
    · rintro ⟨a, ha, b, hb, rfl, rfl⟩
      omega
    · rintro ⟨h1, h2⟩
      exact ⟨x, by omega, y, by omega, rfl, rfl⟩

theorem nodup_arraySteps (array : Option (Int × Int)) : (arraySteps array).Nodup := by
  rcases array with _ | ⟨columns, rows⟩
  · simp [arraySteps]
  · rw [arraySteps, List.nodup_flatMap]
    refine ⟨fun a _ => List.nodup_range.map fun b b' h => (Prod.mk.inj h).2, ?_⟩
    refine List.nodup_range.imp ?_
    intro a a' hne p hp hp'
    obtain ⟨b, -, rfl⟩ := List.mem_map.1 hp
    obtain ⟨b', -, h⟩ := List.mem_map.1 hp'
    exact hne (Prod.mk.inj h).1.symm

theorem placedProps_steps (array : Option (Int × Int)) (l : List Properties) :
    placedProps array l = (arraySteps array).flatMap fun _ => l := by
  rcases array with _ | ⟨columns, rows⟩
  · simp [placedProps, arraySteps]
  · simp only [placedProps, arraySteps, List.flatMap_assoc, List.flatMap_map]

mutual
theorem PCell.get_ways (k : ElKind) : ∀ (c : PCell) (depth : Option Int),
    c.get k depth = (c.ways depth).flatMap fun w => w.2.own k
  | .mk a b c refs, depth => by
    rw [PCell.get, PCell.ways, List.flatMap_cons]
    congr 1
    split_ifs
    · exact PRefs.get_ways k refs _ 0
    · rfl

theorem PRefs.get_ways (k : ElKind) : ∀ (r : PRefs) (depth : Option Int) (i : Nat),
    r.get k depth = (r.ways depth i).flatMap fun w => w.2.own k
  | .nil, _, _ => rfl
  | .cell array p c rest, depth, i => by
    rw [PRefs.get, PRefs.ways, List.flatMap_append, ← PRefs.get_ways k rest depth (i + 1),
      placedProps_steps, PCell.get_ways k c depth, List.flatMap_assoc]
    congr 2
    funext s
    rw [List.flatMap_map]
  | .name array p s rest, depth, i => by
    rw [PRefs.get, PRefs.ways, PRefs.get_ways k rest depth (i + 1)]
end

theorem shallow_nil (depth : Option Int) : Shallow depth [] := fun _ _ => Or.inl rfl

theorem shallow_cons (depth : Option Int) (s : Nat × Nat × Nat) (w : List (Nat × Nat × Nat)) :
    Shallow depth (s :: w) ↔ deeper depth = true ∧ Shallow (depth.map fun d => d - 1) w := by
  cases depth with
  | none => simp [Shallow, deeper]
  | some d =>
    simp only [Shallow, deeper, Option.map_some, Option.some.injEq, forall_eq', List.length_cons,
      decide_eq_true_eq, reduceCtorEq, false_or, Nat.cast_add, Nat.cast_one]
    constructor
    · intro h
      exact ⟨by omega, Or.inr (by omega)⟩
    · rintro ⟨h, rfl | h'⟩
      · simp; omega
      · omega

mutual
theorem PCell.mem_ways : ∀ (c : PCell) (depth : Option Int) (w : List (Nat × Nat × Nat) × PCell),
    w ∈ c.ways depth ↔ Leads c w.1 w.2 ∧ Shallow depth w.1
  | .mk a b c refs, depth, (w, e) => by
    rw [PCell.ways, List.mem_cons]
    constructor
    · rintro (h | h)
      · obtain ⟨rfl, rfl⟩ := Prod.mk.inj h
        exact ⟨.here _, shallow_nil _⟩
      · split_ifs at h with hd
        · obtain ⟨j, x, y, array, p, d, w', rfl, hget, hc, hl, hs⟩ :=
            (PRefs.mem_ways refs _ 0 (w, e)).1 h
          refine ⟨.step _ d e _ x y array p w' ?_ hc hl, (shallow_cons _ _ _).2 ⟨hd, hs⟩⟩
          rw [Nat.zero_add]
          exact hget
        · simp at h
    · rintro ⟨hl, hs⟩
      cases hl with
      | here => exact Or.inl rfl
      | step _ d _ i x y array p w' hget hc hl =>
        obtain ⟨hd, hs⟩ := (shallow_cons _ _ _).1 hs
        right
        rw [if_pos hd]
        refine (PRefs.mem_ways refs _ 0 _).2 ⟨i, x, y, array, p, d, w', ?_, hget, hc, hl, hs⟩
        rw [Nat.zero_add]

theorem PRefs.mem_ways : ∀ (r : PRefs) (depth : Option Int) (i : Nat) (w : List (Nat × Nat × Nat) × PCell),
    w ∈ r.ways depth i ↔ ∃ j x y array p d w', w.1 = (i + j, x, y) :: w' ∧
      r.toList[j]? = some (array, p, .inl d) ∧ HasCopy array x y ∧ Leads d w' w.2 ∧ Shallow depth w'
  | .nil, depth, i, w => by simp [PRefs.ways, PRefs.toList]
  | .cell array p c rest, depth, i, (w, e) => by
    rw [PRefs.ways, List.mem_append, PRefs.mem_ways rest depth (i + 1) (w, e)]
    constructor
    · rintro (h | ⟨j, x, y, array', p', d, w', h1, h2, h3⟩)
      · obtain ⟨s, hs, h⟩ := List.mem_flatMap.1 h
        obtain ⟨v, hv, h⟩ := List.mem_map.1 h
        obtain ⟨rfl, rfl⟩ := Prod.mk.inj h
        obtain ⟨hl, hsh⟩ := (PCell.mem_ways c depth v).1 hv
        exact ⟨0, s.1, s.2, array, p, c, v.1, rfl, rfl, (mem_arraySteps _ _).1 hs, hl, hsh⟩
      · refine ⟨j + 1, x, y, array', p', d, w', ?_, ?_, h3⟩
        · rw [h1, show i + 1 + j = i + (j + 1) by ring]
        · simpa [PRefs.toList] using h2
    · rintro ⟨j, x, y, array', p', d, w', h1, h2, h3, h4, h5⟩
      cases j with
      | zero =>
        left
        simp only [PRefs.toList, List.getElem?_cons_zero, Option.some.injEq, Prod.mk.injEq,
          Sum.inl.injEq] at h2
        obtain ⟨rfl, rfl, rfl⟩ := h2
        refine List.mem_flatMap.2 ⟨(x, y), (mem_arraySteps _ _).2 h3, List.mem_map.2
          ⟨(w', e), (PCell.mem_ways _ depth (w', e)).2 ⟨h4, h5⟩, ?_⟩⟩
        rw [show w = (i + 0, x, y) :: w' from h1]
        rfl
      | succ j =>
        right
        refine ⟨j, x, y, array', p', d, w', ?_, ?_, h3, h4, h5⟩
        · rw [h1, show i + 1 + j = i + (j + 1) by ring]
        · simpa [PRefs.toList] using h2
  | .name array p s rest, depth, i, (w, e) => by
    rw [PRefs.ways, PRefs.mem_ways rest depth (i + 1) (w, e)]
    constructor
    · rintro ⟨j, x, y, array', p', d, w', h1, h2, h3⟩
      refine ⟨j + 1, x, y, array', p', d, w', ?_, ?_, h3⟩
      · rw [h1, show i + 1 + j = i + (j + 1) by ring]
      · simpa [PRefs.toList] using h2
    · rintro ⟨j, x, y, array', p', d, w', h1, h2, h3⟩
      cases j with
      | zero => simp [PRefs.toList] at h2
      | succ j =>
        refine ⟨j, x, y, array', p', d, w', ?_, ?_, h3⟩
        · rw [h1, show i + 1 + j = i + (j + 1) by ring]
        · simpa [PRefs.toList] using h2
end

mutual
theorem PCell.nodup_ways : ∀ (c : PCell) (depth : Option Int), (c.ways depth).Nodup
  | .mk a b c refs, depth => by
    rw [PCell.ways, List.nodup_cons]
    split_ifs
    · refine ⟨?_, PRefs.nodup_ways refs _ 0⟩
      intro h
      obtain ⟨j, x, y, array, p, d, w', h, -⟩ := (PRefs.mem_ways refs _ 0 _).1 h
      exact absurd h (by simp)
    · simp

theorem PRefs.nodup_ways : ∀ (r : PRefs) (depth : Option Int) (i : Nat), (r.ways depth i).Nodup
  | .nil, _, _ => by simp [PRefs.ways]
  | .cell array p c rest, depth, i => by
    rw [PRefs.ways, List.nodup_append]
    refine ⟨?_, PRefs.nodup_ways rest depth (i + 1), ?_⟩
    · rw [List.nodup_flatMap]
      constructor
      · intro s _
        refine (PCell.nodup_ways c depth).map ?_
        rintro ⟨v, e⟩ ⟨v', e'⟩ h
        obtain ⟨h1, h2⟩ := Prod.mk.inj h
        exact Prod.ext (List.cons.inj h1).2 h2
      · refine (nodup_arraySteps array).imp ?_
        rintro ⟨x, y⟩ ⟨x', y'⟩ hne v hv hv'
        obtain ⟨u, -, rfl⟩ := List.mem_map.1 hv
        obtain ⟨u', -, h⟩ := List.mem_map.1 hv'
        have h := (List.cons.inj (Prod.mk.inj h).1).1
        simp only [Prod.mk.injEq, true_and] at h
        exact hne (Prod.ext h.1.symm h.2.symm)
    · rintro v hv v' hv' rfl
      obtain ⟨s, -, h⟩ := List.mem_flatMap.1 hv
      obtain ⟨u, -, rfl⟩ := List.mem_map.1 h
      obtain ⟨j, x, y, array', p', d, w', h1, -⟩ := (PRefs.mem_ways rest depth (i + 1) _).1 hv'
      have := (Prod.mk.inj (List.cons.inj h1).1).1
      omega
  | .name array p s rest, depth, i => by
    rw [PRefs.ways]
    exact PRefs.nodup_ways rest depth (i + 1)
end

/-! ### Properties -/

/-- **C100.** `get_polygonsets`, `get_paths` and `get_labels` return every element once for every way to its cell that is not too
deep, with the properties that the element has in its cell. The ways are the same, and in the same order, for the three kinds of
elements. -/
theorem C100_kept (c : PCell) (depth : Option Int) :
    ∃ ways : List (List (Nat × Nat × Nat) × PCell), ways.Nodup ∧
      (∀ w, w ∈ ways ↔ Leads c w.1 w.2 ∧ Shallow depth w.1) ∧
      ∀ k, c.get k depth = ways.flatMap fun w => w.2.own k :=
  ⟨c.ways depth, c.nodup_ways depth, c.mem_ways depth, fun k => c.get_ways k depth⟩

/-- **C100.** After `flatten` the cell has no references, and its elements have the properties of the elements in the hierarchy
before: one element for every way to the cell of the element. -/
theorem C100_flatten (c : PCell) :
    c.flatten.references.toList = [] ∧
    ∃ ways : List (List (Nat × Nat × Nat) × PCell), ways.Nodup ∧ (∀ w, w ∈ ways ↔ Leads c w.1 w.2) ∧
      ∀ k, c.flatten.own k = ways.flatMap fun w => w.2.own k := by
  refine ⟨rfl, ?_⟩
  obtain ⟨ways, h1, h2, h3⟩ := C100_kept c none
  refine ⟨ways, h1, fun w => (h2 w).trans (and_iff_left fun d hd => by cases hd), ?_⟩
  intro k
  rw [← h3 k]
  cases k <;> rfl

mutual
/-- The same hierarchy without properties of references. -/
def Spec.bare : PCell → PCell
  | .mk a b c refs => .mk a b c (Spec.bareRefs refs)

def Spec.bareRefs : PRefs → PRefs
  | .nil => .nil
  | .cell array _ c rest => .cell array [] (Spec.bare c) (Spec.bareRefs rest)
  | .name array _ s rest => .name array [] s (Spec.bareRefs rest)
end

mutual
theorem PCell.get_bare (k : ElKind) : ∀ (c : PCell) (depth : Option Int),
    (bare c).get k depth = c.get k depth
  | .mk a b c refs, depth => by
    rw [bare, PCell.get, PCell.get, PRefs.get_bare k refs]
    cases k <;> rfl

theorem PRefs.get_bare (k : ElKind) : ∀ (r : PRefs) (depth : Option Int),
    (bareRefs r).get k depth = r.get k depth
  | .nil, _ => rfl
  | .cell array p c rest, depth => by
    rw [bareRefs, PRefs.get, PRefs.get, PCell.get_bare k c, PRefs.get_bare k rest]
  | .name array p s rest, depth => by
    rw [bareRefs, PRefs.get, PRefs.get, PRefs.get_bare k rest]
end

/-- **C100, disagreement.** Properties of references are lost by `flatten`, whatever they are: the result is the same as without
them. -/
theorem C100_reference_properties_lost (c : PCell) : (bare c).flatten = c.flatten := by
  unfold PCell.flatten
  rw [PCell.get_bare, PCell.get_bare, PCell.get_bare]

/-! ### Depth -/

/-- The first depth is not greater; `None` is greater than every depth. -/
def Spec.NotDeeper : Option Int → Option Int → Prop
  | _, none => True
  | none, some _ => False
  | some d, some d' => d ≤ d'

theorem notDeeper_deeper {x y : Option Int} (h : NotDeeper x y) (hx : deeper x = true) : deeper y = true := by
  cases x <;> cases y <;> simp_all [NotDeeper, deeper]
  omega

theorem notDeeper_next {x y : Option Int} (h : NotDeeper x y) :
    NotDeeper (x.map fun d => d - 1) (y.map fun d => d - 1) := by
  cases x <;> cases y <;> simp_all [NotDeeper]

theorem sublist_flatMap {α : Type} (s : List α) {l l' : List Properties} (h : l.Sublist l') :
    (s.flatMap fun _ => l).Sublist (s.flatMap fun _ => l') := by
  induction s with
  | nil => exact List.Sublist.refl _
  | cons x s ih =>
    rw [List.flatMap_cons, List.flatMap_cons]
    exact h.append ih

mutual
theorem PCell.get_sublist (k : ElKind) : ∀ (c : PCell) (x y : Option Int), NotDeeper x y →
    (c.get k x).Sublist (c.get k y)
  | .mk a b c refs, x, y, h => by
    rw [PCell.get, PCell.get]
    refine (List.Sublist.refl _).append ?_
    by_cases hx : deeper x = true
    · rw [if_pos hx, if_pos (notDeeper_deeper h hx)]
      exact PRefs.get_sublist k refs _ _ (notDeeper_next h)
    · rw [if_neg hx]
      exact List.nil_sublist _

theorem PRefs.get_sublist (k : ElKind) : ∀ (r : PRefs) (x y : Option Int), NotDeeper x y →
    (r.get k x).Sublist (r.get k y)
  | .nil, _, _, _ => List.Sublist.refl _
  | .cell array p c rest, x, y, h => by
    rw [PRefs.get, PRefs.get, placedProps_steps, placedProps_steps]
    exact (sublist_flatMap _ (PCell.get_sublist k c x y h)).append (PRefs.get_sublist k rest x y h)
  | .name array p s rest, x, y, h => by
    rw [PRefs.get, PRefs.get]
    exact PRefs.get_sublist k rest x y h
end

mutual
theorem PCell.get_all : ∀ (c : PCell), ∃ n : Nat, ∀ (k : ElKind) (d : Int), n ≤ d → c.get k (some d) = c.get k none
  | .mk a b c refs => by
    obtain ⟨n, h⟩ := PRefs.get_all refs
    refine ⟨n + 1, fun k d hd => ?_⟩
    rw [PCell.get, PCell.get, if_pos (by simp [deeper]; omega), if_pos (by rfl : deeper none = true)]
    exact congrArg _ (h k (d - 1) (by omega))

theorem PRefs.get_all : ∀ (r : PRefs), ∃ n : Nat, ∀ (k : ElKind) (d : Int), n ≤ d → r.get k (some d) = r.get k none
  | .nil => ⟨0, fun _ _ _ => rfl⟩
  | .cell array p c rest => by
    obtain ⟨n, h⟩ := PCell.get_all c
    obtain ⟨n', h'⟩ := PRefs.get_all rest
    refine ⟨max n n', fun k d hd => ?_⟩
    rw [PRefs.get, PRefs.get, h k d (by omega), h' k d (by omega)]
  | .name array p s rest => by
    obtain ⟨n', h'⟩ := PRefs.get_all rest
    refine ⟨n', fun k d hd => ?_⟩
    rw [PRefs.get, PRefs.get, h' k d hd]
end

/-- **C100.** With a greater depth the queries return the same elements in the same order and possibly others among them; from
some depth on they return everything. -/
theorem C100_depth (c : PCell) (k : ElKind) :
    (∀ d d' : Int, d ≤ d' → (c.get k (some d)).Sublist (c.get k (some d'))) ∧
    (∀ d : Int, (c.get k (some d)).Sublist (c.get k none)) ∧
    ∃ n : Nat, ∀ d : Int, n ≤ d → c.get k (some d) = c.get k none := by
  obtain ⟨n, h⟩ := c.get_all
  exact ⟨fun d d' hd => c.get_sublist k _ _ hd, fun d => c.get_sublist k _ _ trivial, n, h k⟩

/-- **C100.** A flattened cell stays as it is when it is flattened again, and its queries do not depend on the depth. -/
theorem C100_flatten_again (c : PCell) :
    c.flatten.flatten = c.flatten ∧ ∀ k depth, c.flatten.get k depth = c.get k none := by
  have h : ∀ k depth, c.flatten.get k depth = c.get k none := by
    intro k depth
    unfold PCell.flatten
    rw [PCell.get, PRefs.get]
    cases k <;> simp [PCell.own]
  refine ⟨?_, h⟩
  rw [PCell.flatten, h, h, h]
  rfl

/-! ### Samples -/

/-- A cell with a polygon and a label with properties. -/
def Sample.propLeaf : PCell := .mk [[(1, some "a".toList)]] [] [[(2, some "b".toList)]] .nil

/-- An array of two by one copies with a property, and a reference to a name. -/
def Sample.propTop : PCell :=
  .mk [] [[(3, some "c".toList)]] [] (.cell (some (2, 1)) [(4, some "d".toList)] Sample.propLeaf
    (.name none [(5, some "e".toList)] "X".toList .nil))

/-- Two ways lead to the leaf; its elements are there twice and the properties of the references nowhere. -/
example : Leads Sample.propTop [(0, 1, 0)] Sample.propLeaf ∧
    ¬ Leads Sample.propTop [(0, 2, 0)] Sample.propLeaf ∧
    Sample.propTop.flatten.own .polygon = [[(1, some "a".toList)], [(1, some "a".toList)]] ∧
    Sample.propTop.flatten.own .path = [[(3, some "c".toList)]] ∧
    Sample.propTop.get .label (some 0) = [] ∧
    (bare Sample.propTop).references.toList ≠ Sample.propTop.references.toList := by
  refine ⟨.step _ Sample.propLeaf _ 0 1 0 (some (2, 1)) [(4, some "d".toList)] [] rfl
    ⟨by norm_num, by norm_num⟩ (.here _), ?_, rfl, rfl, rfl, ?_⟩
  · intro h
    cases h with
    | step _ d _ i x y array p w' hget hc hl =>
      simp only [Sample.propTop, PCell.references, PRefs.toList, List.getElem?_cons_zero, Option.some.injEq,
        Prod.mk.injEq] at hget
      obtain ⟨rfl, -⟩ := hget
      exact absurd hc.1 (by norm_num)
  · intro h
    have := congrArg (fun l => l.map fun x => x.2.1) h
    exact absurd this (by decide)

/-- The sample has nothing of the leaf with depth 0 and everything with depth 1. -/
example : Sample.propTop.get .polygon (some 0) = [] ∧ Sample.propTop.get .polygon (some (-3)) = [] ∧
    Sample.propTop.get .polygon (some 1) = Sample.propTop.get .polygon none ∧
    Sample.propTop.get .polygon none ≠ [] := by
  refine ⟨rfl, rfl, rfl, by decide⟩

end Gdspy
