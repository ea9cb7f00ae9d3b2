import Verif.Lemmas.Clip

/-!
C53: the operands of slice, boolean and inside are gathered completely and in order, except that a
FlexPath in a list is not converted.
-/

set_option linter.unusedSectionVars false

namespace Gdspy.Spec

variable {K : Type}

/-- The polygons that an item stands for. -/
def polysOf : Item K → List (Pgon K)
  | .set ps => ps.polygons
  | .robust l => l
  | .flex l => l
  | .ref l => l
  | .array l => l
  | .verts p => [p]

/-- The polygons that an operand stands for. -/
def operandPolys : Operand K → List (Pgon K)
  | .none => []
  | .one i => polysOf i
  | .list l => (l.map polysOf).flatten

/-- A list with a FlexPath in it. -/
def HasFlex : Operand K → Prop
  | .list l => ∃ polys, Item.flex polys ∈ l
  | _ => False

/-- A vertex list that is not in a list. -/
def BareVertices : Operand K → Prop
  | .one (.verts _) => True
  | _ => False

end Gdspy.Spec

namespace Gdspy

open Gdspy.Spec

variable {K : Type}

/-- **C53 (partial: the documentation also allows a FlexPath in a list, see `C53_flex_in_list`).** Every
polygon of every item is used exactly once and in order. -/
theorem C53_gather_partial (o : Operand K) (h : ¬ HasFlex o) (hb : ¬ BareVertices o) :
    gatherPolys o = .ok ((operandPolys o).map .poly) := by
  cases o with
  | none => rfl
  | one i => cases i <;> first | rfl | exact absurd trivial hb
  | list l =>
    simp only [gatherPolys, operandPolys]
    congr 1
    induction l with
    | nil => rfl
    | cons i l ih =>
      have ih := ih (fun ⟨p, hp⟩ => h ⟨p, List.mem_cons_of_mem _ hp⟩) (by simp [BareVertices])
      rw [List.flatMap_cons, ih, List.map_cons, List.flatten_cons, List.map_append]
      congr 1
      cases i <;> first | rfl | exact absurd ⟨_, List.mem_cons_self⟩ h

/-- A mixture of everything, also with empty items. -/
example : let sq : Pgon ℚ := [(0, 0), (1, 0), (1, 1)]
    let o : Operand ℚ := .list [.ref [sq, []], .verts sq, .set (PolySet.new [sq] 1 0), .robust [], .array [sq]]
    ¬ HasFlex o ∧ ¬ BareVertices o ∧ (operandPolys o).length = 5 := by
  refine ⟨?_, ?_, by decide⟩
  · rintro ⟨p, hp⟩
    simp at hp
  · simp [BareVertices]

/-- A FlexPath alone is converted. -/
theorem C53_flex_alone (polys : List (Pgon K)) : gatherPolys (.one (.flex polys)) = .ok (polys.map .poly) := rfl

theorem object_mem (l : List (Item K)) (polys : List (Pgon K)) (h : Item.flex polys ∈ l) :
    Gathered.object polys ∈ l.flatMap gatherItem :=
  List.mem_flatMap.2 ⟨_, h, by simp [gatherItem]⟩

variable [Field K] [LinearOrder K] [IsStrictOrderedRing K] [FloorRing K]

theorem parse_object (scaling : K) (check : Bool) (l : List (Gathered K)) (polys : List (Pgon K))
    (h : Gathered.object polys ∈ l) : ∀ r, l.mapM (Gathered.parse scaling check) ≠ .ok r := by
  induction l with
  | nil => simp at h
  | cons g l ih =>
    intro r hr
    rw [List.mapM_cons] at hr
    rcases List.mem_cons.1 h with rfl | h
    · simp only [Gathered.parse, py_bind_error] at hr
      cases hr
    · obtain ⟨x, _, hr⟩ := py_bind_eq_ok hr
      obtain ⟨y, hy, _⟩ := py_bind_eq_ok hr
      exact ih h y hy

theorem sliceLoop_object (e : Engine K) (scaling : K) (axis : Nat) (pos : List K) (l : List (Gathered K))
    (polys : List (Pgon K)) (h : Gathered.object polys ∈ l) (acc : List (List (Pgon K))) :
    ∀ r, sliceLoop e scaling axis pos acc l ≠ .ok r := by
  induction l generalizing acc with
  | nil => simp at h
  | cons g l ih =>
    intro r hr
    cases g with
    | object p => simp [sliceLoop] at hr
    | poly p =>
      rw [sliceLoop] at hr
      obtain ⟨x, _, hr⟩ := py_bind_eq_ok hr
      rcases List.mem_cons.1 h with h | h
      · cases h
      · exact ih h _ r hr

/-- **C53 is violated** for a FlexPath in a list: no operation returns a result, for whatever engine and
other arguments (operation.py:75 tests the list instead of its item). Only `boolean` with 'not' or 'xor' and
an empty second operand is left out, where the path would be put in a PolygonSet as it is. -/
theorem C53_flex_in_list (e : Engine K) (l : List (Item K)) (polys : List (Pgon K))
    (h : Item.flex polys ∈ l) (precision : K) :
    (∀ pos axis layer datatype r, sliceOp e (.list l) pos axis precision layer datatype ≠ .ok r) ∧
    (∀ points any r, insideOp points (.list l) any precision ≠ .ok r) ∧
    (∀ fuel other op mx layer datatype r,
      gatherPolys other ≠ .ok [] ∨ (op ≠ some .not ∧ op ≠ some .xor) →
      booleanOp e fuel (.list l) other op precision mx layer datatype ≠ .ok r) ∧
    (∀ fuel other op mx layer datatype r, booleanOp e fuel other (.list l) op precision mx layer datatype ≠ .ok r) := by
  have hobj := object_mem l polys h
  have hne : (l.flatMap gatherItem).isEmpty = false := by
    rw [List.isEmpty_eq_false_iff]
    exact List.ne_nil_of_mem hobj
  have clip1 : ∀ fuel op mx layer datatype (a b : List (Gathered K)) r,
      (Gathered.object polys ∈ a ∨ Gathered.object polys ∈ b) →
      booleanClip e fuel op precision mx layer datatype a b ≠ .ok r := by
    intro fuel op mx layer datatype a b r hab hr
    unfold booleanClip at hr
    obtain ⟨x, hx, _⟩ := py_bind_eq_ok hr
    unfold clipCall at hx
    cases op with
    | none => cases hx
    | some op =>
      simp only at hx
      obtain ⟨s, hs, hx⟩ := py_bind_eq_ok hx
      obtain ⟨c, hc, _⟩ := py_bind_eq_ok hx
      rcases hab with hab | hab
      · exact parse_object _ _ _ _ hab _ hs
      · exact parse_object _ _ _ _ hab _ hc
  refine ⟨?_, ?_, ?_, ?_⟩
  · intro pos axis layer datatype r hr
    unfold sliceOp at hr
    rw [gatherPolys, py_bind_ok] at hr
    simp only at hr
    split at hr
    · cases hr
    · obtain ⟨x, hx, _⟩ := py_bind_eq_ok hr
      exact sliceLoop_object _ _ _ _ _ _ hobj _ _ hx
  · intro points any r hr
    unfold insideOp at hr
    rw [gatherPolys, py_bind_ok] at hr
    split at hr
    · cases hr
    · cases hr
    · cases hr
    · split at hr
      · cases hr
      · obtain ⟨x, hx, _⟩ := py_bind_eq_ok hr
        exact parse_object _ _ _ _ hobj _ hx
    · split at hr
      · cases hr
      · obtain ⟨x, hx, _⟩ := py_bind_eq_ok hr
        exact parse_object _ _ _ _ hobj _ hx
  · intro fuel other op mx layer datatype r hcase hr
    unfold booleanOp at hr
    rw [gatherPolys, py_bind_ok] at hr
    obtain ⟨x, hx, hr⟩ := py_bind_eq_ok hr
    split at hr
    · cases hr
    split at hr
    · rename_i hxe
      have hop : op ≠ some .not ∧ op ≠ some .xor := by
        rcases hcase with h | h
        · exact absurd (by rw [hx, List.isEmpty_iff.1 hxe]) h
        · exact h
      split at hr
      · rename_i ho
        rcases ho with ho | ho
        · exact absurd ho hop.1
        · exact absurd ho hop.2
      · cases hl : (l.flatMap gatherItem).getLast? with
        | none => rw [hl] at hr; cases hr
        | some z =>
          rw [hl] at hr
          refine clip1 _ _ _ _ _ _ _ _ ?_ hr
          have e1 : l.flatMap gatherItem = (l.flatMap gatherItem).dropLast ++ [z] := by
            rw [List.dropLast_append_getLast?]
            exact hl
          rw [e1] at hobj
          rcases List.mem_append.1 hobj with hobj | hobj
          · exact Or.inl hobj
          · exact Or.inr hobj
    · exact clip1 _ _ _ _ _ _ _ _ (Or.inl hobj) hr
  · intro fuel other op mx layer datatype r hr
    unfold booleanOp at hr
    obtain ⟨x, hx, hr⟩ := py_bind_eq_ok hr
    rw [gatherPolys, py_bind_ok] at hr
    split at hr
    · cases hr
    rw [if_neg (by simp [hne])] at hr
    exact clip1 _ _ _ _ _ _ _ _ (Or.inr hobj) hr

/-- The exception is a TypeError when the path is what the operation comes to first. -/
theorem C53_flex_error (e : Engine K) (polys : List (Pgon K)) (rest : List (Item K)) (precision : K)
    (hp : precision ≠ 0) (pos : PosArg K) (axis : Nat) (layer datatype : LayerArg) :
    sliceOp e (.list (.flex polys :: rest)) pos axis precision layer datatype = .error .typeError := by
  unfold sliceOp
  rw [gatherPolys, py_bind_ok]
  simp only [hp, if_false]
  rfl

end Gdspy
