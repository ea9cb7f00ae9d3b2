import Verif.Spec.Copy
import Mathlib.Data.Finset.Card
import Mathlib.Data.Finset.Range

/-!
# Lemmas about `deepcopy`
-/

namespace Gdspy

open Spec

variable {K P : Type}

theorem held_iff (n : Obj K P) (k : Nat) : Held n k ↔ k ∈ n.kids := by
  constructor
  · intro h
    cases h <;> simp [Obj.kids, *]
  · intro h
    cases n with
    | cell s a b c d =>
      simp only [Obj.kids, List.mem_append] at h
      rcases h with ((h | h) | h) | h
      · exact .polygon h
      · exact .path h
      · exact .label h
      · exact .reference h
    | ref r t =>
      cases t with
      | obj c =>
        simp only [Obj.kids, List.mem_singleton] at h
        subst h
        exact .target
      | str s => simp [Obj.kids] at h
    | poly p => simp [Obj.kids] at h
    | path p => simp [Obj.kids] at h
    | label l => simp [Obj.kids] at h

theorem sameUnder_map (φ : Nat → Nat) (n : Obj K P) : SameUnder φ n (n.map φ) := by
  cases n with
  | cell s a b c d => exact .cell
  | ref r t =>
    cases t with
    | obj c => exact .ref
    | str s => exact .name
  | poly p => exact .poly
  | path p => exact .path
  | label l => exact .label

theorem sameUnder_eq {φ : Nat → Nat} {n n' : Obj K P} (h : SameUnder φ n n') : n' = n.map φ := by
  cases h <;> rfl

theorem node_map_congr {f g : Nat → Nat} {n : Obj K P} (h : ∀ k ∈ n.kids, f k = g k) :
    n.map f = n.map g := by
  cases n with
  | cell s a b c d =>
    simp only [Obj.kids, List.mem_append] at h
    simp only [Obj.map]
    rw [List.map_congr_left (fun k hk => h k (Or.inl (Or.inl (Or.inl hk)))),
      List.map_congr_left (fun k hk => h k (Or.inl (Or.inl (Or.inr hk)))),
      List.map_congr_left (fun k hk => h k (Or.inl (Or.inr hk))),
      List.map_congr_left (fun k hk => h k (Or.inr hk))]
  | ref r t =>
    cases t with
    | obj c => simp only [Obj.map]; rw [h c (by simp [Obj.kids])]
    | str s => rfl
  | poly p => rfl
  | path p => rfl
  | label l => rfl

/-- The map given by the dictionary. -/
def memoMap (f : Nat → Option Nat) (k : Nat) : Nat := (f k).getD k

/-- What holds during the recursion; `O` are the objects whose attributes are being copied. -/
structure CopyInv (m : Mem K P) (x0 : Nat) (O : Nat → Prop) (s : CopySt K P) : Prop where
  size : m.size ≤ s.mem.size
  old : ∀ z < m.size, s.mem.node z = m.node z
  memo : ∀ z y, s.memo z = some y → HeldBy m x0 z ∧ m.size ≤ y ∧ y < s.mem.size
  inj : ∀ z w y, s.memo z = some y → s.memo w = some y → z = w
  only : ∀ y, m.size ≤ y → y < s.mem.size → ∃ z, s.memo z = some y
  done : ∀ z y, s.memo z = some y → ¬ O z →
    s.mem.node y = (m.node z).map (memoMap s.memo) ∧ ∀ k ∈ (m.node z).kids, (s.memo k).isSome

/-- The dictionary only grows. -/
def MemoLe (f g : Nat → Option Nat) : Prop := ∀ z y, f z = some y → g z = some y

theorem copyAll_inv {m : Mem K P} {x0 : Nat}
    {f : CopySt K P → Nat → Option (CopySt K P × Nat)} {O : Nat → Prop}
    (hf : ∀ s k s' y, CopyInv m x0 O s → HeldBy m x0 k → f s k = some (s', y) →
      CopyInv m x0 O s' ∧ MemoLe s.memo s'.memo ∧ s'.memo k = some y) :
    ∀ (l : List Nat) (s s' : CopySt K P), CopyInv m x0 O s → (∀ k ∈ l, HeldBy m x0 k) →
      copyAll f s l = some s' →
      CopyInv m x0 O s' ∧ MemoLe s.memo s'.memo ∧ ∀ k ∈ l, (s'.memo k).isSome := by
  intro l
  induction l with
  | nil =>
    intro s s' hs _ h
    simp only [copyAll, Option.some.injEq] at h
    subst h
    exact ⟨hs, fun _ _ h => h, by simp⟩
  | cons k l ih =>
    intro s s' hs hl h
    simp only [copyAll, Option.bind_eq_bind, Option.bind_eq_some_iff] at h
    obtain ⟨⟨s1, y⟩, h1, h2⟩ := h
    obtain ⟨a1, a2, a3⟩ := hf s k s1 y hs (hl k List.mem_cons_self) h1
    obtain ⟨b1, b2, b3⟩ := ih s1 s' a1 (fun k hk => hl k (List.mem_cons_of_mem _ hk)) h2
    refine ⟨b1, fun z y h => b2 z y (a2 z y h), ?_⟩
    intro k' hk'
    rcases List.mem_cons.1 hk' with rfl | hk'
    · rw [b2 _ _ a3]; rfl
    · exact b3 k' hk'

theorem inside_lt {m : Mem K P} (hc : Spec.Mem.Closed m) {x0 z : Nat} (hx : x0 < m.size)
    (h : HeldBy m x0 z) : z < m.size := by
  induction h with
  | refl => exact hx
  | tail _ hb ih => exact hc _ ih _ hb

theorem copyInv_alloc {m : Mem K P} (hc : Spec.Mem.Closed m) {x0 : Nat} (hx0 : x0 < m.size)
    {O : Nat → Prop} {s : CopySt K P} {x : Nat} (hs : CopyInv m x0 O s) (hx : HeldBy m x0 x)
    (hm : s.memo x = none) (n : Obj K P) :
    CopyInv m x0 (fun z => O z ∨ z = x)
      ⟨(s.mem.alloc n).1, Function.update s.memo x (some s.mem.size)⟩ := by
  have hxlt := inside_lt hc hx0 hx
  have hsz := hs.size
  refine ⟨by simp only [Mem.alloc]; omega, ?_, ?_, ?_, ?_, ?_⟩
  · intro z hz
    simp only [Mem.alloc]
    rw [Function.update_of_ne (by omega)]
    exact hs.old z hz
  · intro z y h
    simp only [Mem.alloc] at h ⊢
    by_cases hz : z = x
    · subst hz
      rw [Function.update_self, Option.some.injEq] at h
      exact ⟨hx, by omega, by omega⟩
    · rw [Function.update_of_ne hz] at h
      obtain ⟨a, b, c⟩ := hs.memo z y h
      exact ⟨a, b, by omega⟩
  · intro z w y h h'
    simp only at h h'
    by_cases hz : z = x <;> by_cases hw : w = x
    · rw [hz, hw]
    · rw [hz, Function.update_self, Option.some.injEq] at h
      rw [Function.update_of_ne hw] at h'
      have := (hs.memo w y h').2.2
      omega
    · rw [hw, Function.update_self, Option.some.injEq] at h'
      rw [Function.update_of_ne hz] at h
      have := (hs.memo z y h).2.2
      omega
    · rw [Function.update_of_ne hz] at h
      rw [Function.update_of_ne hw] at h'
      exact hs.inj z w y h h'
  · intro y hy hy'
    simp only [Mem.alloc] at hy' ⊢
    by_cases he : y = s.mem.size
    · exact ⟨x, by rw [Function.update_self, he]⟩
    · obtain ⟨z, hz⟩ := hs.only y hy (by omega)
      refine ⟨z, ?_⟩
      rw [Function.update_of_ne (fun e => by rw [e, hm] at hz; simp at hz)]
      exact hz
  · intro z y h hO
    simp only [not_or] at hO
    simp only [Mem.alloc] at h ⊢
    rw [Function.update_of_ne hO.2] at h
    obtain ⟨a, b⟩ := hs.done z y h hO.1
    have hy := (hs.memo z y h).2.2
    rw [Function.update_of_ne (by omega), a]
    have hkx : ∀ k ∈ (m.node z).kids, k ≠ x := by
      rintro k hk rfl
      have := b k hk
      rw [hm] at this
      simp at this
    refine ⟨node_map_congr fun k hk => ?_, fun k hk => ?_⟩
    · unfold memoMap
      rw [Function.update_of_ne (hkx k hk)]
    · rw [Function.update_of_ne (hkx k hk)]
      exact b k hk

theorem deepcopy_inv {m : Mem K P} (hc : Spec.Mem.Closed m) {x0 : Nat} (hx0 : x0 < m.size) :
    ∀ (fuel : Nat) (O : Nat → Prop) (s : CopySt K P) (x : Nat) (s' : CopySt K P) (y : Nat),
      CopyInv m x0 O s → HeldBy m x0 x → deepcopy fuel s x = some (s', y) →
      CopyInv m x0 O s' ∧ MemoLe s.memo s'.memo ∧ s'.memo x = some y := by
  intro fuel
  induction fuel with
  | zero =>
    intro O s x s' y hs hx h
    unfold deepcopy at h
    cases hm : s.memo x with
    | none => rw [hm] at h; simp at h
    | some w =>
      rw [hm] at h
      simp only [Option.some.injEq, Prod.mk.injEq] at h
      obtain ⟨rfl, rfl⟩ := h
      exact ⟨hs, fun _ _ h => h, hm⟩
  | succ n ih =>
    intro O s x s' y hs hx h
    unfold deepcopy at h
    cases hm : s.memo x with
    | some w =>
      rw [hm] at h
      simp only [Option.some.injEq, Prod.mk.injEq] at h
      obtain ⟨rfl, rfl⟩ := h
      exact ⟨hs, fun _ _ h => h, hm⟩
    | none =>
      rw [hm] at h
      simp only [Option.bind_eq_bind, Option.bind_eq_some_iff, Option.pure_def, Option.some.injEq,
        Prod.mk.injEq] at h
      obtain ⟨s2, h2, rfl, rfl⟩ := h
      have hxn := hs.old x (inside_lt hc hx0 hx)
      rw [hxn] at h2
      rw [hxn]
      have hkids : ∀ k ∈ (m.node x).kids, HeldBy m x0 k := fun k hk =>
        Relation.ReflTransGen.tail hx ((held_iff _ _).2 hk)
      obtain ⟨a1, a2, a3⟩ := copyAll_inv (fun s k s' y hs hk h => ih _ s k s' y hs hk h)
        (m.node x).kids _ s2 (copyInv_alloc hc hx0 hs hx hm (m.node x)) hkids h2
      have hy : s2.memo x = some s.mem.size := a2 x _ (by simp)
      have hle : MemoLe s.memo s2.memo := by
        intro z w hz
        refine a2 z w ?_
        simp only
        rw [Function.update_of_ne (fun e => by rw [e, hm] at hz; simp at hz)]
        exact hz
      have hsz := hs.size
      refine ⟨⟨a1.size, ?_, a1.memo, a1.inj, a1.only, ?_⟩, hle, hy⟩
      · intro z hz
        simp only [Mem.set, Mem.alloc]
        rw [Function.update_of_ne (by omega)]
        exact a1.old z hz
      · intro z w hz hO
        simp only [Mem.set, Mem.alloc] at hz ⊢
        by_cases he : z = x
        · subst he
          rw [hy, Option.some.injEq] at hz
          rw [← hz, Function.update_self]
          exact ⟨rfl, a3⟩
        · have hne : w ≠ s.mem.size := by
            rintro rfl
            exact he (a1.inj z x _ hz hy)
          rw [Function.update_of_ne hne]
          exact a1.done z w hz (by simp [hO, he])

/-- The objects that exist and have not been copied. -/
def todo (m : Mem K P) (f : Nat → Option Nat) : Nat :=
  ((Finset.range m.size).filter fun z => f z = none).card

theorem todo_le {m : Mem K P} {f g : Nat → Option Nat} (h : MemoLe f g) : todo m g ≤ todo m f := by
  refine Finset.card_le_card fun z hz => ?_
  simp only [Finset.mem_filter] at hz ⊢
  refine ⟨hz.1, ?_⟩
  cases hf : f z with
  | none => rfl
  | some y => rw [h z y hf] at hz; simp at hz

theorem todo_update {m : Mem K P} {f : Nat → Option Nat} {x y : Nat} (hx : x < m.size) (h : f x = none) :
    todo m (Function.update f x (some y)) < todo m f := by
  refine Finset.card_lt_card ?_
  rw [Finset.ssubset_iff_of_subset]
  · refine ⟨x, by simp [hx, h], by simp⟩
  · intro z hz
    simp only [Finset.mem_filter] at hz ⊢
    refine ⟨hz.1, ?_⟩
    by_cases he : z = x
    · rw [he]; exact h
    · have := hz.2
      rwa [Function.update_of_ne he] at this

theorem deepcopy_total {m : Mem K P} (hc : Spec.Mem.Closed m) {x0 : Nat} (hx0 : x0 < m.size) :
    ∀ (fuel : Nat) (O : Nat → Prop) (s : CopySt K P) (x : Nat),
      CopyInv m x0 O s → HeldBy m x0 x → todo m s.memo ≤ fuel → ∃ r, deepcopy fuel s x = some r := by
  intro fuel
  induction fuel with
  | zero =>
    intro O s x hs hx hf
    unfold deepcopy
    cases hm : s.memo x with
    | some w => exact ⟨_, rfl⟩
    | none =>
      have := todo_update (y := 0) (inside_lt hc hx0 hx) hm
      omega
  | succ n ih =>
    intro O s x hs hx hf
    unfold deepcopy
    cases hm : s.memo x with
    | some w => exact ⟨_, rfl⟩
    | none =>
      have hxn := hs.old x (inside_lt hc hx0 hx)
      have hkids : ∀ k ∈ (m.node x).kids, HeldBy m x0 k := fun k hk =>
        Relation.ReflTransGen.tail hx ((held_iff _ _).2 hk)
      have key : ∀ (l : List Nat) (O : Nat → Prop) (s : CopySt K P), CopyInv m x0 O s →
          (∀ k ∈ l, HeldBy m x0 k) → todo m s.memo ≤ n → ∃ s', copyAll (deepcopy n) s l = some s' := by
        intro l
        induction l with
        | nil => intro O s _ _ _; exact ⟨s, rfl⟩
        | cons k l ihl =>
          intro O s hs hl hf
          obtain ⟨⟨s1, y⟩, h1⟩ := ih O s k hs (hl k List.mem_cons_self) hf
          obtain ⟨a1, a2, -⟩ := deepcopy_inv hc hx0 n O s k s1 y hs (hl k List.mem_cons_self) h1
          obtain ⟨s2, h2⟩ := ihl O s1 a1 (fun k hk => hl k (List.mem_cons_of_mem _ hk))
            ((todo_le a2).trans hf)
          exact ⟨s2, by simp [copyAll, h1, h2]⟩
      have hlt := todo_update (y := s.mem.size) (inside_lt hc hx0 hx) hm
      obtain ⟨s2, h2⟩ := key (m.node x).kids _ _ (copyInv_alloc hc hx0 hs hx hm (m.node x)) hkids
        (by simp only; omega)
      rw [hxn]
      simp only [Option.bind_eq_bind, Mem.alloc] at h2 ⊢
      rw [h2]
      exact ⟨_, rfl⟩

/-- `deepcopy` of an object. -/
theorem deepcopy_fresh {m : Mem K P} (hc : Spec.Mem.Closed m) {x : Nat} (hx : x < m.size) {fuel : Nat}
    (hf : m.size ≤ fuel) :
    ∃ (s : CopySt K P) (φ : Nat → Nat), deepcopy fuel ⟨m, fun _ => none⟩ x = some (s, φ x) ∧
      FreshCopy m s.mem φ x := by
  have h0 : CopyInv m x (fun _ => False) ⟨m, fun _ => none⟩ :=
    ⟨le_rfl, fun _ _ => rfl, by simp, by simp, fun y h h' => by simp only at h'; omega, by simp⟩
  have hi : HeldBy m x x := Relation.ReflTransGen.refl
  obtain ⟨⟨s, y⟩, hr⟩ := deepcopy_total hc hx fuel _ _ x h0 hi
    (le_trans (le_trans (Finset.card_filter_le _ _) (by simp)) hf)
  obtain ⟨a, -, b⟩ := deepcopy_inv hc hx fuel _ _ x s y h0 hi hr
  have hall : ∀ z, HeldBy m x z → (s.memo z).isSome := by
    intro z hz
    induction hz with
    | refl => rw [b]; rfl
    | tail _ hb ih =>
      obtain ⟨w, hw⟩ := Option.isSome_iff_exists.1 ih
      exact (a.done _ w hw id).2 _ ((held_iff _ _).1 hb)
  have hval : ∀ z, HeldBy m x z → s.memo z = some (memoMap s.memo z) := by
    intro z hz
    obtain ⟨w, hw⟩ := Option.isSome_iff_exists.1 (hall z hz)
    rw [hw]
    simp [memoMap, hw]
  refine ⟨s, memoMap s.memo, ?_, a.old, ?_, ?_, ?_, ?_⟩
  · rw [hr]
    have : memoMap s.memo x = y := by simp [memoMap, b]
    rw [this]
  · intro z hz
    exact (a.memo z _ (hval z hz)).2
  · intro z w hz hw he
    exact a.inj z w _ (hval z hz) (by rw [hval w hw, he])
  · intro y hy hy'
    obtain ⟨z, hz⟩ := a.only y hy hy'
    exact ⟨z, (a.memo z y hz).1, by simp [memoMap, hz]⟩
  · intro z hz
    rw [(a.done z _ (hval z hz) id).1]
    exact sameUnder_map _ _

end Gdspy
