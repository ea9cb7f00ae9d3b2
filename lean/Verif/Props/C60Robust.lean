import Verif.Model.Robust
import Verif.Props.C60

/-!
# C60: queries do not change what a RobustPath draws

A `RobustPath` keeps its polygons like a `FlexPath`, but a query changes nothing else. So queries that return are
harmless in every history, also if construction calls raise exceptions that are caught.
-/

set_option linter.unusedSectionVars false

namespace Gdspy

variable {K : Type}

/-- Is the call a query? -/
def RobustOp.isQuery : RobustOp K → Bool
  | .polygons => true
  | .polygonset => true
  | .area => true
  | _ => false

/-- The path without the memory of its polygons. -/
def Robust.bare (r : Robust K) : Robust K := { r with cache := none }

section Calls

variable [Field K] [LinearOrder K] [FloorRing K]

/-- The objects after each call of a history, when all exceptions are caught. -/
def Robust.after (ctx : FlexCtx K) (r : Robust K) (ops : List (RobustOp K)) : Robust K :=
  ops.foldl (fun r op => (r.run ctx op).1) r

theorem after_cons (ctx : FlexCtx K) (r : Robust K) (op : RobustOp K) (ops : List (RobustOp K)) :
    r.after ctx (op :: ops) = (r.run ctx op).1.after ctx ops := rfl

/-- Every query of the history returns. -/
def QueriesReturn (ctx : FlexCtx K) : Robust K → List (RobustOp K) → Prop
  | _, [] => True
  | r, op :: ops => (op.isQuery = true → (r.run ctx op).2 = none) ∧ QueriesReturn ctx (r.run ctx op).1 ops

theorem push_cache (x : K → Pt K) (dx : K → K → Pt K) (w o : RArg K) (r : Robust K) (i : Nat) :
    (r.push x dx w o i).1.cache = r.cache := by
  unfold Robust.push
  split
  · rfl
  · rfl
  · split
    · rfl
    · split
      · simp only
        split
        · rfl
        · split <;> rfl
      · rfl

theorem forOut_cache {α : Type} (F : Robust K → α → Out (Robust K)) (hF : ∀ r a, (F r a).1.cache = r.cache)
    (l : List α) (r : Robust K) : (forOut F r l).1.cache = r.cache := by
  induction l generalizing r with
  | nil => rfl
  | cons a l ih =>
    rw [forOut]
    have := hF r a
    cases h : F r a with
    | mk s e =>
      rw [h] at this
      cases e with
      | some e => exact this
      | none => exact (ih s).trans this

theorem pushAll_cache (x : K → Pt K) (dx : K → K → Pt K) (w o : RArg K) (r : Robust K) :
    (r.pushAll x dx w o).1.cache = r.cache := forOut_cache _ (push_cache x dx w o) _ _

theorem bezier_cache (p : List (Pt K)) (w o : RArg K) (rel : Bool) (r : Robust K) :
    (r.bezier p w o rel).1.cache = none := by
  unfold Robust.bezier
  split
  · rfl
  · exact pushAll_cache _ _ _ _ _

theorem smooth_bare (hb : Hobby K) (p : List (Pt K)) (c : Bool) (w o : RArg K) (rel : Bool) (r : Robust K) :
    (r.smooth hb p c w o rel = r.bare.smooth hb p c w o rel ∧ (r.smooth hb p c w o rel).1.cache = none) ∨
      ∃ e, r.smooth hb p c w o rel = (r, e) ∧ r.bare.smooth hb p c w o rel = (r.bare, e) := by
  unfold Robust.smooth
  have hc : r.bare.ctrl p rel = r.ctrl p rel := rfl
  rw [hc]
  split
  · exact Or.inr ⟨_, rfl, rfl⟩
  · split
    · exact Or.inr ⟨_, rfl, rfl⟩
    · split
      · exact Or.inr ⟨_, rfl, rfl⟩
      · rename_i l hl
        cases l with
        | nil => exact Or.inr ⟨_, rfl, rfl⟩
        | cons q l =>
          left
          refine ⟨rfl, ?_⟩
          rw [forOut]
          have hq := bezier_cache q w o false r
          cases h : r.bezier q w o false with
          | mk s e =>
            rw [h] at hq
            cases e with
            | some e => exact hq
            | none =>
              simp only
              have : ∀ (l : List (List (Pt K))) (s : Robust K), s.cache = none →
                  (forOut (fun g p => Robust.bezier p w o false g) s l).1.cache = none := by
                intro l
                induction l with
                | nil => intro s hs; exact hs
                | cons a l ih =>
                  intro s hs
                  rw [forOut]
                  have ha := bezier_cache a w o false s
                  cases h : s.bezier a w o false with
                  | mk s' e =>
                    rw [h] at ha
                    cases e with
                    | some e => exact ha
                    | none => exact ih s' ha
              exact this l s hq

theorem arc_cache (t : Num K) (rad ia fa : K) (w o : RArg K) (r : Robust K) : (r.arc t rad ia fa w o).1.cache = none :=
  pushAll_cache _ _ _ _ _

theorem mapSubs_cache (g : Sub K → Sub K) (r : Robust K) : (r.mapSubs g).cache = r.cache := rfl

theorem transform_cache (t : Num K) (tr : Option (Pt K)) (ro sc : Option K) (x : Bool) (a : Option (Pt K))
    (r : Robust K) : (r.transform t tr ro sc x a).cache = none := by
  unfold Robust.transform
  cases tr <;> cases ro <;> cases sc <;> cases x <;> cases a <;> rfl

/-- A construction or transformation call does the same whatever the path remembers, and forgets it. -/
theorem build_bare {ctx : FlexCtx K} {op : RobustOp K} (hop : op.isQuery = false) (r : Robust K) :
    (r.run ctx op = r.bare.run ctx op ∧ (r.run ctx op).1.cache = none) ∨
      ∃ e, r.run ctx op = (r, e) ∧ r.bare.run ctx op = (r.bare, e) := by
  cases op with
  | segment p w o rel => exact Or.inl ⟨rfl, pushAll_cache _ _ _ _ _⟩
  | arc rad ia fa w o => exact Or.inl ⟨rfl, pushAll_cache _ _ _ _ _⟩
  | turn rad a w o =>
    left
    refine ⟨rfl, ?_⟩
    show (r.turn ctx.num rad a w o).1.cache = none
    unfold Robust.turn
    simp only
    split
    · rfl
    · split
      · rfl
      · split
        · rfl
        · exact arc_cache _ _ _ _ _ _ _
  | parametric c g w o rel => exact Or.inl ⟨rfl, pushAll_cache _ _ _ _ _⟩
  | bezier p w o rel => exact Or.inl ⟨rfl, bezier_cache _ _ _ _ _⟩
  | smooth hb p c w o rel => exact smooth_bare hb p c w o rel r
  | translate dx dy => exact Or.inl ⟨rfl, rfl⟩
  | rotate a c => exact Or.inl ⟨rfl, rfl⟩
  | scale s c => exact Or.inl ⟨rfl, rfl⟩
  | transform tr ro sc x a => exact Or.inl ⟨rfl, transform_cache _ _ _ _ _ _ _⟩
  | polygons => cases hop
  | polygonset => cases hop
  | area => cases hop

theorem robust_getPolygons_bare (ctx : FlexCtx K) (r : Robust K) : (r.getPolygons ctx).1.bare = r.bare := by
  unfold Robust.getPolygons
  split
  · rfl
  · split <;> rfl

theorem robust_toPolygonset_bare (ctx : FlexCtx K) (r : Robust K) : (r.toPolygonset ctx).1.bare = r.bare := by
  unfold Robust.toPolygonset
  split
  · rfl
  · split
    · rfl
    · have := robust_getPolygons_bare ctx r
      cases h : r.getPolygons ctx with
      | mk g d =>
        rw [h] at this
        cases d with
        | error e => exact this
        | ok d => exact this

theorem robust_area_fst (ctx : FlexCtx K) (r : Robust K) : (r.area ctx).1 = (r.toPolygonset ctx).1 := by
  unfold Robust.area
  cases h : r.toPolygonset ctx with
  | mk g d => cases d with
    | error e => rfl
    | ok d => cases d <;> rfl

/-- **C60**, `RobustPath`. A query changes nothing but the memory of the polygons, whether it returns or not. -/
theorem C60_robust_query (ctx : FlexCtx K) {op : RobustOp K} (hop : op.isQuery = true) (r : Robust K) :
    { (r.run ctx op).1 with cache := none } = { r with cache := none } := by
  cases op with
  | polygons => exact robust_getPolygons_bare ctx r
  | polygonset => exact robust_toPolygonset_bare ctx r
  | area =>
    show (r.area ctx).1.bare = r.bare
    rw [robust_area_fst]
    exact robust_toPolygonset_bare ctx r
  | _ => cases hop

/-- The remembered polygons are those that would be computed. -/
def RCacheOk (ctx : FlexCtx K) (r : Robust K) : Prop := ∀ d, r.cache = some d → r.compute ctx = (d, none)

theorem robust_getPolygons_of {ctx : FlexCtx K} {r : Robust K} (h : RCacheOk ctx r) :
    (r.getPolygons ctx).2 = match r.compute ctx with
      | (d, none) => .ok d
      | (_, some e) => .error e := by
  unfold Robust.getPolygons
  split
  · rename_i d hd
    rw [h d hd]
  · cases r.compute ctx with
    | mk d e => cases e <;> rfl

theorem robust_getPolygons_ok {ctx : FlexCtx K} {r : Robust K} (h : RCacheOk ctx r)
    (he : errOf (r.getPolygons ctx).2 = none) : RCacheOk ctx (r.getPolygons ctx).1 := by
  unfold Robust.getPolygons at he ⊢
  split
  · exact h
  · rename_i hc
    rw [hc] at he
    simp only at he
    cases hm : r.compute ctx with
    | mk d e =>
      rw [hm] at he
      cases e with
      | some e => cases he
      | none =>
        intro d' hd'
        obtain rfl : d = d' := Option.some.inj hd'
        exact hm

theorem robust_toPolygonset_ok {ctx : FlexCtx K} {r : Robust K} (h : RCacheOk ctx r)
    (he : errOf (r.toPolygonset ctx).2 = none) : RCacheOk ctx (r.toPolygonset ctx).1 := by
  unfold Robust.toPolygonset at he ⊢
  split at he
  · exact h
  · split at he
    · rename_i h0
      rw [if_pos h0]
      exact h
    · rename_i h0
      rw [if_neg h0]
      have := robust_getPolygons_ok (ctx := ctx) h
      cases hg : r.getPolygons ctx with
      | mk g d =>
        rw [hg] at he this
        cases d with
        | error e => cases he
        | ok d => exact this rfl

theorem robust_query_ok {ctx : FlexCtx K} {op : RobustOp K} (hop : op.isQuery = true) {r : Robust K}
    (h : RCacheOk ctx r) (he : (r.run ctx op).2 = none) : RCacheOk ctx (r.run ctx op).1 := by
  cases op with
  | polygons => exact robust_getPolygons_ok h he
  | polygonset => exact robust_toPolygonset_ok h he
  | area =>
    show RCacheOk ctx (r.area ctx).1
    rw [robust_area_fst]
    refine robust_toPolygonset_ok h ?_
    have he' : errOf (r.area ctx).2 = none := he
    unfold Robust.area at he'
    cases hg : r.toPolygonset ctx with
    | mk g d =>
      rw [hg] at he'
      cases d with
      | error e => cases he'
      | ok o => rfl
  | _ => cases hop

theorem robust_history {ctx : FlexCtx K} (ops : List (RobustOp K)) {r s : Robust K} (hb : r.bare = s.bare)
    (hr : RCacheOk ctx r) (hs : RCacheOk ctx s) (hq : QueriesReturn ctx r ops) :
    (r.after ctx ops).bare = (s.after ctx (ops.filter fun op => !op.isQuery)).bare ∧
      RCacheOk ctx (r.after ctx ops) ∧ RCacheOk ctx (s.after ctx (ops.filter fun op => !op.isQuery)) := by
  induction ops generalizing r s with
  | nil => exact ⟨hb, hr, hs⟩
  | cons op ops ih =>
    obtain ⟨h1, h2⟩ := hq
    rw [after_cons]
    cases hop : op.isQuery with
    | true =>
      rw [List.filter_cons_of_neg (by simp [hop])]
      exact ih ((C60_robust_query ctx hop r).trans hb) (robust_query_ok hop hr (h1 hop)) hs h2
    | false =>
      rw [List.filter_cons_of_pos (by simp [hop])]
      rw [after_cons]
      have none_ok : ∀ x : Robust K, x.cache = none → RCacheOk ctx x := by
        intro x hx d hd; rw [hx] at hd; cases hd
      rcases build_bare (ctx := ctx) hop r with ⟨a1, a2⟩ | ⟨e, a1, a2⟩ <;>
        rcases build_bare (ctx := ctx) hop s with ⟨b1, b2⟩ | ⟨e', b1, b2⟩
      · refine ih ?_ (none_ok _ a2) (none_ok _ b2) h2
        rw [a1, b1, hb]
      · refine ih ?_ (none_ok _ a2) (by rw [b1]; exact hs) h2
        rw [a1, b1, hb, b2]
        rfl
      · refine ih ?_ (by rw [a1]; exact hr) (none_ok _ b2) h2
        rw [a1, b1, ← hb, a2]
        rfl
      · refine ih ?_ (by rw [a1]; exact hr) (by rw [b1]; exact hs) h2
        rw [a1, b1]
        exact hb

/-- **C60**, `RobustPath`. Take any history of calls, of which some may raise exceptions that are caught, and the same
history without its queries. If the queries return, the path is the same afterwards except for what it remembers, and
both have the same polygons, the same polygon set and the same area (or raise the same exception). -/
theorem C60_robust {ctx : FlexCtx K} (ops : List (RobustOp K)) {r : Robust K} (hc : r.cache = none)
    (hq : QueriesReturn ctx r ops) :
    let a := r.after ctx ops
    let b := r.after ctx (ops.filter fun op => !op.isQuery)
    { a with cache := none } = { b with cache := none } ∧ (a.getPolygons ctx).2 = (b.getPolygons ctx).2 ∧
      (a.toPolygonset ctx).2 = (b.toPolygonset ctx).2 ∧ (a.area ctx).2 = (b.area ctx).2 := by
  have h0 : RCacheOk ctx r := by intro d hd; rw [hc] at hd; cases hd
  obtain ⟨h1, h2, h3⟩ := robust_history ops rfl h0 h0 hq
  intro a b
  have hp : (a.getPolygons ctx).2 = (b.getPolygons ctx).2 := by
    rw [robust_getPolygons_of h2, robust_getPolygons_of h3]
    have e : ∀ x : Robust K, x.compute ctx = x.bare.compute ctx := fun _ => rfl
    rw [e a, e b]
    exact congrArg (fun x => match Robust.compute ctx x with
      | (d, none) => (.ok d : Py (PolyDict K))
      | (_, some e) => .error e) h1
  have hset : (a.toPolygonset ctx).2 = (b.toPolygonset ctx).2 := by
    have e1 : a.paths = b.paths := by
      have := congrArg (fun x : Robust K => x.paths) h1
      exact this
    have e2 : a.precision = b.precision := by
      have := congrArg (fun x : Robust K => x.precision) h1
      exact this
    have e3 : a.maxPoints = b.maxPoints := by
      have := congrArg (fun x : Robust K => x.maxPoints) h1
      exact this
    unfold Robust.toPolygonset
    rw [e1, e2, e3]
    split
    · rfl
    · split
      · rfl
      · generalize a.getPolygons ctx = x at hp
        generalize b.getPolygons ctx = y at hp
        obtain ⟨x1, x2⟩ := x
        obtain ⟨y1, y2⟩ := y
        simp only at hp
        subst hp
        cases x2 <;> rfl
  refine ⟨h1, hp, hset, ?_⟩
  unfold Robust.area
  generalize a.toPolygonset ctx = x at hset
  generalize b.toPolygonset ctx = y at hset
  obtain ⟨x1, x2⟩ := x
  obtain ⟨y1, y2⟩ := y
  simp only at hset
  subst hset
  cases x2 with
  | error e => rfl
  | ok o => cases o <;> rfl

/-- **C60**, `RobustPath`. Every construction and transformation call that returns forgets the old polygons (a `smooth`
without pieces apart, which changes nothing). -/
theorem C60_robust_forgets (ctx : FlexCtx K) {r s : Robust K} {op : RobustOp K} (hop : op.isQuery = false)
    (hr : r.run ctx op = (s, none)) : s.cache = none ∨ s = r := by
  rcases build_bare (ctx := ctx) hop r with ⟨_, h⟩ | ⟨e, h, _⟩
  · rw [hr] at h; exact Or.inl h
  · rw [hr] at h; exact Or.inr (congrArg Prod.fst h)

end Calls

/-- One path of width 2. -/
def tenRobust : Robust ℚ :=
  { x := (0, 0)
    n := 1
    widths := [2]
    offsets := [0]
    paths := [[]]
    ends := [.flush]
    layers := [0]
    datatypes := [0]
    tolerance := 1 / 100
    precision := 1 / 1000
    maxPoints := 199
    maxEvals := 10
    gdsiiPath := false
    widthTransform := true
    cache := none }

/-- Rational arithmetic for a segment of length 10 and steps of 1 and 1 / 2. -/
def robCtx : FlexCtx ℚ :=
  ⟨{ ratNum with sqrt := fun x => if x = 100 then 10 else if x = 1 then 1 else if x = 1 / 4 then 1 / 2 else 0 },
    fun _ _ _ _ => .error .unmodelled, fun _ _ _ _ => .ok [], 100⟩

/-- The polygons after a history. -/
def robustPolysAfter (ops : List (RobustOp ℚ)) : Option (List (Pgon ℚ)) × Option PyErr :=
  let r := (tenRobust.after robCtx ops).getPolygons robCtx
  match r.2 with
  | .ok d => (some d.all, none)
  | .error e => (none, some e)

/-- Queries between a segment and a translation; the last call raises ValueError. -/
def queriedRobust : List (RobustOp ℚ) :=
  [.segment (10, 0) .none .none false, .polygons, .area, .translate 0 5, .polygonset, .bezier [] .none .none false]

/-- `C60_robust` applies to a history with three queries and an exception. -/
example : QueriesReturn robCtx tenRobust queriedRobust ∧
    robustPolysAfter queriedRobust = (some [[(10, 6), (0, 6), (0, 4), (10, 4)]], none) := by
  refine ⟨⟨fun h => by simp [RobustOp.isQuery] at h, fun _ => by decide +kernel, fun _ => by decide +kernel,
    fun h => by simp [RobustOp.isQuery] at h, fun _ => by decide +kernel,
    fun h => by simp [RobustOp.isQuery] at h, trivial⟩, by decide +kernel⟩

/-- **C60** is false for `RobustPath` if a query raises: an empty path raises IndexError when first asked for its polygons,
and has none when asked again. -/
theorem C60_robust_query_hides_error :
    robustPolysAfter [] = (none, some .indexError) ∧ robustPolysAfter [.polygons] = (some [], none) := by
  decide +kernel

end Gdspy
