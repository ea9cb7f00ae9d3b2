import Verif.Spec.Fracture
import Verif.Spec.Hier
import Mathlib.Algebra.BigOperators.Group.List.Basic
import Mathlib.Data.List.Sort
import Mathlib.Tactic.Linarith

/-!
# C44: fracture respects the vertex limit and keeps the bookkeeping
-/

set_option linter.unusedSectionVars false

namespace Gdspy

open Spec

variable {K : Type} [Field K] [LinearOrder K]

/-! ### The loop as a queue -/

abbrev Tagged (K : Type) := Pgon K × Int × Int

def ofTags (T : List (Tagged K)) : PolySet K :=
  ⟨T.map fun x => x.1, T.map fun x => x.2.1, T.map fun x => x.2.2⟩

omit [Field K] [LinearOrder K] in
theorem ofTags_tags {ps : PolySet K} (h : Aligned ps) : ofTags (tags ps) = ps := by
  obtain ⟨p, l, d⟩ := ps
  simp only [Aligned] at h
  have hz : (l.zip d).length = p.length := by rw [List.length_zip, h.1, h.2, Nat.min_self]
  unfold ofTags tags
  simp only [PolySet.mk.injEq]
  refine ⟨List.map_fst_zip (by omega), ?_, ?_⟩
  · have := List.map_snd_zip (l₁ := p) (l₂ := l.zip d) (by omega)
    have e : (p.zip (l.zip d)).map (fun x => x.2.1) = ((p.zip (l.zip d)).map Prod.snd).map Prod.fst := by
      rw [List.map_map]; rfl
    rw [e, this, List.map_fst_zip (by omega)]
  · have := List.map_snd_zip (l₁ := p) (l₂ := l.zip d) (by omega)
    have e : (p.zip (l.zip d)).map (fun x => x.2.2) = ((p.zip (l.zip d)).map Prod.snd).map Prod.snd := by
      rw [List.map_map]; rfl
    rw [e, this, List.map_snd_zip (by omega)]

omit [Field K] [LinearOrder K] in
theorem tags_ofTags (T : List (Tagged K)) : tags (ofTags T) = T := by
  unfold tags ofTags
  induction T with
  | nil => rfl
  | cons x T ih => simp only [List.map_cons, List.zip_cons_cons, ih]

omit [Field K] [LinearOrder K] in
theorem aligned_ofTags (T : List (Tagged K)) : Aligned (ofTags T) := by simp [Aligned, ofTags]

/-- The loop on the tagged polygons: those already done, and those still to be looked at. -/
def qLoop (chop : Slicer K) (mx : Nat) : Nat → List (Tagged K) → List (Tagged K) →
    Py (Option (List (Tagged K)))
  | 0, _, _ => .ok none
  | _ + 1, D, [] => .ok (some D)
  | n + 1, D, x :: R =>
    if x.1.length > mx then
      match fracCut chop mx x.1 with
      | .error e => .error e
      | .ok ch => qLoop chop mx n D (R ++ ch.flatten.map fun q => (q, x.2))
    else qLoop chop mx n (D ++ [x]) R

theorem pyPop_mid {α : Type} (D R : List α) (x : α) : pyPop (D ++ x :: R) D.length = .ok (x, D ++ R) := by
  unfold pyPop
  rw [List.getElem?_append_right (by simp)]
  simp [List.eraseIdx_append_of_length_le]

theorem fracStep_mid (chop : Slicer K) (mx : Nat) (D R : List (Tagged K)) (x : Tagged K) :
    fracStep chop mx D.length (ofTags (D ++ x :: R)) =
      if x.1.length > mx then
        match fracCut chop mx x.1 with
        | .error e => .error e
        | .ok ch => .ok (some (D.length, ofTags (D ++ (R ++ ch.flatten.map fun q => (q, x.2)))))
      else .ok (some (D.length + 1, ofTags (D ++ x :: R))) := by
  unfold fracStep
  have h0 : (ofTags (D ++ x :: R)).polygons[D.length]? = some x.1 := by simp [ofTags]
  rw [h0]
  simp only
  split
  · cases hc : fracCut chop mx x.1 with
    | error e => rfl
    | ok ch =>
      have e1 : pyPop (ofTags (D ++ x :: R)).polygons D.length
          = .ok (x.1, D.map (fun x => x.1) ++ R.map fun x => x.1) := by
        have := pyPop_mid (D.map fun x => x.1) (R.map fun x => x.1) x.1
        simpa [ofTags] using this
      have e2 : pyPop (ofTags (D ++ x :: R)).layers D.length
          = .ok (x.2.1, D.map (fun x => x.2.1) ++ R.map fun x => x.2.1) := by
        have := pyPop_mid (D.map fun x => x.2.1) (R.map fun x => x.2.1) x.2.1
        simpa [ofTags] using this
      have e3 : pyPop (ofTags (D ++ x :: R)).datatypes D.length
          = .ok (x.2.2, D.map (fun x => x.2.2) ++ R.map fun x => x.2.2) := by
        have := pyPop_mid (D.map fun x => x.2.2) (R.map fun x => x.2.2) x.2.2
        simpa [ofTags] using this
      have hl : (ch.map List.length).sum = ch.flatten.length := by rw [List.length_flatten]
      simp only [bind, Except.bind, e1, e2, e3, hl]
      generalize ch.flatten = fl
      simp [ofTags, Function.comp_def, List.map_const']
  · rfl

theorem fracStep_end (chop : Slicer K) (mx : Nat) (D : List (Tagged K)) :
    fracStep chop mx D.length (ofTags D) = .ok none := by
  unfold fracStep
  have : (ofTags D).polygons[D.length]? = none := by simp [ofTags]
  rw [this]

theorem fracLoop_queue (chop : Slicer K) (mx : Nat) : ∀ (n : Nat) (D Q : List (Tagged K)),
    fracLoop chop mx n D.length (ofTags (D ++ Q)) = (qLoop chop mx n D Q).map (Option.map ofTags)
  | 0, _, _ => rfl
  | n + 1, D, [] => by
    rw [List.append_nil, fracLoop, fracStep_end]
    rfl
  | n + 1, D, x :: R => by
    rw [fracLoop, fracStep_mid, qLoop]
    split
    · cases fracCut chop mx x.1 with
      | error e => rfl
      | ok ch => exact fracLoop_queue chop mx n D _
    · have := fracLoop_queue chop mx n (D ++ [x]) R
      rw [List.length_append, List.length_singleton, List.append_assoc, List.singleton_append] at this
      exact this

/-- `fracture` in terms of the queue. -/
theorem fracture_queue (chop : Slicer K) (fuel mx : Nat) (hm : 4 < mx) {ps : PolySet K} (h : Aligned ps) :
    ps.fracture chop fuel mx = (qLoop chop mx fuel [] (tags ps)).map (Option.map ofTags) := by
  have := fracLoop_queue chop mx fuel [] (tags ps)
  rw [List.length_nil, List.nil_append, ofTags_tags h] at this
  unfold PolySet.fracture
  rw [if_pos hm, this]

/-! ### What a cut does -/

theorem fracCut_chop {chop : Slicer K} {mx : Nat} {p : Pgon K} {ch : List (List (Pgon K))}
    (h : fracCut chop mx p = .ok ch) : ∃ cuts axis, chop p cuts axis = .ok ch := by
  unfold fracCut at h
  simp only at h
  split at h
  · cases hc : cutList (sortedCoords Prod.fst p) ((sortedCoords Prod.fst p).length / mx) with
    | error e => rw [hc] at h; cases h
    | ok cuts => rw [hc] at h; exact ⟨cuts, 0, h⟩
  · cases hc : cutList (sortedCoords Prod.snd p) ((sortedCoords Prod.fst p).length / mx) with
    | error e => rw [hc] at h; cases h
    | ok cuts => rw [hc] at h; exact ⟨cuts, 1, h⟩

/-! ### Invariants of the queue -/

theorem qLoop_small {chop : Slicer K} {mx : Nat} : ∀ (n : Nat) (D Q r : List (Tagged K)),
    (∀ x ∈ D, x.1.length ≤ mx) → qLoop chop mx n D Q = .ok (some r) → ∀ x ∈ r, x.1.length ≤ mx
  | 0, _, _, _, _, h => by simp [qLoop] at h
  | n + 1, D, [], r, hD, h => by
    simp only [qLoop, Except.ok.injEq, Option.some.injEq] at h
    exact h ▸ hD
  | n + 1, D, x :: R, r, hD, h => by
    rw [qLoop] at h
    split at h
    · cases hc : fracCut chop mx x.1 with
      | error e => rw [hc] at h; cases h
      | ok ch => rw [hc] at h; exact qLoop_small n _ _ r hD h
    · rename_i hx
      refine qLoop_small n _ _ r ?_ h
      intro y hy
      rcases List.mem_append.1 hy with hy | hy
      · exact hD y hy
      · rw [List.mem_singleton.1 hy]
        omega

theorem qLoop_origin {chop : Slicer K} {mx : Nat} : ∀ (n : Nat) (D Q r : List (Tagged K)),
    qLoop chop mx n D Q = .ok (some r) →
    ∀ x ∈ r, ∃ y ∈ D ++ Q, y.2 = x.2 ∧ PieceOf chop y.1 x.1
  | 0, _, _, _, h => by simp [qLoop] at h
  | n + 1, D, [], r, h => by
    simp only [qLoop, Except.ok.injEq, Option.some.injEq] at h
    subst h
    exact fun x hx => ⟨x, by simpa using hx, rfl, .self _⟩
  | n + 1, D, x :: R, r, h => by
    rw [qLoop] at h
    split at h
    · cases hc : fracCut chop mx x.1 with
      | error e => rw [hc] at h; cases h
      | ok ch =>
        rw [hc] at h
        obtain ⟨cuts, axis, hch⟩ := fracCut_chop hc
        intro z hz
        obtain ⟨y, hy, h1, h2⟩ := qLoop_origin n _ _ r h z hz
        rw [List.mem_append, List.mem_append, List.mem_map] at hy
        rcases hy with hy | hy | ⟨q, hq, rfl⟩
        · exact ⟨y, by simp [hy], h1, h2⟩
        · exact ⟨y, by simp [hy], h1, h2⟩
        · obtain ⟨slab, hs, hq⟩ := List.mem_flatten.1 hq
          exact ⟨x, by simp, h1, .cut hch hs hq h2⟩
    · have := qLoop_origin n _ _ r h
      intro z hz
      obtain ⟨y, hy, h1, h2⟩ := this z hz
      exact ⟨y, by simpa using hy, h1, h2⟩

theorem qLoop_kept {chop : Slicer K} {mx : Nat} : ∀ (n : Nat) (D Q r : List (Tagged K)),
    (∀ x ∈ D, x.1.length ≤ mx) → qLoop chop mx n D Q = .ok (some r) →
    (D ++ Q.filter fun x => x.1.length ≤ mx) <+: r
  | 0, _, _, _, _, h => by simp [qLoop] at h
  | n + 1, D, [], r, hD, h => by
    simp only [qLoop, Except.ok.injEq, Option.some.injEq] at h
    subst h
    simp
  | n + 1, D, x :: R, r, hD, h => by
    rw [qLoop] at h
    split at h
    · rename_i hx
      cases hc : fracCut chop mx x.1 with
      | error e => rw [hc] at h; cases h
      | ok ch =>
        rw [hc] at h
        have := qLoop_kept n _ _ r hD h
        rw [List.filter_append, ← List.append_assoc] at this
        rw [List.filter_cons_of_neg (by simpa using hx)]
        exact (List.prefix_append _ _).trans this
    · rename_i hx
      have := qLoop_kept n (D ++ [x]) R r ?_ h
      · rw [List.filter_cons_of_pos (by simpa using hx)]
        simpa using this
      · intro y hy
        rcases List.mem_append.1 hy with hy | hy
        · exact hD y hy
        · rw [List.mem_singleton.1 hy]
          omega

/-- Sum of `μ` over the entries with a tag. -/
def tagSum {M : Type} [AddCommMonoid M] (μ : Pgon K → M) (k : Int × Int) (T : List (Tagged K)) : M :=
  ((T.filter fun q => q.2 = k).map fun q => μ q.1).sum

omit [Field K] [LinearOrder K] in
theorem tagSum_append {M : Type} [AddCommMonoid M] (μ : Pgon K → M) (k : Int × Int) (S T : List (Tagged K)) :
    tagSum μ k (S ++ T) = tagSum μ k S + tagSum μ k T := by
  simp [tagSum]

theorem qLoop_sum {M : Type} [AddCommMonoid M] {chop : Slicer K} {μ : Pgon K → M}
    (hμ : ∀ p cuts axis slabs, chop p cuts axis = .ok slabs → ((slabs.flatten).map μ).sum = μ p)
    {mx : Nat} (k : Int × Int) : ∀ (n : Nat) (D Q r : List (Tagged K)),
    qLoop chop mx n D Q = .ok (some r) → tagSum μ k r = tagSum μ k (D ++ Q)
  | 0, _, _, _, h => by simp [qLoop] at h
  | n + 1, D, [], r, h => by
    simp only [qLoop, Except.ok.injEq, Option.some.injEq] at h
    subst h
    simp
  | n + 1, D, x :: R, r, h => by
    rw [qLoop] at h
    split at h
    · cases hc : fracCut chop mx x.1 with
      | error e => rw [hc] at h; cases h
      | ok ch =>
        rw [hc] at h
        obtain ⟨cuts, axis, hch⟩ := fracCut_chop hc
        rw [qLoop_sum hμ k n _ _ r h, tagSum_append, tagSum_append, tagSum_append]
        have e : tagSum μ k (ch.flatten.map fun q => (q, x.2)) = tagSum μ k [x] := by
          unfold tagSum
          rw [List.filter_map]
          by_cases hk : x.2 = k
          · simp only [Function.comp_def, hk, decide_true, List.filter_true, List.map_map]
            rw [List.filter_cons_of_pos (by simpa using hk)]
            simpa using hμ _ _ _ _ hch
          · simp [Function.comp_def, hk]
        have e2 : tagSum μ k (x :: R) = tagSum μ k [x] + tagSum μ k R :=
          tagSum_append μ k [x] R
        rw [e, e2, add_comm (tagSum μ k R)]
    · rw [qLoop_sum hμ k n _ _ r h, List.append_assoc]
      rfl

/-! ### Termination -/

theorem cutIndex_lt {n mx i : Nat} (hm : 4 < mx) (_hn : mx < n) (h1 : 1 ≤ i) (h2 : i ≤ n / mx) :
    cutIndex n (n / mx) i < n := by
  unfold cutIndex
  generalize hc : n / mx = c at h2 ⊢
  have hcn : c * mx ≤ n := by rw [← hc]; exact Nat.div_mul_le_self n mx
  rw [Nat.div_lt_iff_lt_mul (by omega)]
  have h3 : i * n ≤ c * n := Nat.mul_le_mul_right n h2
  have h4 : c * 5 ≤ c * mx := Nat.mul_le_mul_left c hm
  have h5 : n * (2 * (c + 1)) = 2 * (c * n) + 2 * n := by
    rw [Nat.mul_comm n, Nat.mul_assoc, Nat.add_mul, Nat.one_mul, Nat.mul_add]
  omega

omit [Field K] in
theorem sortedCoords_length (f : Pt K → K) (p : Pgon K) : (sortedCoords f p).length = p.length := by
  simp [sortedCoords]

omit [Field K] in
theorem mapM_ok {α β : Type} {f : α → Py β} : ∀ {l : List α}, (∀ a ∈ l, ∃ b, f a = .ok b) →
    ∃ bs, l.mapM f = .ok bs
  | [], _ => ⟨[], rfl⟩
  | a :: l, h => by
    obtain ⟨b, hb⟩ := h a List.mem_cons_self
    obtain ⟨bs, hbs⟩ := mapM_ok (l := l) fun c hc => h c (List.mem_cons_of_mem _ hc)
    exact ⟨b :: bs, by rw [List.mapM_cons, hb, hbs]; rfl⟩

omit [Field K] in
/-- The cut positions are always found: no IndexError. -/
theorem cutList_ok {pts : List K} {mx : Nat} (hm : 4 < mx) (hn : mx < pts.length) :
    ∃ cuts, cutList pts (pts.length / mx) = .ok cuts := by
  unfold cutList
  refine mapM_ok ?_
  intro i hi
  rw [List.mem_range'_1] at hi
  have := cutIndex_lt hm hn hi.1 (by omega)
  rw [List.getElem?_eq_getElem this]
  exact ⟨_, rfl⟩

theorem fracCut_ok {chop : Slicer K} {mx : Nat} (hm : 4 < mx) {p : Pgon K} (hp : mx < p.length)
    (hc : ∀ cuts axis, ∃ slabs, chop p cuts axis = .ok slabs) : ∃ ch, fracCut chop mx p = .ok ch := by
  unfold fracCut
  simp only
  split
  · obtain ⟨cuts, h⟩ := cutList_ok (pts := sortedCoords Prod.fst p) hm (by rwa [sortedCoords_length])
    rw [h]
    exact hc cuts 0
  · obtain ⟨cuts, h⟩ := cutList_ok (pts := sortedCoords Prod.snd p) hm (by rwa [sortedCoords_length])
    rw [sortedCoords_length] at h
    rw [sortedCoords_length, h]
    exact hc cuts 1

theorem qLoop_ends {chop : Slicer K} {mx : Nat} (hm : 4 < mx)
    (hc : ∀ p : Pgon K, mx < p.length → ∀ cuts axis, ∃ slabs, chop p cuts axis = .ok slabs ∧
      ∀ q ∈ slabs.flatten, q.length < p.length) : ∀ (n : Nat) (A B D : List (Tagged K)),
    (∀ x ∈ A, x.1.length ≤ n + 1) → (∀ x ∈ B, x.1.length ≤ n) →
    ∃ fuel r, qLoop chop mx fuel D (A ++ B) = .ok (some r) := by
  intro n
  induction n with
  | zero =>
    intro A B D hA hB
    have h : ∀ Q D : List (Tagged K), (∀ x ∈ Q, x.1.length ≤ mx) →
        ∃ fuel r, qLoop chop mx fuel D Q = .ok (some r) := by
      intro Q
      induction Q with
      | nil => exact fun D _ => ⟨1, D, rfl⟩
      | cons x Q ih =>
        intro D h
        obtain ⟨fuel, r, hr⟩ := ih (D ++ [x]) fun y hy => h y (List.mem_cons_of_mem _ hy)
        refine ⟨fuel + 1, r, ?_⟩
        rw [qLoop, if_neg (by have := h x List.mem_cons_self; omega), hr]
    refine h _ D ?_
    intro x hx
    rcases List.mem_append.1 hx with hx | hx
    · have := hA x hx; omega
    · have := hB x hx; omega
  | succ n ihn =>
    intro A
    induction A with
    | nil =>
      intro B D _ hB
      have := ihn B [] D hB (by simp)
      simpa using this
    | cons x A ihA =>
      intro B D hA hB
      have hA' : ∀ y ∈ A, y.1.length ≤ n + 1 + 1 := fun y hy => hA y (List.mem_cons_of_mem _ hy)
      by_cases hx : x.1.length > mx
      · have hc' := hc x.1 hx
        obtain ⟨ch, hch⟩ := fracCut_ok (chop := chop) hm hx fun cuts axis => by
          obtain ⟨s, hs, -⟩ := hc' cuts axis
          exact ⟨s, hs⟩
        obtain ⟨cuts, axis, hcc⟩ := fracCut_chop hch
        obtain ⟨s, hs, hlt⟩ := hc' cuts axis
        obtain rfl : ch = s := by rw [hcc] at hs; cases hs; rfl
        obtain ⟨fuel, r, hr⟩ := ihA (B ++ ch.flatten.map fun q => (q, x.2)) D hA' (by
          intro y hy
          rcases List.mem_append.1 hy with hy | hy
          · exact hB y hy
          · obtain ⟨q, hq, rfl⟩ := List.mem_map.1 hy
            have h1 := hlt q hq
            have h2 := hA x List.mem_cons_self
            simp only
            omega)
        refine ⟨fuel + 1, r, ?_⟩
        rw [List.cons_append, qLoop, if_pos hx, hch]
        simp only
        rw [List.append_assoc, hr]
      · obtain ⟨fuel, r, hr⟩ := ihA B (D ++ [x]) hA' hB
        refine ⟨fuel + 1, r, ?_⟩
        rw [List.cons_append, qLoop, if_neg hx, hr]

theorem mem_le_sum (a : Nat) : ∀ l : List Nat, a ∈ l → a ≤ l.sum
  | [], h => by simp at h
  | b :: l, h => by
    rw [List.sum_cons]
    rcases List.mem_cons.1 h with rfl | h
    · omega
    · have := mem_le_sum a l h
      omega

/-! ### The property -/

theorem fracture_result {chop : Slicer K} {fuel mx : Nat} (hm : 4 < mx) {ps r : PolySet K} (h : Aligned ps)
    (hr : ps.fracture chop fuel mx = .ok (some r)) :
    ∃ T, qLoop chop mx fuel [] (tags ps) = .ok (some T) ∧ r = ofTags T := by
  rw [fracture_queue chop fuel mx hm h] at hr
  cases hq : qLoop chop mx fuel [] (tags ps) with
  | error e => rw [hq] at hr; cases hr
  | ok o =>
    rw [hq] at hr
    cases o with
    | none => cases hr
    | some T => cases hr; exact ⟨T, rfl, rfl⟩

/-- **C44.** When fracture returns, no polygon has more than `max_points` vertices; there are as many
layers and datatypes as polygons; every polygon is a piece of an original one and has its layer and
datatype; and the polygons that were within the limit are still there, unchanged, first and in order. -/
theorem C44_fracture (chop : Slicer K) (fuel mx : Nat) (hm : 4 < mx) (ps r : PolySet K) (h : Aligned ps)
    (hr : ps.fracture chop fuel mx = .ok (some r)) :
    Aligned r ∧ (∀ p ∈ r.polygons, p.length ≤ mx) ∧
    (∀ x ∈ tags r, ∃ y ∈ tags ps, y.2 = x.2 ∧ PieceOf chop y.1 x.1) ∧
    ((tags ps).filter fun x => x.1.length ≤ mx) <+: tags r := by
  obtain ⟨T, hT, rfl⟩ := fracture_result hm h hr
  refine ⟨aligned_ofTags T, ?_, ?_, ?_⟩
  · intro p hp
    simp only [ofTags, List.mem_map] at hp
    obtain ⟨x, hx, rfl⟩ := hp
    exact qLoop_small fuel [] _ T (by simp) hT x hx
  · rw [tags_ofTags]
    simpa using qLoop_origin fuel [] _ T hT
  · rw [tags_ofTags]
    simpa using qLoop_kept fuel [] _ T (by simp) hT

/-- **C44.** Any quantity that the slicer distributes over the pieces (area, the number of polygons
covering a point off the cuts, ...) has the same total before and after, separately for each layer and
datatype. -/
theorem C44_additive {M : Type} [AddCommMonoid M] (μ : Pgon K → M) (chop : Slicer K)
    (hμ : ∀ p cuts axis slabs, chop p cuts axis = .ok slabs → ((slabs.flatten).map μ).sum = μ p)
    (fuel mx : Nat) (ps r : PolySet K) (h : Aligned ps) (hr : ps.fracture chop fuel mx = .ok (some r))
    (l d : Int) : ((withTag r l d).map μ).sum = ((withTag ps l d).map μ).sum := by
  by_cases hm : 4 < mx
  · obtain ⟨T, hT, rfl⟩ := fracture_result hm h hr
    have := qLoop_sum hμ (l, d) fuel [] _ T hT
    unfold withTag
    rw [tags_ofTags, List.map_map, List.map_map]
    exact this
  · unfold PolySet.fracture at hr
    rw [if_neg hm] at hr
    cases hr
    rfl

/-- **C44.** The region covered by the polygons of each layer and datatype is the same before and
after, for a slicer whose pieces cover the region of the polygon. This is only needed of a class of polygons
(say, those on the grid of the slicer) which contains the polygons of the set and their pieces. -/
theorem C44_region (Good : Pgon K → Prop) (covers : Pgon K → Pt K → Prop) (chop : Slicer K)
    (hμ : ∀ p cuts axis slabs, Good p → chop p cuts axis = .ok slabs →
      (∀ v, covers p v ↔ ∃ q ∈ slabs.flatten, covers q v) ∧ ∀ q ∈ slabs.flatten, Good q)
    (fuel mx : Nat) (ps r : PolySet K) (h : Aligned ps) (hg : ∀ p ∈ ps.polygons, Good p)
    (hr : ps.fracture chop fuel mx = .ok (some r)) (l d : Int) (v : Pt K) :
    (∃ p ∈ withTag r l d, covers p v) ↔ ∃ p ∈ withTag ps l d, covers p v := by
  by_cases hm : 4 < mx
  · obtain ⟨T, hT, rfl⟩ := fracture_result hm h hr
    have key : ∀ (n : Nat) (D Q r : List (Tagged K)), (∀ x ∈ Q, Good x.1) → qLoop chop mx n D Q = .ok (some r) →
        ((∃ x ∈ r, x.2 = (l, d) ∧ covers x.1 v) ↔ ∃ x ∈ D ++ Q, x.2 = (l, d) ∧ covers x.1 v) := by
      intro n
      induction n with
      | zero => intro D Q r _ h; simp [qLoop] at h
      | succ n ih =>
        intro D Q r hQ h
        cases Q with
        | nil =>
          simp only [qLoop, Except.ok.injEq, Option.some.injEq] at h
          subst h
          simp
        | cons x R =>
          rw [qLoop] at h
          split at h
          · cases hc : fracCut chop mx x.1 with
            | error e => rw [hc] at h; cases h
            | ok ch =>
              rw [hc] at h
              obtain ⟨cuts, axis, hch⟩ := fracCut_chop hc
              have hpc := hμ _ _ _ _ (hQ x List.mem_cons_self) hch
              rw [ih _ _ r (by
                intro y hy
                rcases List.mem_append.1 hy with hy | hy
                · exact hQ y (List.mem_cons_of_mem _ hy)
                · obtain ⟨q, hq, rfl⟩ := List.mem_map.1 hy
                  exact hpc.2 q hq) h]
              have hcov := hpc.1 v
              constructor
              · rintro ⟨y, hy, h1, h2⟩
                rw [List.mem_append, List.mem_append, List.mem_map] at hy
                rcases hy with hy | hy | ⟨q, hq, rfl⟩
                · exact ⟨y, by simp [hy], h1, h2⟩
                · exact ⟨y, by simp [hy], h1, h2⟩
                · exact ⟨x, by simp, h1, hcov.2 ⟨q, hq, h2⟩⟩
              · rintro ⟨y, hy, h1, h2⟩
                rw [List.mem_append, List.mem_cons] at hy
                rcases hy with hy | rfl | hy
                · exact ⟨y, by simp [hy], h1, h2⟩
                · obtain ⟨q, hq, h3⟩ := hcov.1 h2
                  refine ⟨(q, y.2), ?_, h1, h3⟩
                  rw [List.mem_append, List.mem_append, List.mem_map]
                  exact .inr (.inr ⟨q, hq, rfl⟩)
                · exact ⟨y, by simp [hy], h1, h2⟩
          · rw [ih _ _ r (fun y hy => hQ y (List.mem_cons_of_mem _ hy)) h]
            simp
    have := key fuel [] _ T (fun x hx => hg _ (List.of_mem_zip hx).1) hT
    unfold withTag
    rw [tags_ofTags]
    simp only [List.nil_append] at this
    constructor
    · rintro ⟨p, hp, hv⟩
      obtain ⟨x, hx, rfl⟩ := List.mem_map.1 hp
      rw [List.mem_filter] at hx
      obtain ⟨y, hy, h1, h2⟩ := this.1 ⟨x, hx.1, by simpa using hx.2, hv⟩
      exact ⟨y.1, List.mem_map.2 ⟨y, List.mem_filter.2 ⟨hy, by simpa using h1⟩, rfl⟩, h2⟩
    · rintro ⟨p, hp, hv⟩
      obtain ⟨x, hx, rfl⟩ := List.mem_map.1 hp
      rw [List.mem_filter] at hx
      obtain ⟨y, hy, h1, h2⟩ := this.2 ⟨x, hx.1, by simpa using hx.2, hv⟩
      exact ⟨y.1, List.mem_map.2 ⟨y, List.mem_filter.2 ⟨hy, by simpa using h1⟩, rfl⟩, h2⟩
  · unfold PolySet.fracture at hr
    rw [if_neg hm] at hr
    cases hr
    rfl

/-- **C44.** With `max_points` 4 or less nothing happens. -/
theorem C44_small_limit (chop : Slicer K) (fuel mx : Nat) (hm : mx ≤ 4) (ps : PolySet K) :
    ps.fracture chop fuel mx = .ok (some ps) := by
  unfold PolySet.fracture
  rw [if_neg (by omega)]

/-- **C44.** fracture ends, without exception, if slicing a polygon above the limit always gives pieces
with fewer vertices than the polygon. -/
theorem C44_terminates (chop : Slicer K) (mx : Nat)
    (hc : ∀ p : Pgon K, mx < p.length → ∀ cuts axis, ∃ slabs, chop p cuts axis = .ok slabs ∧
      ∀ q ∈ slabs.flatten, q.length < p.length) (ps : PolySet K) (h : Aligned ps) :
    ∃ fuel r, ps.fracture chop fuel mx = .ok (some r) := by
  by_cases hm : 4 < mx
  · obtain ⟨fuel, T, hT⟩ := qLoop_ends hm hc ((tags ps).map fun x => x.1.length).sum [] (tags ps) [] (by simp)
      (fun x hx => mem_le_sum _ _ (List.mem_map_of_mem (f := fun x => x.1.length) hx))
    refine ⟨fuel, ofTags T, ?_⟩
    rw [fracture_queue chop fuel mx hm h]
    simp only [List.nil_append] at hT
    rw [hT]
    rfl
  · exact ⟨0, ps, C44_small_limit chop 0 mx (by omega) ps⟩

/-- **C44.** In general it does not end: if the cut falls on the smallest coordinate (because more than
half of the vertices have it) and the slicer returns the polygon whole, as an exact slicer must, with
its vertices in any order, the loop goes on forever. -/
theorem C44_may_not_end (chop : Slicer K) (mx : Nat) (hm : 4 < mx) (P : Pgon K) (h1 : mx < P.length)
    (h2 : P.length < 2 * mx) (m : K) (hwide : spread (sortedCoords Prod.snd P) < spread (sortedCoords Prod.fst P))
    (hmin : (sortedCoords Prod.fst P)[cutIndex P.length 1 1]? = some m)
    (hchop : ∀ p, p.Perm P → ∃ p', p'.Perm P ∧ chop p [m] 0 = .ok [[], [p']]) (l d : Int) (fuel : Nat) :
    (PolySet.polygon P l d).fracture chop fuel mx = .ok none := by
  have hs : ∀ (f : Pt K → K) (p : Pgon K), p.Perm P → sortedCoords f p = sortedCoords f P := by
    intro f p hp
    unfold sortedCoords
    refine List.Perm.eq_of_pairwise (le := fun a b : K => a ≤ b) ?_ ?_ ?_ ?_
    · intro a b _ _ hab hba
      exact le_antisymm hab hba
    · exact List.pairwise_insertionSort _ _
    · exact List.pairwise_insertionSort _ _
    · exact ((List.perm_insertionSort _ _).trans (hp.map f)).trans (List.perm_insertionSort _ _).symm
  have hd : P.length / mx = 1 := by
    rw [Nat.div_eq_iff (by omega)]
    omega
  have hcut : ∀ p, p.Perm P → ∃ p', p'.Perm P ∧ fracCut chop mx p = .ok [[], [p']] := by
    intro p hp
    obtain ⟨p', hp', hc⟩ := hchop p hp
    refine ⟨p', hp', ?_⟩
    unfold fracCut
    simp only
    rw [hs _ p hp, hs _ p hp, if_pos hwide, sortedCoords_length, hd]
    have : cutList (sortedCoords Prod.fst P) 1 = .ok [m] := by
      unfold cutList
      rw [List.range'_one, List.mapM_cons, sortedCoords_length, hmin]
      rfl
    rw [this]
    exact hc
  have key : ∀ (fuel : Nat) (p : Pgon K), p.Perm P → qLoop chop mx fuel [] [(p, l, d)] = .ok none := by
    intro fuel
    induction fuel with
    | zero => intro p _; rfl
    | succ fuel ih =>
      intro p hp
      obtain ⟨p', hp', hc⟩ := hcut p hp
      rw [qLoop, if_pos (by rw [hp.length_eq]; exact h1), hc]
      exact ih p' hp'
  rw [fracture_queue chop fuel mx hm (by simp [Aligned, PolySet.polygon])]
  have : tags (PolySet.polygon P l d) = [(P, l, d)] := rfl
  rw [this, key fuel P (List.Perm.refl _)]
  rfl

/-! ### Examples -/

/-- A comb with four of its six vertices on the left side. -/
def comb : Pgon ℚ := [(0, 0), (0, 1), (5, 3 / 2), (0, 2), (0, 3), (10, 3 / 2)]

/-- The comb satisfies the conditions of `C44_may_not_end` with `max_points = 5`. -/
example : 5 < comb.length ∧ comb.length < 2 * 5 ∧
    spread (sortedCoords Prod.snd comb) < spread (sortedCoords Prod.fst comb) ∧
    (sortedCoords Prod.fst comb)[cutIndex comb.length 1 1]? = some 0 := by decide +kernel

/-- A slicer that halves the list of vertices. -/
def halver : Slicer ℚ := fun p _ _ => .ok [[p.take (p.length / 2)], [p.drop (p.length / 2)]]

example : (⟨[[(0, 0), (1, 0), (1, 1)], comb], [1, 2], [3, 4]⟩ : PolySet ℚ).fracture halver 9 5
    = .ok (some ⟨[[(0, 0), (1, 0), (1, 1)], comb.take 3, comb.drop 3], [1, 2, 2], [3, 4, 4]⟩) := by
  decide +kernel

example : ∀ p : Pgon ℚ, 5 < p.length → ∀ cuts axis, ∃ slabs, halver p cuts axis = .ok slabs ∧
    ∀ q ∈ slabs.flatten, q.length < p.length := by
  intro p hp cuts axis
  refine ⟨_, rfl, ?_⟩
  intro q hq
  simp only [List.flatten_cons, List.flatten_nil, List.append_nil, List.mem_append, List.mem_singleton] at hq
  rcases hq with rfl | rfl <;> simp <;> omega

end Gdspy
