import Verif.Lemmas.Clip
import Verif.Lemmas.RefEngine
import Verif.Props.C53

/-!
C50: `slice` partitions the polygons.
-/

set_option linter.unusedSectionVars false

namespace Gdspy

open Gdspy.Spec

variable {K : Type} [Field K] [LinearOrder K] [IsStrictOrderedRing K] [FloorRing K]

theorem sliceLoop_spec {C : List IPt → Prop} (hC : Class C) {e : Engine K} (he : Exact C e) {precision : K}
    (hp : 0 < precision) (axis : Nat) (cuts : List K) (hc : cuts.Pairwise (· ≤ ·)) (polys : List (Pgon K))
    (hne : ∀ P ∈ polys, P ≠ []) (hs : ∀ P ∈ polys, C (P.map (gridPt (1 / precision))))
    (acc : List (List (Pgon K))) (ha : acc.length = cuts.length + 1) :
    ∃ out, sliceLoop e (1 / precision) axis cuts acc (polys.map .poly) = .ok out ∧
      out.length = cuts.length + 1 ∧
      ∀ (i : Nat) (L A : List (Pgon K)), out[i]? = some L → acc[i]? = some A → ∀ v,
        (Covers L v ↔ Covers A v ∨
          ((∃ P ∈ polys, wind (snapPoly precision P) v ≠ 0) ∧ InSlab axis (cuts.map (snap precision)) i v)) := by
  induction polys generalizing acc with
  | nil =>
    refine ⟨acc, rfl, ha, fun i L A hL hA v => ?_⟩
    rw [hL] at hA
    cases hA
    simp
  | cons P polys ih =>
    obtain ⟨slabs, h1, h2, h3⟩ := chop_spec hC he hp axis P (hne P List.mem_cons_self)
      (hs P List.mem_cons_self) cuts hc
    obtain ⟨out, h4, h5, h6⟩ := ih (fun Q hQ => hne Q (List.mem_cons_of_mem _ hQ))
      (fun Q hQ => hs Q (List.mem_cons_of_mem _ hQ)) (List.zipWith (· ++ ·) acc slabs)
      (by rw [List.length_zipWith, ha, h2, Nat.min_self])
    refine ⟨out, ?_, h5, fun i L A hL hA v => ?_⟩
    · rw [List.map_cons, sliceLoop, h1, py_bind_ok]
      exact h4
    · have hi : i < slabs.length := by
        rw [h2, ← ha]
        exact (List.getElem?_eq_some_iff.1 hA).1
      have hz : (List.zipWith (· ++ ·) acc slabs)[i]? = some (A ++ slabs[i]) := by
        rw [List.getElem?_zipWith, hA, List.getElem?_eq_getElem hi]
      rw [h6 i L _ hL hz v, covers_append, h3 i _ (List.getElem?_eq_getElem hi) v]
      simp only [List.mem_cons, exists_eq_or_imp]
      tauto

/-- The pieces are not empty polygons. -/
theorem chopLoop_nonempty {C : List IPt → Prop} (hC : Class C) {e : Engine K} (he : Exact C e) {precision : K}
    (hp : 0 < precision) (axis : Nat) (subj : List IPt) (hs : C subj) (b : IBox) (c0 : Int) (cuts : List K) :
    ∀ L ∈ chopLoop e (1 / precision) axis subj b c0 cuts, ∀ q ∈ L, ∃ v, wind q v ≠ 0 := by
  have one : ∀ c0 c1, ∀ q ∈ buildTuple (1 / precision) (e.clip .and [subj] [chopRect axis b c0 c1]),
      ∃ v, wind q v ≠ 0 := by
    intro c0 c1 q hq
    obtain ⟨r, hr, rfl⟩ := List.mem_map.1 hq
    have hrect : C (chopRect axis b c0 c1) := by
      unfold chopRect
      split <;> exact hC.rect _ _ _ _
    obtain ⟨v, hv⟩ := he.nonempty _ _ _ (by simpa using hs) (by simpa using hrect) r hr
    refine ⟨(precision * v.1, precision * v.2), ?_⟩
    rw [wind_build hp]
    have : unit precision (precision * v.1, precision * v.2) = v := by
      unfold unit
      ext <;> simp <;> field_simp
    rwa [this]
  induction cuts generalizing c0 with
  | nil =>
    intro L hL
    rw [chopLoop, List.mem_singleton] at hL
    rw [hL]
    exact one _ _
  | cons a r ih =>
    intro L hL
    rw [chopLoop] at hL
    rcases List.mem_cons.1 hL with rfl | hL
    · exact one _ _
    · exact ih _ L hL

theorem sliceLoop_nonempty {C : List IPt → Prop} (hC : Class C) {e : Engine K} (he : Exact C e) {precision : K}
    (hp : 0 < precision) (axis : Nat) (cuts : List K) (polys : List (Pgon K))
    (hs : ∀ P ∈ polys, C (P.map (gridPt (1 / precision))))
    (acc out : List (List (Pgon K))) (ha : ∀ L ∈ acc, ∀ q ∈ L, ∃ v, wind q v ≠ 0)
    (h : sliceLoop e (1 / precision) axis cuts acc (polys.map .poly) = .ok out) :
    ∀ L ∈ out, ∀ q ∈ L, ∃ v, wind q v ≠ 0 := by
  induction polys generalizing acc with
  | nil =>
    simp only [List.map_nil, sliceLoop, Except.ok.injEq] at h
    exact h ▸ ha
  | cons P polys ih =>
    rw [List.map_cons, sliceLoop] at h
    obtain ⟨slabs, h1, h2⟩ := py_bind_eq_ok h
    refine ih (fun Q hQ => hs Q (List.mem_cons_of_mem _ hQ)) _ ?_ h2
    intro L hL q hq
    obtain ⟨i, hi⟩ := List.mem_iff_getElem?.1 hL
    rw [List.getElem?_zipWith] at hi
    cases hA : acc[i]? with
    | none => simp [hA] at hi
    | some A =>
      cases hB : slabs[i]? with
      | none => simp [hA, hB] at hi
      | some B =>
        simp only [hA, hB, Option.some.injEq] at hi
        rw [← hi] at hq
        rcases List.mem_append.1 hq with hq | hq
        · exact ha A (List.mem_of_getElem? hA) q hq
        · unfold chop at h1
          simp only at h1
          split at h1
          · cases h1
          · rw [Except.ok.injEq] at h1
            rw [← h1] at hB
            exact chopLoop_nonempty hC he hp axis _ (class_parse hC (hs P List.mem_cons_self)) _ _ _ B
              (List.mem_of_getElem? hB) q hq

theorem mapM_zipIdx {α β : Type} (f : Nat → α → Py β) (g : Nat → α → β) (l : List α) (k : Nat)
    (h : ∀ (i : Nat) (a : α), l[i]? = some a → f (k + i) a = .ok (g (k + i) a)) :
    (l.zipIdx k).mapM (fun x => f x.2 x.1) = .ok ((l.zipIdx k).map fun x => g x.2 x.1) := by
  induction l generalizing k with
  | nil => rfl
  | cons a l ih =>
    rw [List.zipIdx_cons, List.mapM_cons, List.map_cons]
    have h0 := h 0 a rfl
    simp only [Nat.add_zero] at h0
    rw [h0, py_bind_ok, ih (k + 1) (fun i b hb => by
      have := h (i + 1) b hb
      rwa [show k + (i + 1) = k + 1 + i by omega] at this), py_bind_ok]
    rfl

/-- The layer of entry `i`: the given ones, cyclically. -/
def Spec.cyclic (l : List Int) (i : Nat) : Int := l.getD (i % l.length) 0

theorem sliceEntry_ok (layer datatype : List Int) (hl : layer ≠ []) (hd : datatype ≠ []) (i : Nat)
    (polys : List (Pgon K)) : sliceEntry layer datatype i polys =
      .ok (if polys = [] then none else some (PolySet.new polys (cyclic layer i) (cyclic datatype i))) := by
  have h1 : i % layer.length < layer.length := Nat.mod_lt _ (List.length_pos_iff.2 hl)
  have h2 : i % datatype.length < datatype.length := Nat.mod_lt _ (List.length_pos_iff.2 hd)
  unfold sliceEntry cyclic
  split
  · rfl
  · simp only [List.getD_eq_getElem?_getD, List.getElem?_eq_getElem h1, List.getElem?_eq_getElem h2,
      Option.getD_some]

theorem sorted_vals (p : PosArg K) : p.sorted.Pairwise (· ≤ ·) ∧ p.sorted.Perm p.vals := by
  cases p with
  | one x => exact ⟨by simp [PosArg.sorted], List.Perm.refl _⟩
  | list l => exact ⟨List.pairwise_insertionSort _ l, List.perm_insertionSort _ l⟩

/-- **C50.** With an exact clipper, `slice` returns one entry more than there are positions. Entry `i`
covers the points that the polygons (moved to the grid) cover between the positions number `i - 1` and `i` in
increasing order (moved to the grid), without limit at the ends. It is None if there is no such point. All
its polygons have the layer and datatype number `i`, cyclically. -/
theorem C50_slice {C : List IPt → Prop} (hC : Class C) {e : Engine K} (he : Exact C e) {precision : K}
    (hp : 0 < precision) (o : Operand K) (ho : ¬ HasFlex o) (hb : ¬ BareVertices o)
    (hne : ∀ P ∈ operandPolys o, P ≠ []) (hs : ∀ P ∈ operandPolys o, C (P.map (gridPt (1 / precision))))
    (position : PosArg K) (axis : Nat) (layer datatype : LayerArg) (hl : layer.ints ≠ [])
    (hd : datatype.ints ≠ []) :
    ∃ out c, sliceOp e o position axis precision layer datatype = .ok out ∧
      c.Pairwise (· ≤ ·) ∧ c.Perm (position.vals.map (snap precision)) ∧
      out.length = position.vals.length + 1 ∧
      ∀ (i : Nat) (x : Option (PolySet K)), out[i]? = some x →
        (∀ v, (∃ ps, x = some ps ∧ Covers ps.polygons v) ↔
          (∃ P ∈ operandPolys o, wind (snapPoly precision P) v ≠ 0) ∧ InSlab axis c i v) ∧
        (x = none ↔ ∀ v, ¬ ((∃ P ∈ operandPolys o, wind (snapPoly precision P) v ≠ 0) ∧ InSlab axis c i v)) ∧
        ∀ ps, x = some ps → Aligned ps ∧ (∀ a ∈ ps.layers, a = cyclic layer.ints i) ∧
          ∀ a ∈ ps.datatypes, a = cyclic datatype.ints i := by
  obtain ⟨hsort, hperm⟩ := sorted_vals position
  obtain ⟨out, h1, h2, h3⟩ := sliceLoop_spec hC he hp axis position.sorted hsort (operandPolys o) hne hs
    (List.replicate (position.sorted.length + 1) []) (by simp)
  have h4 := sliceLoop_nonempty hC he hp axis position.sorted (operandPolys o) hs _ out
    (fun L hL q hq => by rw [List.eq_of_mem_replicate hL] at hq; simp at hq) h1
  have hmap := mapM_zipIdx (sliceEntry layer.ints datatype.ints)
    (fun i polys => if polys = [] then none else
      some (PolySet.new polys (cyclic layer.ints i) (cyclic datatype.ints i))) out 0
    (fun i a _ => sliceEntry_ok _ _ hl hd _ _)
  have hres : sliceOp e o position axis precision layer datatype = .ok (out.zipIdx.map fun x =>
      if x.1 = [] then none else some (PolySet.new x.1 (cyclic layer.ints x.2) (cyclic datatype.ints x.2))) := by
    unfold sliceOp
    rw [C53_gather_partial o ho hb, py_bind_ok]
    simp only [hp.ne', if_false]
    rw [h1, py_bind_ok]
    exact hmap
  refine ⟨_, position.sorted.map (snap precision), hres, ?h2, hperm.map _, ?h3, ?h4⟩
  case h2 =>
    rw [List.pairwise_map]
    exact hsort.imp fun h => (C54_nearest precision hp _ _ 0).2.2.1 h
  case h3 => rw [List.length_map, List.length_zipIdx, h2, hperm.length_eq]
  case h4 =>
    intro i x hx
    rw [List.getElem?_map] at hx
    obtain ⟨⟨L, j⟩, hj, rfl⟩ := Option.map_eq_some_iff.1 hx
    rw [List.getElem?_zipIdx] at hj
    obtain ⟨L', hL', he'⟩ := Option.map_eq_some_iff.1 hj
    rw [Nat.zero_add, Prod.mk.injEq] at he'
    obtain ⟨rfl, rfl⟩ := he'
    have hi : i < position.sorted.length + 1 := h2 ▸ (List.getElem?_eq_some_iff.1 hL').1
    have hcov := fun v => h3 i L' [] hL' (by rw [List.getElem?_replicate]; simp [hi]) v
    have hnil : ∀ v, ¬ Covers ([] : List (Pgon K)) v := by simp [Covers]
    simp only [hnil, false_or] at hcov
    by_cases hL : L' = []
    · subst hL
      simp only [if_true, true_iff]
      refine ⟨fun v => ?_, fun v h => hnil v ((hcov v).2 h), by simp⟩
      constructor
      · rintro ⟨ps, h, _⟩; cases h
      · intro h; exact absurd ((hcov v).2 h) (hnil v)
    · simp only [if_neg hL]
      refine ⟨fun v => ?_, ?_, ?_⟩
      · rw [← hcov v]
        constructor
        · rintro ⟨ps, h, hv⟩
          cases h
          exact hv
        · intro h
          exact ⟨_, rfl, h⟩
      · constructor
        · intro h; cases h
        · intro h
          obtain ⟨q, hq⟩ := List.exists_mem_of_ne_nil _ hL
          obtain ⟨v, hv⟩ := h4 L' (List.mem_of_getElem? hL') q hq
          exact absurd ((hcov v).1 ⟨q, hq, hv⟩) (h v)
      · intro ps hps
        cases hps
        refine ⟨by simp [Aligned, PolySet.new], ?_, ?_⟩ <;> intro a ha <;> exact List.eq_of_mem_replicate ha

/-- **C50 (partition).** For positions in increasing order every point is in exactly one slab. -/
theorem C50_partition (axis : Nat) (c : List K) (hc : c.Pairwise (· ≤ ·)) (v : Pt K) :
    ∃ i, (i ≤ c.length ∧ InSlab axis c i v) ∧ ∀ j, j ≤ c.length → InSlab axis c j v → j = i := by
  have mono : ∀ (i j : Nat) (a b : K), i ≤ j → c[i]? = some a → c[j]? = some b → Past axis b v → Past axis a v := by
    intro i j a b hij ha hb
    rcases Nat.eq_or_lt_of_le hij with rfl | hlt
    · rw [ha] at hb; cases hb; exact id
    · obtain ⟨h1, rfl⟩ := List.getElem?_eq_some_iff.1 ha
      obtain ⟨h2, rfl⟩ := List.getElem?_eq_some_iff.1 hb
      exact past_mono (List.pairwise_iff_getElem.1 hc _ _ h1 h2 hlt)
  have uniq : ∀ i j, i < j → j ≤ c.length → InSlab axis c i v → InSlab axis c j v → False := by
    intro i j hij hj hi hj'
    obtain ⟨k, rfl⟩ : ∃ k, j = k + 1 := ⟨j - 1, by omega⟩
    have hk : k < c.length := by omega
    have hik : i < c.length := by omega
    have h1 := hj'.1 k c[k] rfl (List.getElem?_eq_getElem hk)
    have h2 := hi.2 c[i] (List.getElem?_eq_getElem hik)
    exact h2 (mono i k _ _ (by omega) (List.getElem?_eq_getElem hik) (List.getElem?_eq_getElem hk) h1)
  have ex : ∃ i, i ≤ c.length ∧ InSlab axis c i v := by
    classical
    have hP : ∃ i, i = c.length ∨ ∃ a, c[i]? = some a ∧ ¬ Past axis a v := ⟨c.length, Or.inl rfl⟩
    refine ⟨Nat.find hP, Nat.find_min' hP (Or.inl rfl), ?_, ?_⟩
    · intro j lo hj hlo
      have := Nat.find_min hP (m := j) (by omega)
      by_contra hn
      exact this (Or.inr ⟨lo, hlo, hn⟩)
    · intro hi hhi
      rcases Nat.find_spec hP with h | ⟨a, ha, hna⟩
      · rw [h] at hhi
        simp at hhi
      · rw [hhi] at ha
        cases ha
        exact hna
  obtain ⟨i, hi, hs⟩ := ex
  refine ⟨i, ⟨hi, hs⟩, fun j hj hjs => ?_⟩
  rcases Nat.lt_trichotomy i j with h | h | h
  · exact (uniq i j h hj hs hjs).elim
  · exact h.symm
  · exact (uniq j i h hi hjs hs).elim

/-- **C50 (union and disjointness).** Together the entries cover what the polygons cover, and each point
is in one of them only. -/
theorem C50_union {C : List IPt → Prop} (hC : Class C) {e : Engine K} (he : Exact C e) {precision : K}
    (hp : 0 < precision) (o : Operand K) (ho : ¬ HasFlex o) (hb : ¬ BareVertices o)
    (hne : ∀ P ∈ operandPolys o, P ≠ []) (hs : ∀ P ∈ operandPolys o, C (P.map (gridPt (1 / precision))))
    (position : PosArg K) (axis : Nat) (layer datatype : LayerArg) (hl : layer.ints ≠ [])
    (hd : datatype.ints ≠ []) (out : List (Option (PolySet K)))
    (h : sliceOp e o position axis precision layer datatype = .ok out) (v : Pt K) :
    ((∃ ps, some ps ∈ out ∧ Covers ps.polygons v) ↔ ∃ P ∈ operandPolys o, wind (snapPoly precision P) v ≠ 0) ∧
    ∀ (i j : Nat) (a b : PolySet K), out[i]? = some (some a) → out[j]? = some (some b) →
      Covers a.polygons v → Covers b.polygons v → i = j := by
  obtain ⟨out', c, h1, h2, h3, h4, h5⟩ := C50_slice hC he hp o ho hb hne hs position axis layer datatype hl hd
  rw [h, Except.ok.injEq] at h1
  subst h1
  obtain ⟨k, ⟨hk, hks⟩, huniq⟩ := C50_partition axis c h2 v
  have hlen : out.length = c.length + 1 := by rw [h4, h3.length_eq, List.length_map]
  constructor
  · constructor
    · rintro ⟨ps, hps, hv⟩
      obtain ⟨i, hi⟩ := List.mem_iff_getElem?.1 hps
      exact (((h5 i _ hi).1 v).1 ⟨ps, rfl, hv⟩).1
    · intro hv
      have hk' : k < out.length := by omega
      obtain ⟨ps, hps, hv'⟩ := ((h5 k _ (List.getElem?_eq_getElem hk')).1 v).2 ⟨hv, hks⟩
      exact ⟨ps, hps ▸ List.getElem_mem hk', hv'⟩
  · intro i j a b ha hb' hva hvb
    have hi : i ≤ c.length := by have := (List.getElem?_eq_some_iff.1 ha).1; omega
    have hj : j ≤ c.length := by have := (List.getElem?_eq_some_iff.1 hb').1; omega
    rw [huniq i hi (((h5 i _ ha).1 v).1 ⟨a, rfl, hva⟩).2, huniq j hj (((h5 j _ hb').1 v).1 ⟨b, rfl, hvb⟩).2]

/-- Two overlapping polygons cut at three positions, out of order, one outside: with an exact clipper (one
exists) the second entry covers a point of both, the first one is empty. -/
example : ∃ e : Engine ℚ, Exact Rectilinear e ∧
    let o : Operand ℚ := .list [.verts [(0, 0), (4, 0), (4, 4), (0, 4)], .verts [(2, 1), (6, 1), (6, 3), (2, 3)]]
    ∃ out, sliceOp e o (.list [3, -5, 1]) 0 (1 / 10) (.list [7, 8]) (.one 0) = .ok out ∧
      out.length = 4 ∧ out[0]? = some none ∧
      ∃ ps, out[2]? = some (some ps) ∧ Covers ps.polygons (5 / 2, 2) ∧ ∀ a ∈ ps.layers, a = 7 := by
  obtain ⟨e, _, he, _⟩ := exact_engine_exists (K := ℚ)
  refine ⟨e, he, ?_⟩
  intro o
  have hs : ∀ P ∈ operandPolys o, Rectilinear (P.map (gridPt (1 / (1 / 10 : ℚ)))) := by
    intro P hP
    simp only [o, operandPolys, List.map_cons, List.map_nil, polysOf, List.flatten_cons, List.flatten_nil,
      List.singleton_append, List.mem_cons, List.not_mem_nil, or_false] at hP
    rcases hP with rfl | rfl <;> (unfold Rectilinear; decide +kernel)
  obtain ⟨out, c, h1, h2, h3, h4, h5⟩ := C50_slice class_rectilinear he (by norm_num : (0 : ℚ) < 1 / 10) o
    (by rintro ⟨p, hp⟩; simp at hp) (by simp [o, BareVertices]) (by simp [o, operandPolys, polysOf]) hs
    (.list [3, -5, 1]) 0 (.list [7, 8]) (.one 0) (by simp [LayerArg.ints]) (by simp [LayerArg.ints])
  have hv : PosArg.vals (.list [3, -5, 1] : PosArg ℚ) = [3, -5, 1] := rfl
  have hm : ([3, -5, 1] : List ℚ).map (snap (1 / 10)) = [3, -5, 1] := by decide +kernel
  rw [hv, hm] at h3
  have hc : c = [-5, 1, 3] := by
    refine (h3.trans ?_).eq_of_pairwise (fun a b _ _ => le_antisymm) h2 ?_
    · decide +kernel
    · decide +kernel
  subst hc
  rw [hv] at h4
  have h4' : out.length = 4 := h4
  have g0 := h5 0 _ (List.getElem?_eq_getElem (by omega))
  have g2 := h5 2 _ (List.getElem?_eq_getElem (by omega))
  refine ⟨out, h1, h4', ?_, ?_⟩
  · rw [List.getElem?_eq_getElem (by omega), Option.some.injEq]
    refine g0.2.1.2 ?_
    rintro v ⟨⟨P, hP, hw⟩, hsl⟩
    have hx := hsl.2 (-5) rfl
    simp only [Past, if_true, not_le] at hx
    refine hw (wind_left _ _ ?_)
    simp only [o, operandPolys, List.map_cons, List.map_nil, polysOf, List.flatten_cons, List.flatten_nil,
      List.singleton_append, List.mem_cons, List.not_mem_nil, or_false] at hP
    rcases hP with rfl | rfl
    · have : ∀ w ∈ snapPoly (1 / 10 : ℚ) [(0, 0), (4, 0), (4, 4), (0, 4)], -5 < w.1 := by decide +kernel
      exact fun w hw => hx.trans (this w hw)
    · have : ∀ w ∈ snapPoly (1 / 10 : ℚ) [(2, 1), (6, 1), (6, 3), (2, 3)], -5 < w.1 := by decide +kernel
      exact fun w hw => hx.trans (this w hw)
  · obtain ⟨ps, hps, hcov⟩ := (g2.1 (5 / 2, 2)).2 ⟨⟨[(0, 0), (4, 0), (4, 4), (0, 4)], by simp [o, operandPolys, polysOf],
      by decide +kernel⟩, by
        constructor
        · intro j lo hj hlo
          obtain rfl : j = 1 := by omega
          simp at hlo
          subst hlo
          simp only [Past, if_true]
          norm_num
        · intro hi hhi
          simp at hhi
          subst hhi
          simp only [Past, if_true]
          norm_num⟩
    refine ⟨ps, by rw [List.getElem?_eq_getElem (by omega), hps], hcov, ?_⟩
    have := (g2.2.2 ps hps).2.1
    simpa [cyclic, LayerArg.ints] using this

/-- An empty list of layers raises an exception if there is anything to return. -/
theorem C50_no_layers (datatype : List Int) (i : Nat) (polys : List (Pgon K)) (h : polys ≠ []) :
    sliceEntry [] datatype i polys = .error .zeroDivision := by
  simp [sliceEntry, h]

/-- Precision zero raises an exception. -/
theorem C50_zero_precision (e : Engine K) (o : Operand K) (ho : ¬ HasFlex o) (hb : ¬ BareVertices o)
    (position : PosArg K) (axis : Nat) (layer datatype : LayerArg) :
    sliceOp e o position axis 0 layer datatype = .error .zeroDivision := by
  unfold sliceOp
  rw [C53_gather_partial o ho hb, py_bind_ok]
  simp only [if_true]

end Gdspy
