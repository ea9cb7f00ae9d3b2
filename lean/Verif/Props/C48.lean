import Verif.Model.Shapes
import Verif.Spec.Path
import Verif.Props.C45
import Verif.Props.C47
import Mathlib.Tactic.LinearCombination

/-!
# C48: vertex limits and outline of round shapes
-/

set_option linter.unusedSectionVars false

namespace Gdspy

open Spec

variable {K : Type}

theorem pieceCount_bound (n m : Nat) (hm : m ≠ 0) (hp : pieceCount n m ≠ 0) :
    n / pieceCount n m ≤ m := by
  unfold pieceCount at hp ⊢
  rw [if_neg hm] at hp ⊢
  have h1 : n ≤ (n + m - 1) / m * m := by
    have := Nat.div_add_mod (n + m - 1) m
    have h2 := Nat.mod_lt (n + m - 1) (Nat.pos_of_ne_zero hm)
    have h3 : (n + m - 1) / m * m = m * ((n + m - 1) / m) := Nat.mul_comm _ _
    omega
  exact (Nat.div_le_iff_le_mul_add_pred (Nat.pos_of_ne_zero hp)).2 (by omega)

theorem mapM_inv {α β : Type} (f : α → Py β) (l : List α) (r : List β) (h : l.mapM f = .ok r) :
    r.length = l.length ∧ ∀ (i : Nat) (a : α), l[i]? = some a → ∃ b, r[i]? = some b ∧ f a = .ok b := by
  induction l generalizing r with
  | nil =>
    rw [List.mapM_nil] at h
    cases h
    simp
  | cons a l ih =>
    rw [List.mapM_cons] at h
    obtain ⟨b, hb, h⟩ := bind_ok_inv h
    obtain ⟨r', hr', h⟩ := bind_ok_inv h
    cases h
    obtain ⟨h1, h2⟩ := ih r' hr'
    refine ⟨by simp [h1], ?_⟩
    intro i c hc
    cases i with
    | zero => simp at hc; subst hc; exact ⟨b, by simp, hb⟩
    | succ i => simpa using h2 i c (by simpa using hc)

section Linspace

variable [Field K]

theorem linspace_length (a b : K) (n : Nat) : (linspace a b n).length = n := by
  simp [linspace]

theorem linspace_get (a b : K) (n i : Nat) (h : i < n) :
    (linspace a b n)[i]? = some (a + (i : K) * ((b - a) / ((n : K) - 1))) := by
  simp [linspace, h]

theorem linspace_first (a b : K) (n : Nat) (h : 0 < n) : (linspace a b n)[0]? = some a := by
  rw [linspace_get _ _ _ _ h]; simp

theorem linspace_last [CharZero K] (a b : K) (n : Nat) (h : 2 ≤ n) :
    (linspace a b n)[n - 1]? = some b := by
  rw [linspace_get _ _ _ _ (by omega)]
  have : ((n - 1 : Nat) : K) = (n : K) - 1 := by
    rw [Nat.cast_sub (by omega)]; simp
  rw [this]
  have hne : (n : K) - 1 ≠ 0 := by
    rw [← this]; exact Nat.cast_ne_zero.2 (by omega)
  rw [mul_div_cancel₀ _ hne]
  simp

end Linspace

section Round

variable [Field K] [LinearOrder K] [FloorRing K]

/-- On the ellipse with centre `c` and radii `r` (no division, so it makes sense for radius 0). -/
def Spec.OnEllipse (c : Pt K) (r : K × K) (p : Pt K) : Prop :=
  ((p.1 - c.1) * r.2) ^ 2 + ((p.2 - c.2) * r.1) ^ 2 = (r.1 * r.2) ^ 2

theorem ellPt_on (t : Num K) (ht : Trig.Laws t.toTrig) (c : Pt K) (r : K × K) (a : K) :
    OnEllipse c r (ellPt t c r a) := by
  have := ht.pyth a
  simp only [OnEllipse, ellPt]
  linear_combination (r.1 * r.2) ^ 2 * this

theorem roundPiece_length (t : Num K) (c : Pt K) (orr irr : Radius K) (n : Nat) (o0 o1 i0 i1 : K)
    (q : Pgon K) (h : roundPiece t c orr irr n o0 o1 i0 i1 = .ok q) : q.length = n := by
  unfold roundPiece at h
  simp only at h
  split at h
  · split at h
    · cases h; simp
    · cases h; simp; omega
  · split at h
    · split at h
      · cases h
      · cases h; simp [linspace_length]; omega
    · cases h; simp [linspace_length]; omega

theorem roundPiece_on (t : Num K) (ht : Trig.Laws t.toTrig) (c : Pt K) (orr irr : Radius K) (n : Nat)
    (o0 o1 i0 i1 : K) (q : Pgon K) (h : roundPiece t c orr irr n o0 o1 i0 i1 = .ok q) :
    ∀ v ∈ q, OnEllipse c orr.xy v ∨ (irr.max' ≤ 0 ∧ v = c) ∨ (0 < irr.max' ∧ OnEllipse c irr.xy v) := by
  unfold roundPiece at h
  simp only at h
  have ho := fun a => ellPt_on t ht c orr.xy a
  have hi := fun a => ellPt_on t ht c irr.xy a
  split at h
  · split at h
    · cases h
      intro v hv
      obtain ⟨i, _, rfl⟩ := List.mem_map.1 hv
      exact Or.inl (ho _)
    · rename_i hr
      cases h
      intro v hv
      rcases List.mem_append.1 hv with hv | hv
      · obtain ⟨i, _, rfl⟩ := List.mem_map.1 hv
        exact Or.inl (ho _)
      · obtain ⟨i, _, rfl⟩ := List.mem_map.1 hv
        exact Or.inr (Or.inr ⟨not_le.1 hr, hi _⟩)
  · split at h
    · rename_i hr
      split at h
      · cases h
      · cases h
        intro v hv
        rcases List.mem_cons.1 hv with rfl | hv
        · exact Or.inr (Or.inl ⟨hr, by simp⟩)
        · obtain ⟨i, _, rfl⟩ := List.mem_map.1 hv
          exact Or.inl (ho _)
    · rename_i hr
      cases h
      intro v hv
      rcases List.mem_append.1 hv with hv | hv
      · obtain ⟨i, _, rfl⟩ := List.mem_map.1 hv
        exact Or.inl (ho _)
      · obtain ⟨i, _, rfl⟩ := List.mem_map.1 hv
        exact Or.inr (Or.inr ⟨not_le.1 hr, hi _⟩)

/-- What the constructor computes when it returns. -/
theorem roundNew_inv {t : Num K} {center : Pt K} {orr irr : Radius K} {ia fa tol : K} {N : Option Nat}
    {mp : Nat} {layer datatype : Int} {ps : PolySet K}
    (h : roundNew t center orr irr ia fa tol N mp layer datatype = .ok ps) :
    ∃ (n k : Nat) (fa' : K), roundPoints t orr irr ia fa tol N = .ok n ∧ k = pieceCount n mp ∧ k ≠ 0 ∧
      fa' = (if fa = ia ∧ k > 1 then fa + 2 * (2 * t.halfpi) else fa) ∧
      ps.layers = List.replicate k layer ∧ ps.datatypes = List.replicate k datatype ∧
      ps.polygons.length = k ∧
      ∀ i < k, ∃ q, ps.polygons[i]? = some q ∧
        roundPiece t center orr irr (n / k)
          (orr.angle t (ia + (i : K) * ((fa' - ia) / (k : K))))
          (orr.angle t (ia + ((i + 1 : Nat) : K) * ((fa' - ia) / (k : K))))
          (irr.angle t (ia + (i : K) * ((fa' - ia) / (k : K))))
          (irr.angle t (ia + ((i + 1 : Nat) : K) * ((fa' - ia) / (k : K)))) = .ok q := by
  unfold roundNew at h
  obtain ⟨n, hn, h⟩ := bind_ok_inv h
  simp only at h
  split at h
  · cases h
  · rename_i hk
    obtain ⟨polys, hp, h⟩ := bind_ok_inv h
    cases h
    obtain ⟨h1, h2⟩ := mapM_inv _ _ _ hp
    refine ⟨n, pieceCount n mp, _, hn, rfl, hk, rfl, rfl, rfl, by simpa using h1, ?_⟩
    intro i hi
    obtain ⟨q, hq1, hq2⟩ := h2 i i (by simp [hi])
    refine ⟨q, hq1, ?_⟩
    have e : ∀ (f : K → K) (j : Nat), j < pieceCount n mp + 1 → ∀ b : K,
        ((linspace ia b (pieceCount n mp + 1)).map f).getD j 0 =
          f (ia + (j : K) * ((b - ia) / (pieceCount n mp : K))) := by
      intro f j hj b
      rw [List.getD_eq_getElem?_getD, List.getElem?_map, linspace_get _ _ _ _ hj]
      simp
    rw [e _ _ (by omega), e _ _ (by omega), e _ _ (by omega), e _ _ (by omega)] at hq2
    exact hq2

/-- **C48**: no polygon of a `Round` has more than `max_points` vertices (when a limit is set), all
have the same number of vertices, and there are as many layers and datatypes as polygons, all equal to
the arguments. -/
theorem C48_round {t : Num K} {center : Pt K} {orr irr : Radius K} {ia fa tol : K} {N : Option Nat}
    {mp : Nat} {layer datatype : Int} {ps : PolySet K}
    (h : roundNew t center orr irr ia fa tol N mp layer datatype = .ok ps) :
    (mp ≠ 0 → ∀ q ∈ ps.polygons, q.length ≤ mp) ∧
    (∀ q ∈ ps.polygons, ∀ q' ∈ ps.polygons, q.length = q'.length) ∧
    ps.layers = ps.polygons.map (fun _ => layer) ∧ ps.datatypes = ps.polygons.map (fun _ => datatype) ∧
    ps.polygons ≠ [] ∧ (mp = 0 → ps.polygons.length = 1) := by
  obtain ⟨n, k, fa', hn, hk, hk0, -, hl, hd, hlen, hall⟩ := roundNew_inv h
  have hq : ∀ q ∈ ps.polygons, q.length = n / k := by
    intro q hq
    obtain ⟨i, hi, rfl⟩ := List.mem_iff_getElem.1 hq
    obtain ⟨q', h1, h2⟩ := hall i (by omega)
    rw [List.getElem?_eq_getElem hi] at h1
    cases h1
    exact roundPiece_length _ _ _ _ _ _ _ _ _ _ h2
  refine ⟨?_, ?_, ?_, ?_, ?_, ?_⟩
  · intro hmp q hq'
    rw [hq q hq', hk]
    exact pieceCount_bound n mp hmp (hk ▸ hk0)
  · intro q h1 q' h2
    rw [hq q h1, hq q' h2]
  · rw [hl, ← hlen]; simp
  · rw [hd, ← hlen]; simp
  · intro hnil; rw [hnil] at hlen; simp at hlen; omega
  · intro hmp
    rw [hlen, hk, pieceCount, if_pos hmp]

/-- **C48**, outline: every vertex is on the outer ellipse, or on the inner one if there is one, or is
the centre if there is none. -/
theorem C48_outline {t : Num K} (ht : Trig.Laws t.toTrig) {center : Pt K} {orr irr : Radius K}
    {ia fa tol : K} {N : Option Nat} {mp : Nat} {layer datatype : Int} {ps : PolySet K}
    (h : roundNew t center orr irr ia fa tol N mp layer datatype = .ok ps) :
    ∀ q ∈ ps.polygons, ∀ v ∈ q, OnEllipse center orr.xy v ∨ (irr.max' ≤ 0 ∧ v = center) ∨
      (0 < irr.max' ∧ OnEllipse center irr.xy v) := by
  obtain ⟨n, k, fa', hn, hk, hk0, -, hl, hd, hlen, hall⟩ := roundNew_inv h
  intro q hq
  obtain ⟨i, hi, rfl⟩ := List.mem_iff_getElem.1 hq
  obtain ⟨q', h1, h2⟩ := hall i (by omega)
  rw [List.getElem?_eq_getElem hi] at h1
  cases h1
  exact roundPiece_on t ht _ _ _ _ _ _ _ _ _ h2

/-- The explicit number of points: the numbers of vertices add up to at most `number_of_points`, and
less than one vertex per piece is lost. -/
theorem C48_total {t : Num K} {center : Pt K} {orr irr : Radius K} {ia fa tol : K} {N : Nat}
    {mp : Nat} {layer datatype : Int} {ps : PolySet K}
    (h : roundNew t center orr irr ia fa tol (some N) mp layer datatype = .ok ps) :
    (ps.polygons.map List.length).sum ≤ N ∧
    N < (ps.polygons.map List.length).sum + ps.polygons.length := by
  obtain ⟨n, k, fa', hn, hk, hk0, -, hl, hd, hlen, hall⟩ := roundNew_inv h
  cases hn
  have hq : ps.polygons.map List.length = List.replicate k (N / k) := by
    rw [List.eq_replicate_iff]
    refine ⟨by simpa using hlen, ?_⟩
    intro b hb
    obtain ⟨q, hq, rfl⟩ := List.mem_map.1 hb
    obtain ⟨i, hi, rfl⟩ := List.mem_iff_getElem.1 hq
    obtain ⟨q', h1, h2⟩ := hall i (by omega)
    rw [List.getElem?_eq_getElem hi] at h1
    cases h1
    exact roundPiece_length _ _ _ _ _ _ _ _ _ _ h2
  rw [hq, List.sum_replicate, hlen, smul_eq_mul]
  have h1 := Nat.div_add_mod N k
  have h2 := Nat.mod_lt N (Nat.pos_of_ne_zero hk0)
  omega

end Round

section Seams

variable [Field K] [LinearOrder K] [IsStrictOrderedRing K] [FloorRing K]

theorem roundPiece_pie (t : Num K) (c : Pt K) (orr irr : Radius K) (n : Nat) (o0 o1 i0 i1 : K)
    (q : Pgon K) (h : roundPiece t c orr irr n o0 o1 i0 i1 = .ok q) (ho : o1 ≠ o0)
    (hi : irr.max' ≤ 0) (hn : 3 ≤ n) :
    q[1]? = some (ellPt t c orr.xy o0) ∧ q[n - 1]? = some (ellPt t c orr.xy o1) := by
  unfold roundPiece at h
  simp only at h
  rw [if_neg ho, if_pos hi, if_neg (by omega)] at h
  cases h
  have e : n - 1 = (n - 1 - 1) + 1 := by omega
  refine ⟨?_, ?_⟩
  · rw [List.getElem?_cons_succ, List.getElem?_map, linspace_first _ _ _ (by omega)]; rfl
  · rw [e, List.getElem?_cons_succ, List.getElem?_map, ← e, linspace_last _ _ _ (by omega)]; rfl

theorem roundPiece_ring (t : Num K) (c : Pt K) (orr irr : Radius K) (n : Nat) (o0 o1 i0 i1 : K)
    (q : Pgon K) (h : roundPiece t c orr irr n o0 o1 i0 i1 = .ok q) (ho : o1 ≠ o0)
    (hi : 0 < irr.max') (hn : 4 ≤ n) :
    q[0]? = some (ellPt t c orr.xy o0) ∧ q[n - n / 2 - 1]? = some (ellPt t c orr.xy o1) ∧
    q[n - n / 2]? = some (ellPt t c irr.xy i1) ∧ q[n - 1]? = some (ellPt t c irr.xy i0) := by
  unfold roundPiece at h
  simp only at h
  rw [if_neg ho, if_neg (not_le.2 hi)] at h
  cases h
  have hl : ((linspace o0 o1 (n - n / 2)).map (ellPt t c orr.xy)).length = n - n / 2 := by
    simp [linspace_length]
  refine ⟨?_, ?_, ?_, ?_⟩
  · rw [List.getElem?_append_left (by omega), List.getElem?_map, linspace_first _ _ _ (by omega)]; rfl
  · rw [List.getElem?_append_left (by omega), List.getElem?_map, linspace_last _ _ _ (by omega)]; rfl
  · rw [List.getElem?_append_right (by omega), hl, Nat.sub_self, List.getElem?_map,
      linspace_first _ _ _ (by omega)]; rfl
  · rw [List.getElem?_append_right (by omega), hl, List.getElem?_map,
      show n - 1 - (n - n / 2) = n / 2 - 1 by omega, linspace_last _ _ _ (by omega)]; rfl

/-- **C48**, seams: a circle, ring, pie or ring section split in pieces has no gap between consecutive
pieces: they share the two end points of the cut (the centre is shared by all pieces of a pie). -/
theorem C48_seams {t : Num K} (hpi : 0 < t.halfpi) {center : Pt K} {R r : K} {ia fa tol : K}
    {N : Option Nat} {mp : Nat} {layer datatype : Int} {ps : PolySet K}
    (h : roundNew t center (.one R) (.one r) ia fa tol N mp layer datatype = .ok ps)
    (i : Nat) (q q' : Pgon K) (hq : ps.polygons[i]? = some q) (hq' : ps.polygons[i + 1]? = some q') :
    (r ≤ 0 → 3 ≤ q.length → q[q.length - 1]? = q'[1]?) ∧
    (0 < r → 4 ≤ q.length → q[q.length - q.length / 2 - 1]? = q'[0]? ∧
      q[q.length - q.length / 2]? = q'[q'.length - 1]?) := by
  obtain ⟨n, k, fa', hn, hk, hk0, hfa, hl, hd, hlen, hall⟩ := roundNew_inv h
  have hi' : i + 1 < k := by
    rw [← hlen]
    exact (List.getElem?_eq_some_iff.1 hq').1
  obtain ⟨q1, h1, h2⟩ := hall i (by omega)
  rw [hq] at h1; cases h1
  obtain ⟨q2, h3, h4⟩ := hall (i + 1) hi'
  rw [hq'] at h3; cases h3
  have l1 := roundPiece_length _ _ _ _ _ _ _ _ _ _ h2
  have l2 := roundPiece_length _ _ _ _ _ _ _ _ _ _ h4
  have hne : (fa' - ia) / (k : K) ≠ 0 := by
    apply div_ne_zero
    · rw [hfa]
      split
      · rename_i hc
        rw [hc.1]
        have : ia + 2 * (2 * t.halfpi) - ia = 4 * t.halfpi := by ring
        rw [this]
        exact mul_ne_zero (by norm_num) hpi.ne'
      · rename_i hc
        intro h0
        exact hc ⟨by linear_combination h0, by omega⟩
    · exact Nat.cast_ne_zero.2 hk0
  have hang : ∀ j : Nat, Radius.angle t (.one R) (ia + ((j + 1 : Nat) : K) * ((fa' - ia) / (k : K))) ≠
      Radius.angle t (.one R) (ia + (j : K) * ((fa' - ia) / (k : K))) := by
    intro j hj
    simp only [Radius.angle] at hj
    apply hne
    push_cast at hj
    linear_combination hj
  constructor
  · intro hr h3
    have a := roundPiece_pie _ _ _ _ _ _ _ _ _ _ h2 (hang i) hr (by omega)
    have b := roundPiece_pie _ _ _ _ _ _ _ _ _ _ h4 (hang (i + 1)) hr (by omega)
    rw [l1, a.2, b.1]
  · intro hr h3
    have a := roundPiece_ring _ _ _ _ _ _ _ _ _ _ h2 (hang i) hr (by omega)
    have b := roundPiece_ring _ _ _ _ _ _ _ _ _ _ h4 (hang (i + 1)) hr (by omega)
    rw [l1, l2, a.2.1, b.1, a.2.2.1, b.2.2.2]
    exact ⟨rfl, rfl⟩

end Seams

section PathLimits

variable [Field K] [LinearOrder K] [FloorRing K]

theorem forOut_inv_ok {S α : Type} (P : S → Prop) (f : S → α → Out S)
    (hf : ∀ s a s', P s → f s a = (s', none) → P s') (l : List α) (s s' : S) (hs : P s)
    (h : forOut f s l = (s', none)) : P s' := by
  induction l generalizing s with
  | nil =>
    simp only [forOut, Prod.mk.injEq, and_true] at h
    subst h; exact hs
  | cons a l ih =>
    unfold forOut at h
    cases hfa : f s a with
    | mk s1 e =>
      rw [hfa] at h
      cases e with
      | some e => simp at h
      | none => exact ih _ (hf _ _ _ hs hfa) h

theorem arcPoly_length (t : Num K) (cx cy radius : K) (n m ii : Nat) (w0 w1 d0 d1 a0 a1 : K)
    (q : Pgon K) (h : arcPoly t cx cy radius n m ii w0 w1 d0 d1 a0 a1 = (q, none)) : q.length = m := by
  unfold arcPoly at h
  by_cases h1 : w1 = 0 <;> by_cases h0 : w0 = 0 <;> simp only [h1, h0, if_true, if_false] at h <;>
    split at h <;> simp only [Prod.mk.injEq, and_true, reduceCtorEq, and_false] at h <;> subst h <;>
    simp only [List.length_take, List.length_append, List.length_drop, List.length_dropLast,
      List.length_zipWith, linspace_length] <;> omega

/-- The polygons added to `p` all satisfy `P`. -/
def Spec.Adds (P : Pgon K → Prop) (p q : PPath K) : Prop :=
  ∃ new, q.polygons = p.polygons ++ new ∧ ∀ pol ∈ new, P pol

theorem tag_polygons (layer datatype : LayerArg) (p : PPath K) :
    (p.tag layer datatype).1.polygons = p.polygons ∧ (p.tag layer datatype).1.n = p.n := by
  unfold PPath.tag
  split
  · exact ⟨rfl, rfl⟩
  · split <;> exact ⟨rfl, rfl⟩

theorem arcPiece_adds (t : Num K) (cx cy radius : K) (m : Nat) (ws ds as : List K)
    (layer datatype : LayerArg) (p : PPath K) (jj : Nat) (q : PPath K)
    (h : p.arcPiece t cx cy radius m ws ds as layer datatype jj = (q, none)) :
    Adds (fun pol => pol.length = m) p q := by
  unfold PPath.arcPiece at h
  simp only at h
  split at h
  · simp at h
  · rename_i r hr
    have hP := forOut_inv_ok (fun s : PPath K => Adds (fun pol => pol.length = m) p s) _
      (by
        intro s a s' hs hsa
        simp only [Prod.mk.injEq] at hsa
        obtain ⟨hs1, hs2⟩ := hsa
        obtain ⟨new, h1, h2⟩ := hs
        subst hs1
        refine ⟨new ++ [_], (congrArg (· ++ _) h1).trans (List.append_assoc _ _ _), ?_⟩
        intro pol hpol
        rcases List.mem_append.1 hpol with hpol | hpol
        · exact h2 pol hpol
        · rw [List.mem_singleton.1 hpol]
          exact arcPoly_length t cx cy radius p.n m a _ _ _ _ _ _ _ (Prod.ext rfl hs2))
      _ _ _ ⟨[], by simp, by simp⟩ hr
    have ht := (tag_polygons layer datatype
      { r with length := r.length + |(as.getD (jj + 1) 0 - as.getD jj 0) * radius| }).1
    rw [h] at ht
    obtain ⟨new, h1, h2⟩ := hP
    exact ⟨new, ht.trans h1, h2⟩

/-- **C48**, arcs of a `Path` (also `turn`, which calls `arc`): every polygon added has the same
number of vertices, at most `max_points`. -/
theorem C48_path_arc (t : Num K) (radius ia fa tol : K) (N : Option Nat) (mp : Nat)
    (fw fd : Option K) (layer datatype : LayerArg) (p q : PPath K)
    (h : p.arc t radius ia fa tol N mp fw fd layer datatype = (q, none)) :
    ∃ m : Nat, (mp ≠ 0 → m ≤ mp) ∧ Adds (fun pol => pol.length = m) p q := by
  unfold PPath.arc at h
  simp only at h
  split at h
  · simp at h
  · rename_i n hn
    split at h
    · simp at h
    · rename_i hk
      refine ⟨n / pieceCount n mp, fun hmp => pieceCount_bound n mp hmp hk, ?_⟩
      split at h
      · refine forOut_inv_ok (fun s : PPath K => Adds (fun pol => pol.length = n / pieceCount n mp) p s)
          _ ?_ _ _ _ ⟨[], by simp, by simp⟩ h
        intro s a s' hs hsa
        obtain ⟨new, h1, h2⟩ := hs
        obtain ⟨new', h3, h4⟩ := arcPiece_adds _ _ _ _ _ _ _ _ _ _ _ _ _ hsa
        refine ⟨new ++ new', by rw [h3, h1, List.append_assoc], ?_⟩
        intro pol hpol
        rcases List.mem_append.1 hpol with hpol | hpol
        · exact h2 pol hpol
        · exact h4 pol hpol
      · simp only [Prod.mk.injEq, and_true] at h
        subst h
        exact ⟨[], by simp, by simp⟩

theorem sectionPoly_length (n ii : Nat) (l : List (Section K)) :
    (sectionPoly n ii l).length ≤ 2 * l.length := by
  unfold sectionPoly
  simp only
  rw [List.length_append]
  split <;> split <;> simp <;> omega

theorem sections_adds (k mp : Nat) (hk : 2 * k ≤ mp) (layer datatype : LayerArg) (fuel : Nat)
    (l : List (Section K)) (p q : PPath K)
    (h : p.sections k layer datatype fuel l = (q, none)) : Adds (fun pol => pol.length ≤ mp) p q := by
  induction fuel generalizing l p with
  | zero =>
    simp only [PPath.sections, Prod.mk.injEq, and_true] at h
    subst h
    exact ⟨[], by simp, by simp⟩
  | succ fuel ih =>
    unfold PPath.sections at h
    simp only at h
    split at h
    · split at h
      · simp at h
      · rename_i r hr
        obtain ⟨new, h1, h2⟩ := ih _ _ h
        have ht := tag_polygons layer datatype { p with
          polygons := p.polygons ++ (List.range p.n).map fun ii =>
            sectionPoly p.n ii (l.take (min k l.length)) }
        rw [hr] at ht
        refine ⟨(List.range p.n).map (fun ii => sectionPoly p.n ii (l.take (min k l.length))) ++ new, ?_, ?_⟩
        · rw [h1, ← List.append_assoc]
          exact congrArg (· ++ new) ht.1
        · intro pol hpol
          rcases List.mem_append.1 hpol with hpol | hpol
          · obtain ⟨ii, _, rfl⟩ := List.mem_map.1 hpol
            have := sectionPoly_length p.n ii (l.take (min k l.length))
            rw [List.length_take] at this
            omega
          · exact h2 pol hpol
    · simp only [Prod.mk.injEq, and_true] at h
      subst h
      exact ⟨[], by simp, by simp⟩

/-- **C48**, parametric sections of a `Path` (also `bezier` and `smooth`, which call it): with a limit of at
least 4, every polygon added has at most `max_points` vertices. -/
theorem C48_path_parametric (t : Num K) (fuel : Nat) (f : K → Pt K) (deriv : Option (K → Pt K))
    (tol : K) (evals mp : Nat) (fw fd : FinArg K) (relative : Bool)
    (layer datatype : LayerArg) (p q : PPath K) (hmp : 4 ≤ mp)
    (h : p.parametric t fuel f deriv tol evals mp fw fd relative layer datatype = (q, none)) :
    Adds (fun pol => pol.length ≤ mp) p q := by
  unfold PPath.parametric at h
  simp only at h
  split at h
  · simp at h
  · split at h
    · simp at h
    · split at h
      · simp at h
      · rw [if_neg (by omega : ¬ mp < 4)] at h
        obtain ⟨new, h1, h2⟩ := sections_adds (mp / 2) mp (by omega) _ _ _ _ _ _ h
        exact ⟨new, h1, h2⟩

end PathLimits

/-! ### Concrete cases -/

/-- A ring section of 23 points with a limit of 10. -/
example : (okVal (roundNew ratNum ((1, 2) : Pt ℚ) (.one 10) (.one 4) 0 90 (1 / 100) (some 23) 10 5 6)).map
    (fun ps => (ps.polygons.map List.length, ps.layers)) = some ([7, 7, 7], [5, 5, 5]) := by
  decide +kernel

/-- A full ellipse of 16 points with a limit of 5: four pieces. -/
example : (okVal (roundNew ratNum ((1, 2) : Pt ℚ) (.two 10 5) (.one 0) 0 0 (1 / 100) (some 16) 5 5 6)).map
    (fun ps => (ps.polygons.map List.length, ps.datatypes)) = some ([4, 4, 4, 4], [6, 6, 6, 6]) := by
  decide +kernel

/-- An arc of 17 points with a limit of 8, on two parallel paths: three pieces of 5 points each. -/
example : (PPath.arc ratNum 20 0 90 (1 / 100) (some 17) 8 none none (.one 0) (.one 0)
    (PPath.new 2 (0, 0) 2 5)).1.polygons.map List.length = [5, 5, 5, 5, 5, 5] := by
  decide +kernel

/-- A straight parametric section of 9 samples with a limit of 8: pieces of 4, 4 and 3 samples. -/
example : (PPath.parametric ratNum 100 (fun u => ((u, 0) : Pt ℚ)) (some (fun _ => (1, 0))) (1 / 100) 9 8
    .none .none true (.one 0) (.one 0) (PPath.new 2 (0, 0) 1 0)).1.polygons.map List.length = [8, 8, 6] := by
  decide +kernel

end Gdspy
