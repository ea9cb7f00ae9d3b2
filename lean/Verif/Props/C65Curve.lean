import Verif.Props.C65
import Verif.Props.C55
import Verif.Props.C58

/-!
C65, second part: `Path.parametric`, `Path.bezier` and `Path.smooth`.
-/

set_option linter.unusedSectionVars false

namespace Gdspy

open Spec

variable {K : Type} [Field K] [LinearOrder K] [IsStrictOrderedRing K]

theorem pairwise_bounds {us : List K} (hinc : us.Pairwise (· < ·)) {a b : K} (ha : us.head? = some a)
    (hb : us.getLast? = some b) : ∀ u ∈ us, a ≤ u ∧ u ≤ b := by
  intro u hu
  constructor
  · cases us with
    | nil => cases ha
    | cons x us =>
      cases ha
      rcases List.mem_cons.1 hu with rfl | hu
      · exact le_refl _
      · exact ((List.pairwise_cons.1 hinc).1 u hu).le
  · obtain ⟨l, rfl⟩ : ∃ l, us = l ++ [b] := by
      rw [List.getLast?_eq_some_iff] at hb
      exact hb
    rcases List.mem_append.1 hu with hu | hu
    · exact ((List.pairwise_append.1 hinc).2.2 u hu b (by simp)).le
    · simp at hu; exact hu.le

/-- The polygon of consecutive cross-sections. -/
theorem sectionPoly_outline (F nrm : K → Pt K) (wid dist : K → K) (n ii : Nat) (us : List K) (hinc : us.Pairwise (· < ·))
    (h2 : 1 < us.length) (a b : K) (ha : us.head? = some a) (hb : us.getLast? = some b) :
    OutlineOf (curveSide F nrm wid dist n ii) a b
      (sectionPoly n ii (us.map fun u => ⟨F u, nrm u, wid u / 2, dist u⟩)) := by
  have hbd := pairwise_bounds hinc ha hb
  set S := curveSide F nrm wid dist n ii with hS
  have e1 : (us.map fun u => (⟨F u, nrm u, wid u / 2, dist u⟩ : Section K)).map (fun s =>
      (s.pt.1 + s.nrm.1 * (s.dist * ((ii : K) - ((n : K) - 1) / 2) + s.wid),
       s.pt.2 + s.nrm.2 * (s.dist * ((ii : K) - ((n : K) - 1) / 2) + s.wid))) = us.map (S 1) := by
    rw [List.map_map]
    apply List.map_congr_left
    intro u _
    simp only [Function.comp, hS, curveSide, lane, Prod.mk.injEq]
    constructor <;> ring
  have e2 : ((us.map fun u => (⟨F u, nrm u, wid u / 2, dist u⟩ : Section K)).map (fun s =>
      (s.pt.1 + s.nrm.1 * (s.dist * ((ii : K) - ((n : K) - 1) / 2) - s.wid),
       s.pt.2 + s.nrm.2 * (s.dist * ((ii : K) - ((n : K) - 1) / 2) - s.wid)))).reverse = us.reverse.map (S (-1)) := by
    rw [List.map_map, ← List.map_reverse]
    apply List.map_congr_left
    intro u _
    simp only [Function.comp, hS, curveSide, lane, Prod.mk.injEq]
    constructor <;> ring
  have hz : ∀ u, wid u / 2 = 0 → S 1 u = S (-1) u := by
    intro u hu
    have : wid u = 0 := by linarith
    simp only [hS, curveSide, this]
    simp
  have d1 : ((us.map fun u => (⟨F u, nrm u, wid u / 2, dist u⟩ : Section K)).getLast?.map Section.wid = some 0) ↔
      wid b / 2 = 0 := by
    rw [List.getLast?_map, hb]; simp
  have d2 : ((us.map fun u => (⟨F u, nrm u, wid u / 2, dist u⟩ : Section K)).head?.map Section.wid = some 0) ↔
      wid a / 2 = 0 := by
    rw [List.head?_map, ha]; simp
  unfold sectionPoly
  simp only [e1, e2, d1, d2]
  obtain ⟨x, us', rfl⟩ : ∃ x us', us = x :: us' := by
    cases us with
    | nil => cases ha
    | cons x us' => exact ⟨x, us', rfl⟩
  cases ha
  obtain ⟨l, hl⟩ : ∃ l, a :: us' = l ++ [b] := List.getLast?_eq_some_iff.1 hb
  have hlb : l ≠ [] := by
    rintro rfl
    rw [hl] at h2
    simp at h2
  have hne : us' ≠ [] := by
    rintro rfl
    simp at h2
  have hb' : b ∈ us' := by
    have := List.getLast?_eq_some_iff.2 ⟨l, hl⟩
    rw [List.getLast?_cons] at this
    cases hq : us'.getLast? with
    | none => exact absurd (List.getLast?_eq_none_iff.1 hq) hne
    | some y =>
      rw [hq] at this
      simp at this
      subst this
      exact List.mem_of_getLast? hq
  have ha' : a ∈ l := by
    cases l with
    | nil => exact absurd rfl hlb
    | cons y l => simp at hl; simp [hl.1]
  refine ⟨if wid a / 2 = 0 then us' else a :: us', if wid b / 2 = 0 then l.reverse else b :: l.reverse, ?_, ?_, ?_, ?_, ?_⟩
  · rw [show (a :: us').reverse = b :: l.reverse by rw [hl]; simp]
    congr 1
    · split <;> simp
    · split <;> simp
  · split
    · exact (List.pairwise_cons.1 hinc).2
    · exact hinc
  · have : (b :: l.reverse).Pairwise (· > ·) := by
      rw [show b :: l.reverse = (a :: us').reverse by rw [hl]; simp, List.pairwise_reverse]
      exact hinc
    split
    · exact (List.pairwise_cons.1 this).2
    · exact this
  · intro u hu
    apply hbd u
    rcases List.mem_append.1 hu with hu | hu
    · split at hu
      · exact List.mem_cons_of_mem _ hu
      · exact hu
    · rw [hl]
      split at hu
      · simp at hu; simp [hu]
      · simp at hu; simp; tauto
  · rw [show (a :: us').reverse = b :: l.reverse by rw [hl]; simp]
    have m1 : S (-1) a ∈ (if wid b / 2 = 0 then List.drop 1 (List.map (S (-1)) (b :: l.reverse)) else List.map (S (-1)) (b :: l.reverse)) := by
      have : S (-1) a ∈ l.reverse.map (S (-1)) := List.mem_map_of_mem (by simpa using ha')
      split <;> simp only [List.map_cons, List.drop_succ_cons, List.drop_zero, List.mem_cons] <;> tauto
    have m2 : S 1 b ∈ (if wid a / 2 = 0 then List.drop 1 (List.map (S 1) (a :: us')) else List.map (S 1) (a :: us')) := by
      have : S 1 b ∈ us'.map (S 1) := List.mem_map_of_mem hb'
      split <;> simp only [List.map_cons, List.drop_succ_cons, List.drop_zero, List.mem_cons] <;> tauto
    intro u hu s hs
    simp only [List.mem_cons, List.not_mem_nil, or_false] at hu hs
    rw [List.mem_append]
    rcases hu with rfl | rfl <;> rcases hs with rfl | rfl
    · by_cases hw : wid u / 2 = 0
      · right; rw [hz u hw]; exact m1
      · left; simp [hw]
    · exact Or.inr m1
    · exact Or.inl m2
    · by_cases hw : wid u / 2 = 0
      · left; rw [← hz u hw]; exact m2
      · right; simp [hw]

theorem tag_keeps_all (layer datatype : LayerArg) (p : PPath K) :
    (p.tag layer datatype).1.x = p.x ∧ (p.tag layer datatype).1.y = p.y ∧ (p.tag layer datatype).1.w = p.w ∧
    (p.tag layer datatype).1.distance = p.distance ∧ (p.tag layer datatype).1.direction = p.direction ∧
    (p.tag layer datatype).1.n = p.n ∧ (p.tag layer datatype).1.polygons = p.polygons := by
  unfold PPath.tag
  split
  · exact ⟨rfl, rfl, rfl, rfl, rfl, rfl, rfl⟩
  · split <;> exact ⟨rfl, rfl, rfl, rfl, rfl, rfl, rfl⟩

/-- The pieces of the loop over the samples. -/
theorem sections_outlines (F nrm : K → Pt K) (wid dist : K → K) {k : Nat} (hk : 2 ≤ k) (layer datatype : LayerArg) (fuel : Nat)
    (us : List K) (hinc : us.Pairwise (· < ·)) (hf : us.length ≤ fuel) (hne : us ≠ []) (p q : PPath K)
    (h : PPath.sections k layer datatype fuel (us.map fun u => ⟨F u, nrm u, wid u / 2, dist u⟩) p = (q, none)) :
    (q.x = p.x ∧ q.y = p.y ∧ q.w = p.w ∧ q.distance = p.distance ∧ q.direction = p.direction ∧ q.n = p.n) ∧
    ∃ (cuts : List K) (rounds : List (List (Pgon K))), cuts.head? = us.head? ∧ cuts.getLast? = us.getLast? ∧
      cuts.Pairwise (· < ·) ∧ cuts.length = rounds.length + 1 ∧ q.polygons = p.polygons ++ rounds.flatten ∧
      ∀ (jj : Nat) (round : List (Pgon K)) (a b : K), rounds[jj]? = some round → cuts[jj]? = some a → cuts[jj + 1]? = some b →
        round.length = p.n ∧ ∀ ii P, round[ii]? = some P → OutlineOf (curveSide F nrm wid dist p.n ii) a b P := by
  induction fuel generalizing us p with
  | zero =>
    exact absurd (List.length_eq_zero_iff.1 (Nat.le_zero.1 hf)) hne
  | succ fuel ih =>
    unfold PPath.sections at h
    split at h
    · rename_i h1
      rw [List.length_map] at h1
      simp only at h
      split at h
      · simp at h
      · rename_i p' hp'
        have ht := tag_keeps_all layer datatype { p with
          polygons := p.polygons ++ (List.range p.n).map fun ii => sectionPoly p.n ii
            ((us.map fun u => (⟨F u, nrm u, wid u / 2, dist u⟩ : Section K)).take (min k (us.map fun u => (⟨F u, nrm u, wid u / 2, dist u⟩ : Section K)).length)) }
        rw [hp'] at ht
        simp only [List.length_map] at ht
        obtain ⟨t1, t2, t3, t4, t5, t6, t7⟩ := ht
        rw [List.length_map] at h
        set i1 := min k us.length with hi1
        have hi2 : 2 ≤ i1 := by omega
        have hi3 : i1 ≤ us.length := by omega
        rw [← List.map_drop] at h
        have hsub : (us.drop (i1 - 1)).Pairwise (· < ·) := hinc.sublist (List.drop_sublist _ _)
        obtain ⟨⟨x1, x2, x3, x4, x5, x6⟩, cuts, rounds, c1, c2, c3, c4, c5, c6⟩ := ih (us.drop (i1 - 1)) hsub
          (by rw [List.length_drop]; omega) (by rw [← List.length_pos_iff, List.length_drop]; omega) p' h
        obtain ⟨a0, us', rfl⟩ : ∃ x us', us = x :: us' := by
          cases us with
          | nil => exact absurd rfl hne
          | cons x us' => exact ⟨x, us', rfl⟩
        obtain ⟨b0, hb0⟩ : ∃ b0, (a0 :: us')[i1 - 1]? = some b0 :=
          ⟨_, List.getElem?_eq_getElem (by omega)⟩
        have hhead : cuts.head? = some b0 := by
          rw [c1, List.head?_drop]; exact hb0
        have hab : a0 < b0 := by
          obtain ⟨j, hj⟩ : ∃ j, i1 - 1 = j + 1 := ⟨i1 - 2, by omega⟩
          rw [hj, List.getElem?_cons_succ] at hb0
          exact (List.pairwise_cons.1 hinc).1 b0 (List.mem_of_getElem? hb0)
        obtain ⟨b', cuts', rfl⟩ : ∃ x cs, cuts = x :: cs := by
          cases cuts with
          | nil => cases hhead
          | cons x cs => exact ⟨x, cs, rfl⟩
        cases hhead
        refine ⟨⟨by rw [x1, t1], by rw [x2, t2], by rw [x3, t3], by rw [x4, t4], by rw [x5, t5], by rw [x6, t6]⟩,
          a0 :: b0 :: cuts', ((List.range p.n).map fun ii => sectionPoly p.n ii
            (((a0 :: us').map fun u => (⟨F u, nrm u, wid u / 2, dist u⟩ : Section K)).take i1)) :: rounds, rfl, ?_, ?_, ?_, ?_, ?_⟩
        · rw [List.getLast?_cons_cons, c2, List.getLast?_drop, if_neg (by omega)]
        · rw [List.pairwise_cons]
          refine ⟨?_, c3⟩
          intro v hv
          rcases List.mem_cons.1 hv with rfl | hv
          · exact hab
          · exact hab.trans ((List.pairwise_cons.1 c3).1 v hv)
        · simp only [List.length_cons] at c4 ⊢
          omega
        · rw [c5, t7, List.flatten_cons, List.append_assoc]
        · intro jj round a b hr ha hb
          cases jj with
          | zero =>
            simp only [List.getElem?_cons_zero, Option.some.injEq, zero_add, List.getElem?_cons_succ] at hr ha hb
            subst hr ha hb
            refine ⟨by simp, ?_⟩
            intro ii P hP
            rw [List.getElem?_map, Option.map_eq_some_iff] at hP
            obtain ⟨i, hi, rfl⟩ := hP
            rw [List.getElem?_range (by
              by_contra hc
              rw [List.getElem?_eq_none (by rw [List.length_range]; omega)] at hi
              cases hi)] at hi
            cases hi
            rw [← List.map_take]
            apply sectionPoly_outline F nrm wid dist p.n ii _ (hinc.sublist (List.take_sublist _ _))
            · rw [List.length_take]; omega
            · obtain ⟨j, hj⟩ : ∃ j, i1 = j + 1 := ⟨i1 - 1, by omega⟩
              rw [hj]; rfl
            · rw [List.getLast?_take, if_neg (by omega), hb0]; rfl
          | succ jj =>
            rw [List.getElem?_cons_succ] at hr ha hb
            have := c6 jj round a b hr ha hb
            rwa [t6] at this
    · rename_i h1
      rw [List.length_map] at h1
      simp only [Prod.mk.injEq, and_true] at h
      subst h
      refine ⟨⟨rfl, rfl, rfl, rfl, rfl, rfl⟩, us, [], rfl, rfl, hinc, ?_, by simp, by simp⟩
      have : us.length ≠ 0 := fun hc => hne (List.length_eq_zero_iff.1 hc)
      simp only [List.length_nil]
      omega

theorem midLoop_delta (f : K → Pt K) (err : K) (fuel : Nat) (done : List (K × Pt K)) (p : K × Pt K)
    (rest : List (K × Pt K)) (delta : K) (l : List (K × Pt K)) (d : K)
    (h : midLoop f err fuel done p rest delta = some (l, d)) (hd : 0 < delta)
    (hinc : (p :: rest).Pairwise fun a b => a.1 < b.1) : 0 < d := by
  induction fuel generalizing done p rest delta with
  | zero =>
    cases rest with
    | nil => rw [midLoop] at h; cases h; exact hd
    | cons q rest => cases h
  | succ fuel ih =>
    cases rest with
    | nil => rw [midLoop] at h; cases h; exact hd
    | cons q rest =>
      rw [midLoop] at h
      have hpq : p.1 < q.1 := (List.pairwise_cons.1 hinc).1 q List.mem_cons_self
      by_cases ht : sqErr (midPt q.2 p.2) (f ((q.1 + p.1) / 2)) > err
      · simp only [ht, if_true] at h
        refine ih done p _ _ h (lt_min hd (by linarith)) ?_
        rw [List.pairwise_cons] at hinc ⊢
        obtain ⟨h1, h2⟩ := hinc
        constructor
        · intro x hx
          rcases List.mem_cons.1 hx with rfl | hx
          · simp only; linarith
          · exact h1 x hx
        · rw [List.pairwise_cons]
          refine ⟨?_, h2⟩
          intro x hx
          rcases List.mem_cons.1 hx with rfl | hx
          · simp only; linarith
          · have := (List.pairwise_cons.1 h2).1 x hx
            simp only; linarith
      · simp only [ht, if_false] at h
        exact ih _ q rest _ h hd (List.pairwise_cons.1 hinc).2

theorem values_eq (half cur : K) (us : List K) (hlast : us.getLast? = some 1) (h : half ≠ 0) (a : FinArg K) :
    a.values half cur us = (us.map fun u => half * wanted (cur / half) a u, half * wanted (cur / half) a 1) := by
  cases a with
  | none =>
    unfold FinArg.values wanted
    simp only [mul_div_cancel₀ _ h]
  | num b =>
    unfold FinArg.values wanted mix
    simp only [Prod.mk.injEq]
    constructor
    · apply List.map_congr_left
      intro u _
      field_simp
      ring
    · ring
  | fn g =>
    unfold FinArg.values wanted
    simp only [Prod.mk.injEq, true_and]
    rw [List.getLastD_eq_getLast?, List.getLast?_map, hlast]
    rfl

theorem paramDerivs_eq (f : K → Pt K) (deriv : Option (K → Pt K)) (samples : List (K × Pt K)) (δ : K) (l : List (Pt K))
    (hs : Samples f 0 1 samples) (h : paramDerivs f deriv samples δ = .ok l) :
    l = samples.map fun s => slope f deriv δ s.1 := by
  unfold paramDerivs at h
  cases deriv with
  | some g => cases h; rfl
  | none =>
    simp only at h
    split at h
    · rename_i s0 s1 s2 rest
      cases h
      have h0 : s0 = (0, f 0) := by have := hs.first; simpa using this
      obtain ⟨m, hm⟩ := List.getLast?_eq_some_iff.1 hs.last
      have hlast : (s2 :: rest).getLastD s2 = (1, f 1) := by
        have := hs.last
        rw [List.getLast?_cons_cons, List.getLast?_cons_cons] at this
        rw [List.getLastD_eq_getLast?, this]
        rfl
      have hl2 : (s1 :: s2 :: rest).getLast (by simp) = (1, f 1) := by
        have := hs.last
        rw [List.getLast?_cons_cons, List.getLast?_eq_some_getLast (by simp)] at this
        exact Option.some.inj this
      have hsplit : s1 :: s2 :: rest = (s1 :: s2 :: rest).dropLast ++ [(1, f 1)] := by
        rw [← hl2, List.dropLast_append_getLast]
      rw [hlast]
      conv_rhs => rw [hsplit]
      rw [List.map_cons, List.map_append, List.cons_append]
      have hinc := hs.increasing
      rw [hsplit] at hinc
      have hlt1 : ∀ s ∈ (s1 :: s2 :: rest).dropLast, s.1 < 1 := by
        intro s hs'
        exact (List.pairwise_append.1 (List.pairwise_cons.1 hinc).2).2.2 s hs' (1, f 1) (by simp)
      have hgt0 : ∀ s ∈ (s1 :: s2 :: rest).dropLast, 0 < s.1 := by
        intro s hs'
        have := (List.pairwise_cons.1 hinc).1 s (List.mem_append_left _ hs')
        rwa [h0] at this
      congr 1
      · subst h0
        unfold slope
        simp
      · congr 1
        · apply List.map_congr_left
          intro s hs'
          unfold slope
          simp [(hlt1 s hs').ne, (hgt0 s hs').ne']
        · unfold slope
          simp
    · cases h

/-- `Path.parametric`: the path follows the curve (from the current end point when `relative`), with the wanted width and
distance between paths, and its polygons are outlines of the bands over consecutive parts of [0, 1], one for each parallel
path. -/
theorem C65_parametric (t : Num K) (fuel : Nat) (f : K → Pt K) (deriv : Option (K → Pt K)) (tol : K) (evals mp : Nat)
    (fw fd : FinArg K) (relative : Bool) (layer datatype : LayerArg) (p q : PPath K)
    (h : p.parametric t fuel f deriv tol evals mp fw fd relative layer datatype = (q, none)) :
    let F : K → Pt K := fun u => if relative then ((f u).1 + p.x, (f u).2 + p.y) else f u
    ∃ δ : K, 0 < δ ∧ Drawn t F (slope f deriv δ) (wanted (widthOf p) fw) (wanted p.distance fd) p q := by
  intro F
  unfold PPath.parametric at h
  split at h
  · simp at h
  · rename_i hev
    simp only at h
    split at h
    · simp at h
    · rename_i samples delta hmid
      obtain ⟨m, hlin⟩ := linspace01_ends (K := K) (n := evals) (by omega)
      have hpw := linspace_inc (zero_lt_one (α := K)) (n := evals) (by omega)
      obtain ⟨hsam, -, -⟩ := C55_refined f (tol ^ 2) fuel _ _ samples delta 0 1 (by rw [hlin]; rfl)
        (by rw [hlin, ← List.cons_append, List.getLast?_append]; rfl) hpw hmid
      have hdelta : 0 < delta := by
        rw [hlin] at hmid hpw
        unfold midSample at hmid
        refine midLoop_delta f (tol ^ 2) fuel [] (0, f 0) _ _ samples delta hmid ?_ ?_
        · cases m with
          | nil => simp
          | cons x m => simp at hpw ⊢; exact hpw.1.1
        · have := List.Pairwise.map (R := (· < ·)) (S := fun (a b : K × Pt K) => a.1 < b.1) (fun u => (u, f u))
            (fun _ _ h => h) hpw
          rwa [List.map_cons] at this
      split at h
      · simp at h
      · rename_i derivs hder
        have hder' := paramDerivs_eq f deriv samples (delta / 2) derivs hsam hder
        refine ⟨delta / 2, by linarith, ?_⟩
        set δ := delta / 2 with hδ
        set us := samples.map Prod.fst with hus
        have usfirst : us.head? = some 0 := by rw [hus, List.head?_map, hsam.first]; rfl
        have uslast : us.getLast? = some 1 := by rw [hus, List.getLast?_map, hsam.last]; rfl
        have usinc : us.Pairwise (· < ·) := by
          rw [hus, List.pairwise_map]; exact hsam.increasing
        have hvals : samples.map Prod.snd = us.map f := by
          rw [hus, List.map_map]
          exact List.map_congr_left fun s hs => hsam.onCurve s hs
        have hx0 : (if relative then (samples.map Prod.snd).map (fun v : Pt K => (v.1 + p.x, v.2 + p.y)) else samples.map Prod.snd)
            = us.map F := by
          rw [hvals]
          cases relative
          · rfl
          · simp only [if_true, List.map_map]; rfl
        have hdx : derivs.map (unitNormal t) = us.map fun u => toLeft t (slope f deriv δ u) := by
          rw [hder', hus, List.map_map, List.map_map]
          apply List.map_congr_left
          intro s _
          simp only [Function.comp, unitNormal, toLeft, mul_one, mul_neg]
        simp only [values_eq (1 / 2) p.w us uslast (by norm_num) fw, values_eq 1 p.distance us uslast one_ne_zero fd,
          hx0, hdx] at h
        have hlen : 2 ≤ us.length := by
          rcases us with _ | ⟨x, _ | ⟨y, l⟩⟩
          · cases usfirst
          · simp at usfirst uslast; rw [usfirst] at uslast; simp at uslast
          · simp
        have hsecs : List.zipWith (fun (a : Pt K × Pt K) (b : K × K) => (⟨a.1, a.2, b.1, b.2⟩ : Section K))
            (List.zip (us.map F) (us.map fun u => toLeft t (slope f deriv δ u)))
            (List.zip (us.map fun u => 1 / 2 * wanted (p.w / (1 / 2)) fw u) (us.map fun u => 1 * wanted (p.distance / 1) fd u))
            = us.map fun u => ⟨F u, toLeft t (slope f deriv δ u), wanted (widthOf p) fw u / 2, wanted p.distance fd u⟩ := by
          have hw : p.w / (1 / 2) = widthOf p := by unfold widthOf; ring
          rw [hw, div_one]
          simp only [one_mul]
          generalize us = us
          induction us with
          | nil => rfl
          | cons u us ih =>
            simp only [List.map_cons, List.zip_cons_cons, List.zipWith_cons_cons]
            rw [ih]
            congr 2
            ring
        rw [hsecs] at h
        have hsl : samples.length = us.length := by rw [hus, List.length_map]
        rw [hsl] at h
        have := sections_outlines F (fun u => toLeft t (slope f deriv δ u)) (wanted (widthOf p) fw) (wanted p.distance fd)
          (k := if mp < 4 then us.length else mp / 2) (by split <;> omega) layer datatype us.length us usinc (le_refl _)
          (by intro hc; rw [hc] at hlen; simp at hlen) _ q h
        obtain ⟨⟨x1, x2, x3, x4, x5, x6⟩, cuts, rounds, c1, c2, c3, c4, c5, c6⟩ := this
        simp only at x1 x2 x3 x4 x5 x6 c5 c6
        have hF : (us.map F).getLastD (0, 0) = F 1 := by
          rw [List.getLastD_eq_getLast?, List.getLast?_map, uslast]; rfl
        have hN : (us.map fun u => toLeft t (slope f deriv δ u)).getLastD (0, 0) = toLeft t (slope f deriv δ 1) := by
          rw [List.getLastD_eq_getLast?, List.getLast?_map, uslast]; rfl
        rw [hF] at x1 x2
        rw [hN] at x5
        refine ⟨x6, by rw [x1, x2], ?_, by rw [x4]; simp, ?_, cuts, rounds, by rw [c1, usfirst], by rw [c2, uslast], c3, c4, c5, c6⟩
        · unfold widthOf
          rw [x3]
          have : p.w / (1 / 2) = 2 * p.w := by ring
          rw [this]; ring
        · intro hpol hne
          rw [x5]
          generalize slope f deriv δ 1 = v at hne ⊢
          unfold toLeft
          simp only [Dir.vec, neg_div, neg_neg]
          have hpos : 0 < v.1 ^ 2 + v.2 ^ 2 := by
            rcases eq_or_ne v.1 0 with h0 | h0
            · have h1 : v.2 ≠ 0 := fun hc => hne (Prod.ext h0 hc)
              positivity
            · positivity
          have hsq := hpol.sqrtSq _ hpos.le
          have hr : 0 < t.sqrt (v.1 ^ 2 + v.2 ^ 2) := by
            rcases (hpol.sqrtNonneg (v.1 ^ 2 + v.2 ^ 2)).lt_or_eq with hlt | he
            · exact hlt
            · rw [← he] at hsq; simp at hsq; linarith
          generalize t.sqrt (v.1 ^ 2 + v.2 ^ 2) = r at hsq hr ⊢
          refine ⟨r, hr, ?_⟩
          have h1 : (v.1 / r) ^ 2 + (v.2 / r) ^ 2 = 1 := by
            rw [div_pow, div_pow, ← add_div, hsq]; exact div_self hpos.ne'
          have h1n := hpol.sqrtNonneg 1
          have h1s := hpol.sqrtSq 1 zero_le_one
          have h1e : t.sqrt 1 = 1 := by nlinarith
          have hc := hpol.cos (v.1 / r) (v.2 / r)
          have hs := hpol.sin (v.1 / r) (v.2 / r)
          rw [h1, h1e, one_mul] at hc hs
          ext
          · simp only [hc]; field_simp
          · simp only [hs]; field_simp

theorem hodograph_eq (ctrl : List (Pt K)) (h : ctrl ≠ []) : bezierDerivCtrl ctrl = hodograph ctrl := by
  have hpos := List.length_pos_iff.2 h
  unfold bezierDerivCtrl hodograph
  apply List.ext_getElem?
  intro i
  rw [List.getElem?_map, List.getElem?_zipWith]
  by_cases hi : i < ctrl.length - 1
  · rw [List.getElem?_range hi, List.getElem?_eq_getElem (by omega : i < ctrl.length), List.getElem?_drop,
      List.getElem?_eq_getElem (by omega : 1 + i < ctrl.length)]
    simp only [Option.map_some, List.getD_eq_getElem?_getD, List.getElem?_eq_getElem (by omega : i < ctrl.length),
      List.getElem?_eq_getElem (by omega : i + 1 < ctrl.length), Option.getD_some, Nat.cast_sub hpos, Nat.cast_one, add_comm 1 i]
  · rw [List.getElem?_eq_none (l := List.range _) (by rw [List.length_range]; omega), List.getElem?_drop,
      List.getElem?_eq_none (l := ctrl) (i := 1 + i) (by omega)]
    cases ctrl[i]? <;> rfl

theorem hodograph_shift (ctrl : List (Pt K)) (h : ctrl ≠ []) (a b : K) :
    hodograph (ctrl.map fun q => (q.1 + a, q.2 + b)) = hodograph ctrl := by
  have hpos := List.length_pos_iff.2 h
  unfold hodograph
  rw [List.length_map]
  apply List.map_congr_left
  intro i hi
  have hi := List.mem_range.1 hi
  simp only [List.getD_eq_getElem?_getD, List.getElem?_map, List.getElem?_eq_getElem (by omega : i < ctrl.length),
      List.getElem?_eq_getElem (by omega : i + 1 < ctrl.length), Option.map_some, Option.getD_some, Prod.mk.injEq]
  constructor <;> ring

theorem funcBezier_shift (ctrl : List (Pt K)) (h : ctrl ≠ []) (a b u : K) :
    funcBezier (ctrl.map fun q => (q.1 + a, q.2 + b)) u = ((funcBezier ctrl u).1 + a, (funcBezier ctrl u).2 + b) := by
  have hA : ∀ q : Pt K, (⟨1, 0, 0, 1, a, b⟩ : Aff K).app q = (q.1 + a, q.2 + b) := by
    intro q
    simp [Aff.app]
  have := C58_affine (⟨1, 0, 0, 1, a, b⟩ : Aff K) ctrl h u
  rw [hA] at this
  rw [← this]
  congr 1
  exact List.map_congr_left fun q _ => (hA q).symm

/-- `Path.bezier`: the path follows the Bezier curve from its end point with the given further control points (counted
from the end point when `relative`). -/
theorem C65_bezier (t : Num K) (fuel : Nat) (points : List (Pt K)) (tol : K) (evals mp : Nat) (fw fd : FinArg K)
    (relative : Bool) (layer datatype : LayerArg) (p q : PPath K)
    (h : p.bezier t fuel points tol evals mp fw fd relative layer datatype = (q, none)) :
    let ctrl := (p.x, p.y) :: if relative then points.map (fun v => (v.1 + p.x, v.2 + p.y)) else points
    points ≠ [] ∧
    Drawn t (bezier ctrl) (bezier (hodograph ctrl)) (wanted (widthOf p) fw) (wanted p.distance fd) p q := by
  intro ctrl
  unfold PPath.bezier at h
  split at h
  · simp at h
  · rename_i hne
    refine ⟨hne, ?_⟩
    simp only at h
    obtain ⟨δ, -, hd⟩ := C65_parametric t fuel _ _ tol evals mp fw fd relative layer datatype p q h
    have hs : slope (funcBezier ((if relative then (0, 0) else (p.x, p.y)) :: points))
        (some (funcBezier (bezierDerivCtrl ((if relative then (0, 0) else (p.x, p.y)) :: points)))) δ = bezier (hodograph ctrl) := by
      funext u
      unfold slope
      simp only
      rw [hodograph_eq _ (by simp), C58_formula _ (by
        intro hc
        have := congrArg List.length hc
        unfold hodograph at this
        simp at this
        exact hne this)]
      congr 1
      cases relative
      · rfl
      · simp only [ctrl, if_true]
        rw [← hodograph_shift ((0, 0) :: points) (by simp) p.x p.y]
        simp
    have hF : (fun u => if relative then
        ((funcBezier ((if relative then (0, 0) else (p.x, p.y)) :: points) u).1 + p.x,
         (funcBezier ((if relative then (0, 0) else (p.x, p.y)) :: points) u).2 + p.y)
        else funcBezier ((if relative then (0, 0) else (p.x, p.y)) :: points) u) = bezier ctrl := by
      funext u
      rw [← C58_formula _ (by simp [ctrl])]
      cases relative
      · rfl
      · simp only [ctrl, if_true]
        rw [← funcBezier_shift _ (by simp)]
        simp
    simp only [hs, hF] at hd
    exact hd

theorem forOut_states {S α : Type} (f : S → α → Out S) (l : List α) (s s' : S) (h : forOut f s l = (s', none)) :
    ∃ st : List S, st.length = l.length + 1 ∧ st.head? = some s ∧ st.getLast? = some s' ∧
      ∀ (i : Nat) (a : α) (x y : S), l[i]? = some a → st[i]? = some x → st[i + 1]? = some y → f x a = (y, none) := by
  induction l generalizing s with
  | nil =>
    simp only [forOut, Prod.mk.injEq, and_true] at h
    subst h
    exact ⟨[s], rfl, rfl, rfl, by simp⟩
  | cons a l ih =>
    unfold forOut at h
    split at h
    · simp at h
    · rename_i s1 hs1
      obtain ⟨st, h1, h2, h3, h4⟩ := ih s1 h
      cases st with
      | nil => cases h2
      | cons z st =>
        obtain rfl : z = s1 := by simpa using h2
        refine ⟨s :: z :: st, by simp at h1 ⊢; exact h1, rfl, by rw [List.getLast?_cons_cons]; exact h3, ?_⟩
        intro i b x y hb hx hy
        cases i with
        | zero =>
          simp at hb hx hy
          subst hb hx hy
          exact hs1
        | succ i => exact h4 i b x y hb hx hy

/-- `Path.smooth`: consecutive Bezier curves through the end point of the path and the given points (counted from the end
point when `relative`), and back to it for a cycle, with the handles found by `_hobby` for these points. -/
theorem C65_smooth (t : Num K) (fuel : Nat) (hobby : Hobby K) (points : List (Pt K)) (cycle : Bool) (tol : K)
    (evals mp : Nat) (fws fds : Option (List (FinArg K))) (relative : Bool) (layer datatype : LayerArg) (p q : PPath K)
    (h : p.smooth t fuel hobby points cycle tol evals mp fws fds relative layer datatype = (q, none)) :
    let pts := (p.x, p.y) :: if relative then points.map (fun v => (v.1 + p.x, v.2 + p.y)) else points
    let knots := pts ++ if cycle then [(p.x, p.y)] else []
    ∃ cta ctb, hobby pts = .ok (cta, ctb) ∧
    ∃ st : List (PPath K), st.length = knots.length ∧ st.head? = some p ∧ st.getLast? = some q ∧
      (∀ (i : Nat) (x : PPath K), st[i]? = some x → knots[i]? = some (x.x, x.y)) ∧
      ∀ (i : Nat) (x y : PPath K), st[i]? = some x → st[i + 1]? = some y →
        ∃ (a b : Pt K) (fw fd : FinArg K),
          Drawn t (bezier [(x.x, x.y), a, b, (y.x, y.y)]) (bezier (hodograph [(x.x, x.y), a, b, (y.x, y.y)]))
            (wanted (widthOf x) fw) (wanted x.distance fd) x y ∧
          (if i + 1 < pts.length then cta[i]? = some a ∧ ctb[i]? = some b else cta.getLast? = some a ∧ ctb.getLast? = some b) ∧
          PickedFor fws i (decide (pts.length ≤ i + 1)) fw ∧
          PickedFor fds i (decide (pts.length ≤ i + 1)) fd := by
  intro pts knots
  unfold PPath.smooth at h
  split at h
  · simp at h
  · have hpts : (if relative then ((0, 0) :: points).map (fun v : Pt K => (v.1 + p.x, v.2 + p.y)) else (p.x, p.y) :: points) = pts := by
      cases relative
      · rfl
      · simp [pts]
    simp only [hpts] at h
    split at h
    · simp at h
    · rename_i cta ctb hhob
      refine ⟨cta, ctb, hhob, ?_⟩
      -- one call
      have hidx : ∀ {α : Type} (l : List α) (i : Nat) (x : α), idx l i = .ok x → l[i]? = some x := by
        intro α l i x hx
        unfold idx at hx
        split at hx
        · cases hx; assumption
        · cases hx
      have hfin : ∀ (o : Option (List (FinArg K))) (i : Nat) (x : FinArg K) (b : Bool),
          (if b then (o.getD (List.replicate cta.length .none)).getLast? = some x
            else (o.getD (List.replicate cta.length .none))[i]? = some x) → PickedFor o i b x := by
        intro o i x b hx
        cases o with
        | some l => exact hx
        | none =>
          cases b
          · have := List.mem_of_getElem? hx
            exact (List.mem_replicate.1 this).2
          · have := List.mem_of_getLast? hx
            exact (List.mem_replicate.1 this).2
      have hstep : ∀ (x y : PPath K) (a b c : Pt K) (fw fd : FinArg K),
          PPath.smoothStep t fuel tol evals mp layer datatype (.ok ([a, b, c], fw, fd)) x = (y, none) →
          (y.x, y.y) = c ∧ Drawn t (bezier [(x.x, x.y), a, b, c]) (bezier (hodograph [(x.x, x.y), a, b, c]))
            (wanted (widthOf x) fw) (wanted x.distance fd) x y := by
        intro x y a b c fw fd hy
        unfold PPath.smoothStep at hy
        have := (C65_bezier t fuel _ tol evals mp fw fd false layer datatype x y hy).2
        simp only [Bool.false_eq_true, if_false] at this
        refine ⟨?_, this⟩
        rw [this.endPoint, ← C58_formula _ (by simp), C58_end _ (by simp)]
        rfl
      split at h
      · simp at h
      · rename_i r hr
        obtain ⟨st, s1, s2, s3, s4⟩ := forOut_states _ _ _ _ hr
        rw [List.length_range] at s1
        have hlen : 0 < pts.length := by simp [pts]
        have s5 : ∀ (i : Nat) (x y : PPath K), st[i]? = some x → st[i + 1]? = some y →
            ∃ (a b : Pt K) (fw fd : FinArg K), pts[i + 1]? = some (y.x, y.y) ∧
            Drawn t (bezier [(x.x, x.y), a, b, (y.x, y.y)]) (bezier (hodograph [(x.x, x.y), a, b, (y.x, y.y)]))
              (wanted (widthOf x) fw) (wanted x.distance fd) x y ∧ cta[i]? = some a ∧ ctb[i]? = some b ∧
            (fws.getD (List.replicate cta.length .none))[i]? = some fw ∧
            (fds.getD (List.replicate cta.length .none))[i]? = some fd := by
          intro i x y hx hy
          have hi : i < pts.length - 1 := by
            have := (List.getElem?_eq_some_iff.1 hy).1
            omega
          have := s4 i i x y (List.getElem?_range hi) hx hy
          unfold smoothArgs at this
          cases e1 : idx cta i with
          | error e => rw [e1] at this; simp [PPath.smoothStep, bind, Except.bind] at this
          | ok a =>
          cases e2 : idx ctb i with
          | error e => rw [e1, e2] at this; simp [PPath.smoothStep, bind, Except.bind] at this
          | ok b =>
          cases e3 : idx pts (i + 1) with
          | error e => rw [e1, e2, e3] at this; simp [PPath.smoothStep, bind, Except.bind] at this
          | ok c =>
          cases e4 : idx (fws.getD (List.replicate cta.length .none)) i with
          | error e => rw [e1, e2, e3, e4] at this; simp [PPath.smoothStep, bind, Except.bind] at this
          | ok fw =>
          cases e5 : idx (fds.getD (List.replicate cta.length .none)) i with
          | error e => rw [e1, e2, e3, e4, e5] at this; simp [PPath.smoothStep, bind, Except.bind] at this
          | ok fd =>
          rw [e1, e2, e3, e4, e5] at this
          obtain ⟨g1, g2⟩ := hstep x y a b c fw fd this
          subst g1
          exact ⟨a, b, fw, fd, hidx _ _ _ e3, g2, hidx _ _ _ e1, hidx _ _ _ e2, hidx _ _ _ e4, hidx _ _ _ e5⟩
        have s6 : ∀ (i : Nat) (x : PPath K), st[i]? = some x → pts[i]? = some (x.x, x.y) := by
          intro i x hx
          cases i with
          | zero =>
            rw [← List.head?_eq_getElem?, s2] at hx
            cases hx
            rfl
          | succ i =>
            obtain ⟨z, hz⟩ : ∃ z, st[i]? = some z :=
              ⟨_, List.getElem?_eq_getElem (by have := (List.getElem?_eq_some_iff.1 hx).1; omega)⟩
            obtain ⟨_, _, _, _, g, _⟩ := s5 i z x hz hx
            exact g
        cases cycle with
        | false =>
          simp only [Bool.false_eq_true, if_false, Prod.mk.injEq, and_true] at h
          subst h
          have hk : knots = pts := by simp [knots]
          rw [hk]
          refine ⟨st, by omega, s2, s3, s6, ?_⟩
          intro i x y hx hy
          have hi : i + 1 < pts.length := by
            have := (List.getElem?_eq_some_iff.1 hy).1
            omega
          obtain ⟨a, b, fw, fd, g1, g2, g3, g4, g5, g6⟩ := s5 i x y hx hy
          refine ⟨a, b, fw, fd, g2, by rw [if_pos hi]; exact ⟨g3, g4⟩, ?_, ?_⟩
          · rw [decide_eq_false (by omega)]; exact hfin fws i fw false g5
          · rw [decide_eq_false (by omega)]; exact hfin fds i fd false g6
        | true =>
          simp only [if_true] at h
          have hk : knots = pts ++ [(p.x, p.y)] := by simp [knots]
          rw [hk]
          have hlast : ∀ {α : Type} (l : List α) (x : α), idx l.reverse 0 = .ok x → l.getLast? = some x := by
            intro α l x hx
            have := hidx _ _ _ hx
            rwa [← List.head?_eq_getElem?, List.head?_reverse] at this
          unfold smoothCloseArgs at h
          cases e1 : idx cta.reverse 0 with
          | error e => rw [e1] at h; simp [PPath.smoothStep, bind, Except.bind] at h
          | ok a =>
          cases e2 : idx ctb.reverse 0 with
          | error e => rw [e1, e2] at h; simp [PPath.smoothStep, bind, Except.bind] at h
          | ok b =>
          cases e3 : idx pts 0 with
          | error e => rw [e1, e2, e3] at h; simp [PPath.smoothStep, bind, Except.bind] at h
          | ok c =>
          cases e4 : idx (fws.getD (List.replicate cta.length .none)).reverse 0 with
          | error e => rw [e1, e2, e3, e4] at h; simp [PPath.smoothStep, bind, Except.bind] at h
          | ok fw =>
          cases e5 : idx (fds.getD (List.replicate cta.length .none)).reverse 0 with
          | error e => rw [e1, e2, e3, e4, e5] at h; simp [PPath.smoothStep, bind, Except.bind] at h
          | ok fd =>
          rw [e1, e2, e3, e4, e5] at h
          obtain ⟨g1, g2⟩ := hstep r q a b c fw fd h
          have hc : c = (p.x, p.y) := by
            have := hidx _ _ _ e3
            simp [pts] at this
            exact this.symm
          subst g1
          have hst : st ≠ [] := by intro hc; rw [hc] at s2; cases s2
          refine ⟨st ++ [q], by simp; omega, ?_, by simp, ?_, ?_⟩
          · rw [List.head?_append, s2]; rfl
          · intro i x hx
            by_cases hi : i < st.length
            · rw [List.getElem?_append_left hi] at hx
              rw [List.getElem?_append_left (by omega)]
              exact s6 i x hx
            · have hi2 : i = st.length := by
                have := (List.getElem?_eq_some_iff.1 hx).1
                simp at this
                omega
              subst hi2
              rw [List.getElem?_append_right (le_refl _)] at hx
              simp at hx
              subst hx
              rw [List.getElem?_append_right (by omega), show st.length - pts.length = 0 by omega, ← hc]
              rfl
          · intro i x y hx hy
            by_cases hi : i + 1 < st.length
            · rw [List.getElem?_append_left (by omega)] at hx
              rw [List.getElem?_append_left hi] at hy
              obtain ⟨a, b, fw, fd, g1, g2, g3, g4, g5, g6⟩ := s5 i x y hx hy
              have hi' : i + 1 < pts.length := by omega
              refine ⟨a, b, fw, fd, g2, by rw [if_pos hi']; exact ⟨g3, g4⟩, ?_, ?_⟩
              · rw [decide_eq_false (by omega)]; exact hfin fws i fw false g5
              · rw [decide_eq_false (by omega)]; exact hfin fds i fd false g6
            · have hi2 : i + 1 = st.length := by
                have := (List.getElem?_eq_some_iff.1 hy).1
                simp at this
                omega
              have hi' : ¬ i + 1 < pts.length := by omega
              rw [List.getElem?_append_left (by omega)] at hx
              rw [hi2, List.getElem?_append_right (le_refl _)] at hy
              simp at hy
              subst hy
              have hxr : x = r := by
                rw [List.getLast?_eq_getElem?, ← hi2, Nat.add_sub_cancel, hx] at s3
                exact Option.some.inj s3
              subst hxr
              refine ⟨a, b, fw, fd, g2, by rw [if_neg hi']; exact ⟨hlast _ _ e1, hlast _ _ e2⟩, ?_, ?_⟩
              · rw [decide_eq_true (by omega)]; exact hfin fws i fw true (hlast _ _ e4)
              · rw [decide_eq_true (by omega)]; exact hfin fds i fd true (hlast _ _ e5)

end Gdspy
