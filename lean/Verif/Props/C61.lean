import Verif.Lemmas.Similar
import Verif.Props.C60

/-!
# C61: transforming a path transforms its polygons

A `FlexPath` is transformed by changing its points, widths and offsets; its polygons are computed afterwards. They are
compared with the images of the polygons of the original.
-/

set_option linter.unusedSectionVars false

namespace Gdspy

open Spec

variable {K : Type}

/-- Corners that are made of straight lines. -/
def Spec.StraightCorner : FlexCorner K → Prop
  | .natural | .miter | .bevel => True
  | _ => False

/-- Ends that are made of straight lines. -/
def Spec.StraightEnd : FlexEnd K → Prop
  | .flush | .extended | .pair _ _ => True
  | _ => False

section Map

variable [Field K] [LinearOrder K] [IsStrictOrderedRing K] [FloorRing K]

theorem two_ne : (2 : K) ≠ 0 := two_ne_zero

theorem offsetLegs_sim {t : Num K} (ht : Num.Polar t) {A : Aff K} {k e : K} (h : Similar A k e) (l : List (Pt K × K)) :
    offsetLegs t (l.map fun x => (A.app x.1, e * (k * x.2))) = (offsetLegs t l).map (Prod.map A.app A.app) := by
  induction l with
  | nil => rfl
  | cons p l ih =>
    cases l with
    | nil => rfl
    | cons q r =>
      simp only [List.map_cons] at ih ⊢
      rw [offsetLegs, offsetLegs, List.map_cons, ih, app_psub]
      simp only [Prod.map_apply, app_padd]
      rw [h.normal ht, h.normal ht]

theorem lineCross_sim {A : Aff K} {k e : K} (h : Similar A k e) (p0 v0 p1 v1 : Pt K) :
    lineCross (A.app p0) (A.lin v0) (A.app p1) (A.lin v1) =
      ((lineCross p0 v0 p1 v1).1, (lineCross p0 v0 p1 v1).2.1, A.app (lineCross p0 v0 p1 v1).2.2) := by
  have hd : (A.lin v1).2 * (A.lin v0).1 - (A.lin v1).1 * (A.lin v0).2 = e * k ^ 2 * (v1.2 * v0.1 - v1.1 * v0.2) := by
    have := h.cross v0 v1
    unfold vcross at this
    linear_combination this
  have hx : ∀ v : Pt K, (A.lin v).2 * ((A.app p1).1 - (A.app p0).1) - (A.lin v).1 * ((A.app p1).2 - (A.app p0).2) =
      e * k ^ 2 * (v.2 * (p1.1 - p0.1) - v.1 * (p1.2 - p0.2)) := by
    intro v
    have h1 := h.cross (psub p1 p0) v
    rw [← app_psub] at h1
    unfold vcross psub at h1
    simp only at h1
    linear_combination h1
  have hne : e * k ^ 2 ≠ 0 := mul_ne_zero h.sign_ne (pow_ne_zero 2 h.ne)
  unfold lineCross
  simp only
  rw [hd, hx, hx, mul_div_mul_left _ _ hne, mul_div_mul_left _ _ hne, app_halfway A two_ne, app_padd, app_padd, lin_psmul,
    lin_psmul]

theorem cross_sq {A : Aff K} {k e : K} (h : Similar A k e) (x c : K) : (e * k ^ 2 * x) ^ 2 < c * k ^ 4 ↔ x ^ 2 < c := by
  have h1 : (e * k ^ 2 * x) ^ 2 = x ^ 2 * k ^ 4 := by linear_combination (k ^ 4 * x ^ 2) * h.sign_sq
  rw [h1]
  exact mul_lt_mul_iff_of_pos_right (pow_pos h.pos 4)

theorem legJoin_sim {A : Aff K} {k e : K} (h : Similar A k e) (x y : Pt K × Pt K) :
    legJoin (Prod.map A.app A.app x) (Prod.map A.app A.app y) = A.app (legJoin x y) := by
  unfold legJoin
  simp only [Prod.map_fst, Prod.map_snd, app_psub]
  rw [h.cross, h.norm, h.norm]
  have e1 : 1 / 10 ^ 12 * (k ^ 2 * normSq (psub y.2 y.1)) * (k ^ 2 * normSq (psub x.2 x.1)) =
      (1 / 10 ^ 12 * normSq (psub y.2 y.1) * normSq (psub x.2 x.1)) * k ^ 4 := by ring
  rw [e1]
  simp only [cross_sq h]
  split
  · have := app_halfway A two_ne y.1 x.2
    unfold halfway at this
    rw [this]
  · rw [app_padd, lin_psmul]
    congr 2
    have hne : e * k ^ 2 ≠ 0 := mul_ne_zero h.sign_ne (pow_ne_zero 2 h.ne)
    have h1 := h.cross (psub x.2 y.1) (psub y.2 y.1)
    unfold vcross at h1
    have h2 : (A.lin (psub y.2 y.1)).2 * (A.lin (psub x.2 y.1)).1 - (A.lin (psub y.2 y.1)).1 * (A.lin (psub x.2 y.1)).2 =
        e * k ^ 2 * ((psub y.2 y.1).2 * (psub x.2 y.1).1 - (psub y.2 y.1).1 * (psub x.2 y.1).2) := by
      linear_combination h1
    rw [h2, mul_div_mul_left _ _ hne]

theorem joinLegs_sim {A : Aff K} {k e : K} (h : Similar A k e) (l : List (Pt K × Pt K)) :
    joinLegs (l.map (Prod.map A.app A.app)) = (joinLegs l).map A.app := by
  induction l with
  | nil => rfl
  | cons x l ih =>
    cases l with
    | nil => rfl
    | cons y r =>
      simp only [List.map_cons] at ih ⊢
      rw [joinLegs, joinLegs, List.map_cons, ih, legJoin_sim h]

theorem offsetSpine_sim {t : Num K} (ht : Num.Polar t) {A : Aff K} {k e : K} (h : Similar A k e) (pts : List (Pt K))
    (offs : List K) : offsetSpine t (pts.map A.app) (offs.map fun o => e * (k * o)) =
      (offsetSpine t pts offs).map (List.map A.app) := by
  have hz : ∀ o : K, (e * (k * o) = 0) ↔ o = 0 := by
    intro o
    constructor
    · intro h0
      exact (mul_eq_zero.1 ((mul_eq_zero.1 h0).resolve_left h.sign_ne)).resolve_left h.ne
    · rintro rfl; simp
  unfold offsetSpine
  rw [List.all_map]
  have : ((fun o : K => decide (o = 0)) ∘ fun o => e * (k * o)) = fun o => decide (o = 0) := by
    funext o; simp only [Function.comp_apply, hz]
  rw [this]
  split
  · rfl
  · rw [List.zip_map]
    have := offsetLegs_sim ht h (List.zip pts offs)
    have e2 : (Prod.map A.app fun o => e * (k * o)) = fun x : Pt K × K => (A.app x.1, e * (k * x.2)) := rfl
    rw [e2, this]
    cases offsetLegs t (pts.zip offs) with
    | nil => rfl
    | cons x r =>
      rw [List.map_cons]
      simp only
      rw [← List.map_cons, joinLegs_sim h]
      rfl

/-- The image of an edge. -/
def FlexEdge.image (A : Aff K) (k : K) (x : FlexEdge K) : FlexEdge K := ⟨A.app x.pa, A.app x.pb, A.app x.spine, k * x.halfW⟩

/-- The image of a corner. -/
def FlexJoint.image (A : Aff K) (k : K) (j : FlexJoint K) : FlexJoint K :=
  ⟨A.app j.p0, A.lin j.v0, A.app j.p1, A.lin j.v1, A.app j.spine, k * j.halfW⟩

theorem flexEdges_sim {t : Num K} (ht : Num.Polar t) {A : Aff K} {k e : K} (h : Similar A k e) (sign : K)
    (l : List (Pt K × K)) : flexEdges t sign (l.map fun x => (A.app x.1, k * x.2)) =
      (flexEdges t (e * sign) l).map (FlexEdge.image A k) := by
  induction l with
  | nil => rfl
  | cons p l ih =>
    cases l with
    | nil => rfl
    | cons q r =>
      simp only [List.map_cons] at ih ⊢
      rw [flexEdges, flexEdges, List.map_cons, ih, app_psub]
      have hs : ∀ w : K, sign * (k * w / 2) = e * (k * (e * sign * (w / 2))) := by
        intro w; linear_combination (-(sign * k * w / 2)) * h.sign_sq
      unfold FlexEdge.image
      simp only [app_padd]
      rw [hs, hs, h.normal ht, h.normal ht]
      simp only [mul_div_assoc]

theorem flexJoints_sim {A : Aff K} {k : K} (l : List (FlexEdge K)) :
    flexJoints (l.map (FlexEdge.image A k)) = (flexJoints l).map (FlexJoint.image A k) := by
  induction l with
  | nil => rfl
  | cons x l ih =>
    cases l with
    | nil => rfl
    | cons y r =>
      simp only [List.map_cons] at ih ⊢
      rw [flexJoints, flexJoints, List.map_cons, ih]
      unfold FlexJoint.image FlexEdge.image
      simp only [app_psub]

theorem naturalCorner_sim {t : Num K} (ht : Num.Polar t) {A : Aff K} {k e : K} (h : Similar A k e) (j : FlexJoint K) :
    naturalCorner t (j.image A k) = (naturalCorner t j).map A.app := by
  unfold naturalCorner FlexJoint.image
  simp only
  rw [h.unit ht, h.unit ht]
  generalize psmul (j.halfW / t.sqrt (normSq j.v0)) j.v0 = v0
  generalize psmul (j.halfW / t.sqrt (normSq j.v1)) j.v1 = v1
  have hd : (A.lin v1).2 * (A.lin v0).1 - (A.lin v1).1 * (A.lin v0).2 = e * k ^ 2 * (v1.2 * v0.1 - v1.1 * v0.2) := by
    have := h.cross v0 v1
    unfold vcross at this
    linear_combination this
  have e1 : 1 / 10 ^ 12 * (k * j.halfW) ^ 4 = 1 / 10 ^ 12 * j.halfW ^ 4 * k ^ 4 := by ring
  rw [hd, e1, lineCross_sim h]
  simp only [cross_sq h]
  by_cases hc : (v1.2 * v0.1 - v1.1 * v0.2) ^ 2 < 1 / 10 ^ 12 * j.halfW ^ 4
  · simp only [hc, if_true]
    split
    · rw [List.map_singleton, app_halfway A two_ne]
    · split
      · rw [List.map_singleton, app_halfway A two_ne, app_padd, app_padd, lin_psmul, lin_psmul]
      · rw [List.map_cons, List.map_singleton, app_padd, app_padd, lin_psmul, lin_psmul]
  · simp only [hc, if_false]
    split
    · rw [List.map_singleton]
    · split
      · rw [List.map_singleton, app_halfway A two_ne, app_padd, app_padd, lin_psmul, lin_psmul]
      · rw [List.map_cons, List.map_singleton, app_padd, app_padd, lin_psmul, lin_psmul]

theorem flexCorner_sim {ctx : FlexCtx K} (ht : Num.Polar ctx.num) {A : Aff K} {k e : K} (h : Similar A k e)
    (tol : K) (radius : Option K) {c : FlexCorner K} (hc : StraightCorner c) (j : FlexJoint K) :
    flexCorner ctx tol radius c (j.image A k) = (flexCorner ctx tol radius c j).map (List.map A.app) := by
  have hd : ∀ v0 v1 : Pt K, (A.lin v1).2 * (A.lin v0).1 - (A.lin v1).1 * (A.lin v0).2 =
      e * k ^ 2 * (v1.2 * v0.1 - v1.1 * v0.2) := by
    intro v0 v1
    have := h.cross v0 v1
    unfold vcross at this
    linear_combination this
  have hj : ∀ j : FlexJoint K, (if ((j.image A k).v1.2 * (j.image A k).v0.1 - (j.image A k).v1.1 * (j.image A k).v0.2) ^ 2 <
        1 / 10 ^ 12 * normSq (j.image A k).v0 * normSq (j.image A k).v1 then (0, 0, halfway (j.image A k).p0 (j.image A k).p1)
        else lineCross (j.image A k).p0 (j.image A k).v0 (j.image A k).p1 (j.image A k).v1) =
      (fun c : K × K × Pt K => (c.1, c.2.1, A.app c.2.2)) (if (j.v1.2 * j.v0.1 - j.v1.1 * j.v0.2) ^ 2 <
        1 / 10 ^ 12 * normSq j.v0 * normSq j.v1 then (0, 0, halfway j.p0 j.p1) else lineCross j.p0 j.v0 j.p1 j.v1) := by
    intro j
    unfold FlexJoint.image
    simp only
    have e1 : 1 / 10 ^ 12 * (k ^ 2 * normSq j.v0) * (k ^ 2 * normSq j.v1) =
      (1 / 10 ^ 12 * normSq j.v0 * normSq j.v1) * k ^ 4 := by ring
    rw [hd, h.norm, h.norm, e1, lineCross_sim h]
    simp only [cross_sq h]
    split
    · rw [app_halfway A two_ne]
    · rfl
  cases c with
  | natural => unfold flexCorner; rw [naturalCorner_sim ht h]; rfl
  | miter =>
    unfold flexCorner
    simp only
    rw [hj]
    rfl
  | bevel =>
    unfold flexCorner
    simp only
    rw [hj]
    simp only
    generalize (if (j.v1.2 * j.v0.1 - j.v1.1 * j.v0.2) ^ 2 < 1 / 10 ^ 12 * normSq j.v0 * normSq j.v1 then
      ((0 : K), (0 : K), halfway j.p0 j.p1) else lineCross j.p0 j.v0 j.p1 j.v1) = c
    split <;> rfl
  | round => exact absurd hc id
  | smooth => exact absurd hc id
  | bend => exact absurd hc id
  | fn f => exact absurd hc id

theorem py_mapM_map {α β γ δ : Type} (f : β → Py γ) (g : α → β) (f' : α → Py δ) (m : δ → γ) (l : List α)
    (h : ∀ a ∈ l, f (g a) = (f' a).map m) : (l.map g).mapM f = (l.mapM f').map (List.map m) := by
  induction l with
  | nil => rfl
  | cons a l ih =>
    rw [List.map_cons, List.mapM_cons, List.mapM_cons, h a (by simp), ih fun b hb => h b (by simp [hb])]
    cases f' a with
    | error e => rfl
    | ok x => cases l.mapM f' with
      | error e => rfl
      | ok y => rfl

theorem flexArm_sim {ctx : FlexCtx K} (ht : Num.Polar ctx.num) {A : Aff K} {k e : K} (h : Similar A k e)
    (tol : K) (radius : Option K) {c : FlexCorner K} (hc : StraightCorner c) (l : List (FlexEdge K)) :
    flexArm ctx tol radius c (l.map (FlexEdge.image A k)) = (flexArm ctx tol radius c l).map (List.map A.app) := by
  unfold flexArm
  rw [flexJoints_sim, py_mapM_map _ _ (flexCorner ctx tol radius c) (List.map A.app) _
    (fun j _ => flexCorner_sim ht h tol radius hc j)]
  cases (flexJoints l).mapM (flexCorner ctx tol radius c) with
  | error e => rfl
  | ok x =>
    show Except.ok _ = Except.ok _
    rw [List.map_flatten]

/-- path.py:860-870: a straight cap. -/
def straightCap (t : Num K) (p v : Pt K) (r sign d : K) : List (Pt K) :=
  let u := psmul (1 / t.sqrt (normSq v)) v
  let w : Pt K := (sign * u.2 * 1, sign * u.1 * -1)
  [padd p (psmul r w), padd (padd p (psmul r w)) (psmul d u), padd (psub p (psmul r w)) (psmul d u), psub p (psmul r w)]

theorem straight_along {t : Num K} (ht : Num.Polar t) {A : Aff K} {k e : K} (h : Similar A k e) (v : Pt K) (d : K) :
    psmul (k * d) (psmul (1 / t.sqrt (normSq (A.lin v))) (A.lin v)) =
      A.lin (psmul d (psmul (1 / t.sqrt (normSq v)) v)) := by
  rw [psmul_psmul, psmul_psmul, mul_one_div, mul_one_div, h.unit ht]

theorem straight_across {t : Num K} (ht : Num.Polar t) {A : Aff K} {k e : K} (h : Similar A k e) (v : Pt K)
    (r sign : K) :
    psmul (k * r) (sign * (psmul (1 / t.sqrt (normSq (A.lin v))) (A.lin v)).2 * 1,
        sign * (psmul (1 / t.sqrt (normSq (A.lin v))) (A.lin v)).1 * -1) =
      A.lin (psmul (e * r) (sign * (psmul (1 / t.sqrt (normSq v)) v).2 * 1,
        sign * (psmul (1 / t.sqrt (normSq v)) v).1 * -1)) := by
  have hn : ∀ v : Pt K, ((sign * (psmul (1 / t.sqrt (normSq v)) v).2 * 1,
      sign * (psmul (1 / t.sqrt (normSq v)) v).1 * -1) : Pt K) = psmul (-sign) (unitNormal t v) := by
    intro v
    unfold psmul unitNormal normSq
    refine Prod.ext ?_ ?_ <;> simp only <;> ring
  rw [hn, hn, psmul_psmul, psmul_psmul]
  have e1 : k * r * -sign = e * (k * (e * r * -sign)) := by linear_combination (k * r * sign) * h.sign_sq
  rw [e1, h.normal ht]

theorem psmul_neg_left (c : K) (v : Pt K) : psmul (-c) v = pneg (psmul c v) := by
  unfold psmul pneg; refine Prod.ext ?_ ?_ <;> simp only <;> ring

theorem straightCap_direct {t : Num K} (ht : Num.Polar t) {A : Aff K} {k : K} (h : Similar A k 1) (p v : Pt K)
    (r sign d : K) : straightCap t (A.app p) (A.lin v) (k * r) sign (k * d) = (straightCap t p v r sign d).map A.app := by
  unfold straightCap
  simp only
  rw [straight_along ht h, straight_across ht h]
  simp only [List.map_cons, List.map_nil, app_padd, app_psub_vec, one_mul]

theorem straightCap_mirror {t : Num K} (ht : Num.Polar t) {A : Aff K} {k : K} (h : Similar A k (-1)) (p v : Pt K)
    (r sign d : K) : straightCap t (A.app p) (A.lin v) (k * r) sign (k * d) =
      ((straightCap t p v r sign d).map A.app).reverse := by
  have hp : ∀ p v : Pt K, padd p (pneg v) = psub p v := by
    intro p v; unfold padd pneg psub; refine Prod.ext ?_ ?_ <;> simp only <;> ring
  have hm : ∀ p v : Pt K, psub p (pneg v) = padd p v := by
    intro p v; unfold padd pneg psub; refine Prod.ext ?_ ?_ <;> simp only <;> ring
  unfold straightCap
  simp only
  rw [straight_along ht h, straight_across ht h, neg_mul, one_mul, psmul_neg_left, lin_pneg]
  simp only [List.map_cons, List.map_nil, app_padd, app_psub_vec, List.reverse_cons, List.reverse_nil, List.nil_append,
    List.cons_append, hp, hm]

/-- The points of a circle about the image. -/
theorem circle_sim {t : Num K} (ht : Num.Polar t) (hl : Num.Laws t) {A : Aff K} {e : K} (h : Similar A 1 e) {v : Pt K}
    (hv : v ≠ (0, 0)) (b : K) :
    ((t.cos (b + t.atan2 (A.lin v).2 (A.lin v).1), t.sin (b + t.atan2 (A.lin v).2 (A.lin v).1)) : Pt K) =
      A.lin (t.cos (e * b + t.atan2 v.2 v.1), t.sin (e * b + t.atan2 v.2 v.1)) := by
  have hr : t.sqrt (normSq v) ≠ 0 := by
    intro h0
    have h1 := ht.sqrtSq _ (normSq_nonneg v)
    rw [h0] at h1
    unfold normSq at h1
    have h2 : v.1 = 0 := by nlinarith [sq_nonneg v.1, sq_nonneg v.2]
    have h3 : v.2 = 0 := by nlinarith [sq_nonneg v.1, sq_nonneg v.2]
    exact hv (Prod.ext h2 h3)
  have hs := h.root ht v
  rw [one_mul] at hs
  have c1 := ht.cos (A.lin v).1 (A.lin v).2
  have s1 := ht.sin (A.lin v).1 (A.lin v).2
  have c0 := ht.cos v.1 v.2
  have s0 := ht.sin v.1 v.2
  change t.sqrt (normSq (A.lin v)) * _ = _ at c1
  change t.sqrt (normSq (A.lin v)) * _ = _ at s1
  change t.sqrt (normSq v) * _ = _ at c0
  change t.sqrt (normSq v) * _ = _ at s0
  rw [hs] at c1 s1
  have hcb : t.cos (e * b) = t.cos b := by
    rcases h.sign with h | h <;> rw [h]
    · rw [one_mul]
    · rw [neg_mul, one_mul, (hl.trig.neg b).1]
  have hsb : t.sin (e * b) = e * t.sin b := by
    rcases h.sign with h | h <;> rw [h]
    · rw [one_mul, one_mul]
    · rw [neg_mul, one_mul, (hl.trig.neg b).2]; ring
  rw [(hl.trig.add _ _).1, (hl.trig.add _ _).2, (hl.trig.add _ _).1, (hl.trig.add _ _).2, hcb, hsb]
  unfold Aff.lin at c1 s1 ⊢
  simp only at c1 s1 ⊢
  rw [h.b, h.d] at c1 s1 ⊢
  have hee := h.sign_sq
  rw [Prod.mk.injEq]
  constructor
  · apply mul_left_cancel₀ hr
    linear_combination t.cos b * c1 - t.sin b * s1 - (A.a * t.cos b - A.c * t.sin b * (e * e)) * c0 +
      (e * A.a * t.sin b + e * A.c * t.cos b) * s0 + (A.c * t.sin b * v.1) * hee
  · apply mul_left_cancel₀ hr
    linear_combination t.cos b * s1 + t.sin b * c1 - (A.c * t.cos b + A.a * t.sin b * (e * e)) * c0 +
      (e * A.c * t.sin b - e * A.a * t.cos b) * s0 - (A.a * t.sin b * v.1) * hee

theorem linspace_sym (h : K) (n : Nat) (hn : 2 ≤ n) :
    (linspace (-h) h n).reverse = (linspace (-h) h n).map fun a => -a := by
  have hc : ((n : K) - 1) ≠ 0 := by
    have : (2 : K) ≤ (n : K) := by exact_mod_cast hn
    intro h0; linarith
  unfold linspace
  apply List.ext_getElem
  · simp
  · intro i h1 h2
    simp only [List.length_reverse, List.length_map, List.length_range] at h1
    simp only [List.getElem_reverse, List.getElem_map, List.getElem_range, List.length_map, List.length_range]
    have e1 : ((n - 1 - i : Nat) : K) = (n : K) - 1 - (i : K) := by
      rw [Nat.cast_sub (by omega), Nat.cast_sub (by omega), Nat.cast_one]
    rw [e1]
    field_simp
    ring

theorem roundCap_sim {t : Num K} (ht : Num.Polar t) (hl : Num.Laws t) {A : Aff K} {e : K} (h : Similar A 1 e)
    (tol : K) {p v : Pt K} (hv : v ≠ (0, 0)) (r sign : K) :
    roundCap t tol (A.app p) (A.lin v) r sign =
      (roundCap t tol p v r sign).map fun l => if e = 1 then l.map A.app else (l.map A.app).reverse := by
  unfold roundCap
  cases flexSteps t (2 * t.halfpi) tol r with
  | error e => rfl
  | ok s =>
    show Except.ok _ = Except.ok _
    congr 1
    have hn : 2 ≤ (max 5 (1 + s)).toNat := by omega
    generalize (max 5 (1 + s)).toNat = n at hn
    have hp : ∀ b : K, padd (A.app p) (psmul r (t.cos (sign * b + t.atan2 (A.lin v).2 (A.lin v).1),
        t.sin (sign * b + t.atan2 (A.lin v).2 (A.lin v).1))) =
        A.app (padd p (psmul r (t.cos (sign * (e * b) + t.atan2 v.2 v.1), t.sin (sign * (e * b) + t.atan2 v.2 v.1)))) := by
      intro b
      rw [circle_sim ht hl h hv, app_padd, lin_psmul]
      have : e * (sign * b) = sign * (e * b) := by ring
      rw [this]
    simp only [hp]
    split
    · rename_i he
      subst he
      simp only [one_mul, List.map_map]
      rfl
    · rename_i he
      have he : e = -1 := h.sign.resolve_left he
      subst he
      rw [List.map_map, ← List.map_reverse, linspace_sym _ _ hn, List.map_map]
      simp only [neg_mul, one_mul]
      rfl

/-- The cap of the image; its order is reversed by a reflection, where the two sides are exchanged as well. -/
theorem flexCap_sim {ctx : FlexCtx K} (ht : Num.Polar ctx.num) (hl : Num.Laws ctx.num) {A : Aff K} {k e : K}
    (h : Similar A k e) (tol : K) {fin : FlexEnd K} {p v : Pt K}
    (hf : StraightEnd fin ∨ (fin = .round ∧ k = 1 ∧ v ≠ (0, 0))) (q0 q1 : Pt K) (b0 b1 b0' b1' : Option (Pt K))
    (width sign : K) (ext : K × K → K) (hext : ∀ a b, ext (a * k, b * k) = k * ext (a, b)) :
    flexCap ctx tol (fin.scale k) (A.app (if e = 1 then q0 else q1)) (A.app (if e = 1 then q1 else q0)) b0' b1' (A.app p) (A.lin v)
        (k * width) sign ext =
      (flexCap ctx tol fin q0 q1 b0 b1 p v width sign ext).map
        fun l => if e = 1 then l.map A.app else (l.map A.app).reverse := by
  have hs : ∀ d, straightCap ctx.num (A.app p) (A.lin v) (k * width / 2) sign (k * d) =
      (fun l : List (Pt K) => if e = 1 then l.map A.app else (l.map A.app).reverse)
        (straightCap ctx.num p v (width / 2) sign d) := by
    intro d
    simp only
    rw [mul_div_assoc]
    split
    · rename_i he; subst he; exact straightCap_direct ht h _ _ _ _ _
    · rename_i he
      have he : e = -1 := h.sign.resolve_left he
      subst he; exact straightCap_mirror ht h _ _ _ _ _
  rcases hf with hf | ⟨rfl, rfl, hv⟩
  · cases fin with
    | flush =>
      show Except.ok _ = Except.ok _
      congr 1
      split <;> rfl
    | extended =>
      show Except.ok (straightCap ctx.num (A.app p) (A.lin v) (k * width / 2) sign (k * width / 2)) = Except.ok _
      exact congrArg Except.ok
        ((congrArg (straightCap ctx.num (A.app p) (A.lin v) (k * width / 2) sign) (mul_div_assoc k width 2)).trans (hs _))
    | pair a b =>
      show Except.ok (straightCap ctx.num (A.app p) (A.lin v) (k * width / 2) sign (ext (a * k, b * k))) = Except.ok _
      rw [hext, hs]
      rfl
    | round => exact absurd hf id
    | smooth => exact absurd hf id
    | fn f => exact absurd hf id
  · show roundCap ctx.num tol (A.app p) (A.lin v) (1 * width / 2) sign = _
    rw [one_mul]
    exact roundCap_sim ht hl h tol hv _ _

theorem flexArm_ok (ctx : FlexCtx K) (tol : K) (radius : Option K) {c : FlexCorner K} (hc : StraightCorner c)
    (l : List (FlexEdge K)) : ∃ r, flexArm ctx tol radius c l = .ok r := by
  have h1 : ∀ j, ∃ r, flexCorner ctx tol radius c j = .ok r := by
    intro j
    cases c with
    | natural => exact ⟨_, rfl⟩
    | miter => exact ⟨_, rfl⟩
    | bevel =>
      unfold flexCorner
      simp only
      generalize (if (j.v1.2 * j.v0.1 - j.v1.1 * j.v0.2) ^ 2 < 1 / 10 ^ 12 * normSq j.v0 * normSq j.v1 then
        ((0 : K), (0 : K), halfway j.p0 j.p1) else lineCross j.p0 j.v0 j.p1 j.v1) = c
      split <;> exact ⟨_, rfl⟩
    | round => exact absurd hc id
    | smooth => exact absurd hc id
    | bend => exact absurd hc id
    | fn f => exact absurd hc id
  have h2 : ∀ l : List (FlexJoint K), ∃ r, l.mapM (flexCorner ctx tol radius c) = .ok r := by
    intro l
    induction l with
    | nil => exact ⟨[], rfl⟩
    | cons j l ih =>
      obtain ⟨r, hr⟩ := ih
      obtain ⟨s, hs⟩ := h1 j
      exact ⟨s :: r, by rw [List.mapM_cons, hs, hr]; rfl⟩
  obtain ⟨r, hr⟩ := h2 (flexJoints l)
  unfold flexArm
  rw [hr]
  exact ⟨_, rfl⟩

/-- The four parts of an outline. -/
structure Parts (K : Type) where
  cap0 : List (Pt K)
  cap1 : List (Pt K)
  arm0 : List (Pt K)
  arm1 : List (Pt K)

/-- The outline made of the parts. -/
def Parts.outline (x : Parts K) : Pgon K := x.cap0.reverse ++ x.arm0 ++ x.cap1 ++ x.arm1.reverse

/-- path.py:627-875 for edges that are known. -/
def outlineParts (ctx : FlexCtx K) (tolerance : K) (radius : Option K) (corner : FlexCorner K) (fin : FlexEnd K)
    (e0 e1 : List (FlexEdge K)) (pts : List (Pt K)) (ws : List K) : Py (Parts K) :=
  match e0.head?, e1.head?, e0.getLast?, e1.getLast?, pts, pts.reverse with
  | some a0, some a1, some z0, some z1, s0 :: s1 :: _, r0 :: r1 :: _ => do
    let arm0 ← flexArm ctx tolerance radius corner e0
    let arm1 ← flexArm ctx tolerance radius corner e1
    let cap0 ← flexCap ctx tolerance fin a0.pa a1.pa arm0.head? arm1.head? s0 (psub s0 s1) (ws.headD 0) (-1) Prod.fst
    let cap1 ← flexCap ctx tolerance fin z0.pb z1.pb arm0.getLast? arm1.getLast? r0 (psub r0 r1) (ws.getLastD 0) 1
      Prod.snd
    .ok ⟨cap0, cap1, arm0, arm1⟩
  | _, _, _, _, _, _ => .error .indexError

theorem flexOutline_parts (ctx : FlexCtx K) (tol : K) (radius : Option K) (corner : FlexCorner K) (fin : FlexEnd K)
    (pts : List (Pt K)) (ws : List K) : flexOutline ctx tol radius corner fin pts ws =
      (outlineParts ctx tol radius corner fin (flexEdges ctx.num (-1) (List.zip pts ws))
        (flexEdges ctx.num 1 (List.zip pts ws)) pts ws).map Parts.outline := by
  unfold flexOutline outlineParts
  simp only
  generalize flexEdges ctx.num (-1) (List.zip pts ws) = e0
  generalize flexEdges ctx.num 1 (List.zip pts ws) = e1
  cases e0.head? with
  | none => rfl
  | some a0 =>
    cases e1.head? with
    | none => rfl
    | some a1 =>
      cases e0.getLast? with
      | none => rfl
      | some z0 =>
        cases e1.getLast? with
        | none => rfl
        | some z1 =>
          generalize pts.reverse = rv
          match pts, rv with
          | [], _ => rfl
          | [_], _ => rfl
          | _ :: _ :: _, [] => rfl
          | _ :: _ :: _, [_] => rfl
          | s0 :: s1 :: _, r0 :: r1 :: _ =>
            simp only [bind, Except.bind]
            cases flexArm ctx tol radius corner e0 with
            | error e => rfl
            | ok arm0 =>
              cases flexArm ctx tol radius corner e1 with
              | error e => rfl
              | ok arm1 =>
                simp only
                cases flexCap ctx tol fin a0.pa a1.pa arm0.head? arm1.head? s0 (psub s0 s1) (ws.headD 0) (-1) Prod.fst with
                | error e => rfl
                | ok c0 =>
                  simp only
                  cases flexCap ctx tol fin z0.pb z1.pb arm0.getLast? arm1.getLast? r0 (psub r0 r1) (ws.getLastD 0) 1
                    Prod.snd with
                  | error e => rfl
                  | ok c1 => rfl

/-- The parts of the image: a reflection exchanges the sides and reverses the caps. -/
def Parts.image (A : Aff K) (e : K) (x : Parts K) : Parts K where
  cap0 := if e = 1 then x.cap0.map A.app else (x.cap0.map A.app).reverse
  cap1 := if e = 1 then x.cap1.map A.app else (x.cap1.map A.app).reverse
  arm0 := if e = 1 then x.arm0.map A.app else x.arm1.map A.app
  arm1 := if e = 1 then x.arm1.map A.app else x.arm0.map A.app

theorem psub_ne {p q : Pt K} (h : p ≠ q) : psub p q ≠ (0, 0) := by
  intro h0
  apply h
  unfold psub at h0
  rw [Prod.mk.injEq] at h0
  exact Prod.ext (sub_eq_zero.1 h0.1) (sub_eq_zero.1 h0.2)

theorem headD_map (k : K) (ws : List K) : (ws.map fun w => k * w).headD 0 = k * ws.headD 0 := by
  cases ws <;> simp

theorem getLastD_map (k : K) (ws : List K) : (ws.map fun w => k * w).getLastD 0 = k * ws.getLastD 0 := by
  rw [List.getLastD_eq_getLast?, List.getLastD_eq_getLast?, List.getLast?_map]
  cases ws.getLast? <;> simp

theorem outlineParts_sim {ctx : FlexCtx K} (ht : Num.Polar ctx.num) (hl : Num.Laws ctx.num) {A : Aff K} {k e : K}
    (h : Similar A k e) (tol : K) (radius : Option K) {corner : FlexCorner K} (hc : StraightCorner corner)
    {fin : FlexEnd K} {pts : List (Pt K)} (hf : StraightEnd fin ∨ (fin = .round ∧ k = 1 ∧ pts.IsChain (· ≠ ·)))
    (ws : List K) (e0 e1 : List (FlexEdge K)) :
    outlineParts ctx tol radius corner (fin.scale k) ((if e = 1 then e0 else e1).map (FlexEdge.image A k))
        ((if e = 1 then e1 else e0).map (FlexEdge.image A k)) (pts.map A.app) (ws.map fun w => k * w) =
      (outlineParts ctx tol radius corner fin e0 e1 pts ws).map (Parts.image A e) := by
  have hfs : ∀ s0 s1 r, pts = s0 :: s1 :: r → StraightEnd fin ∨ (fin = .round ∧ k = 1 ∧ psub s0 s1 ≠ (0, 0)) := by
    intro s0 s1 r hp
    rcases hf with hf | ⟨h1, h2, h3⟩
    · exact .inl hf
    · refine .inr ⟨h1, h2, ?_⟩
      rw [hp] at h3
      exact psub_ne (List.isChain_cons_cons.1 h3).1
  have hfr : ∀ s0 s1 r, pts.reverse = s0 :: s1 :: r → StraightEnd fin ∨ (fin = .round ∧ k = 1 ∧ psub s0 s1 ≠ (0, 0)) := by
    intro s0 s1 r hp
    rcases hf with hf | ⟨h1, h2, h3⟩
    · exact .inl hf
    · refine .inr ⟨h1, h2, ?_⟩
      have h4 := (List.isChain_reverse (R := fun a b : Pt K => b ≠ a)).2 h3
      rw [hp] at h4
      exact psub_ne fun e => (List.isChain_cons_cons.1 h4).1 e.symm
  obtain ⟨arm0, h0⟩ := flexArm_ok ctx tol radius hc e0
  obtain ⟨arm1, h1⟩ := flexArm_ok ctx tol radius hc e1
  have i0 : flexArm ctx tol radius corner (e0.map (FlexEdge.image A k)) = .ok (arm0.map A.app) := by
    rw [flexArm_sim ht h tol radius hc, h0]; rfl
  have i1 : flexArm ctx tol radius corner (e1.map (FlexEdge.image A k)) = .ok (arm1.map A.app) := by
    rw [flexArm_sim ht h tol radius hc, h1]; rfl
  unfold outlineParts
  rw [← List.map_reverse]
  simp only [headD_map, getLastD_map]
  rcases h.sign with he | he
  · subst he
    simp only [if_true, List.head?_map, List.getLast?_map, h0, h1, i0, i1]
    cases e0.head? with
    | none => rfl
    | some a0 =>
    cases e1.head? with
    | none => rfl
    | some a1 =>
    cases e0.getLast? with
    | none => rfl
    | some z0 =>
    cases e1.getLast? with
    | none => rfl
    | some z1 =>
    generalize hrv : pts.reverse = rv at hfr
    match pts, rv with
    | [], _ => rfl
    | [_], _ => rfl
    | _ :: _ :: _, [] => rfl
    | _ :: _ :: _, [_] => rfl
    | s0 :: s1 :: _, r0 :: r1 :: _ =>
      have c0 := flexCap_sim ht hl h tol (p := s0) (hfs s0 s1 _ rfl) a0.pa a1.pa arm0.head? arm1.head?
        (arm0.map A.app).head? (arm1.map A.app).head? (ws.headD 0) (-1) Prod.fst (fun a b => by simp only; ring)
      have c1 := flexCap_sim ht hl h tol (p := r0) (hfr r0 r1 _ rfl) z0.pb z1.pb arm0.getLast? arm1.getLast?
        (arm0.map A.app).getLast? (arm1.map A.app).getLast? (ws.getLastD 0) 1 Prod.snd (fun a b => by simp only; ring)
      simp only [if_true] at c0 c1
      simp only [bind, Except.bind, List.map_cons, Option.map_some, app_psub, FlexEdge.image, c0, c1]
      cases flexCap ctx tol fin a0.pa a1.pa arm0.head? arm1.head? s0 (psub s0 s1) (ws.headD 0) (-1) Prod.fst with
      | error e => rfl
      | ok c0 =>
        simp only [Except.map]
        cases flexCap ctx tol fin z0.pb z1.pb arm0.getLast? arm1.getLast? r0 (psub r0 r1) (ws.getLastD 0) 1 Prod.snd with
        | error e => rfl
        | ok c1 => simp [Parts.image]
  · have hne : ¬ ((-1 : K) = 1) := by intro h; linarith
    subst he
    simp only [hne, if_false, List.head?_map, List.getLast?_map, h0, h1, i0, i1]
    cases e0.head? with
    | none => cases e1.head? <;> rfl
    | some a0 =>
    cases e1.head? with
    | none => rfl
    | some a1 =>
    cases e0.getLast? with
    | none => cases e1.getLast? <;> rfl
    | some z0 =>
    cases e1.getLast? with
    | none => rfl
    | some z1 =>
    generalize hrv : pts.reverse = rv at hfr
    match pts, rv with
    | [], _ => rfl
    | [_], _ => rfl
    | _ :: _ :: _, [] => rfl
    | _ :: _ :: _, [_] => rfl
    | s0 :: s1 :: _, r0 :: r1 :: _ =>
      have c0 := flexCap_sim ht hl h tol (p := s0) (hfs s0 s1 _ rfl) a0.pa a1.pa arm0.head? arm1.head?
        (arm1.map A.app).head? (arm0.map A.app).head? (ws.headD 0) (-1) Prod.fst (fun a b => by simp only; ring)
      have c1 := flexCap_sim ht hl h tol (p := r0) (hfr r0 r1 _ rfl) z0.pb z1.pb arm0.getLast? arm1.getLast?
        (arm1.map A.app).getLast? (arm0.map A.app).getLast? (ws.getLastD 0) 1 Prod.snd (fun a b => by simp only; ring)
      simp only [hne, if_false] at c0 c1
      simp only [bind, Except.bind, List.map_cons, Option.map_some, app_psub, FlexEdge.image, c0, c1]
      cases flexCap ctx tol fin a0.pa a1.pa arm0.head? arm1.head? s0 (psub s0 s1) (ws.headD 0) (-1) Prod.fst with
      | error e => rfl
      | ok c0 =>
        simp only [Except.map]
        cases flexCap ctx tol fin z0.pb z1.pb arm0.getLast? arm1.getLast? r0 (psub r0 r1) (ws.getLastD 0) 1 Prod.snd with
        | error e => rfl
        | ok c1 => simp [Parts.image, hne]

/-- The image of an outline: as it is, or walked around the other way after a reflection. -/
def Spec.ImageOf (A : Aff K) (e : K) (p q : Pgon K) : Prop :=
  if e = 1 then q = p.map A.app else q ~r (p.map A.app).reverse

/-- Two calls that both raise the same exception or both return, with results that are related. -/
inductive Spec.PyRel {α β : Type} (R : α → β → Prop) : Py α → Py β → Prop where
  | ok {a : α} {b : β} (h : R a b) : Spec.PyRel R (.ok a) (.ok b)
  | error (e : PyErr) : Spec.PyRel R (.error e) (.error e)

theorem Parts.image_outline (A : Aff K) {e : K} (he : e = 1 ∨ e = -1) (x : Parts K) :
    ImageOf A e x.outline (x.image A e).outline := by
  unfold ImageOf Parts.outline Parts.image
  rcases he with rfl | rfl
  · simp
  · have hne : ¬ ((-1 : K) = 1) := by intro h; linarith
    simp only [hne, if_false, List.map_append, List.map_reverse, List.reverse_append, List.reverse_reverse,
      List.append_assoc]
    generalize x.cap0.map A.app = a
    generalize x.arm1.map A.app = b
    generalize (x.cap1.map A.app).reverse = c
    generalize (x.arm0.map A.app).reverse = d
    have := List.isRotated_append (l := b ++ (c ++ d)) (l' := a)
    simpa using this.symm

theorem flexOutline_sim {ctx : FlexCtx K} (ht : Num.Polar ctx.num) (hl : Num.Laws ctx.num) {A : Aff K} {k e : K}
    (h : Similar A k e) (tol : K) (radius : Option K) {corner : FlexCorner K} (hc : StraightCorner corner)
    {fin : FlexEnd K} {pts : List (Pt K)} (hf : StraightEnd fin ∨ (fin = .round ∧ k = 1 ∧ pts.IsChain (· ≠ ·)))
    (ws : List K) :
    PyRel (ImageOf A e) (flexOutline ctx tol radius corner fin pts ws)
      (flexOutline ctx tol radius corner (fin.scale k) (pts.map A.app) (ws.map fun w => k * w)) := by
  rw [flexOutline_parts, flexOutline_parts]
  have hz : List.zip (pts.map A.app) (ws.map fun w => k * w) =
      (List.zip pts ws).map fun x => (A.app x.1, k * x.2) := by
    rw [List.zip_map]; rfl
  rw [hz, flexEdges_sim ht h, flexEdges_sim ht h]
  have hp := outlineParts_sim ht hl h tol radius hc hf ws (flexEdges ctx.num (-1) (List.zip pts ws))
    (flexEdges ctx.num 1 (List.zip pts ws))
  have he : outlineParts ctx tol radius corner (fin.scale k)
      ((flexEdges ctx.num (e * -1) (List.zip pts ws)).map (FlexEdge.image A k))
      ((flexEdges ctx.num (e * 1) (List.zip pts ws)).map (FlexEdge.image A k)) (pts.map A.app) (ws.map fun w => k * w) =
      (outlineParts ctx tol radius corner fin (flexEdges ctx.num (-1) (List.zip pts ws))
        (flexEdges ctx.num 1 (List.zip pts ws)) pts ws).map (Parts.image A e) := by
    rcases h.sign with he | he
    · subst he; simp only [if_true] at hp; simpa using hp
    · have hne : ¬ ((-1 : K) = 1) := by intro h; linarith
      subst he; simp only [hne, if_false] at hp; simpa using hp
  rw [he]
  cases outlineParts ctx tol radius corner fin (flexEdges ctx.num (-1) (List.zip pts ws))
    (flexEdges ctx.num 1 (List.zip pts ws)) pts ws with
  | error x => exact .error x
  | ok x => exact .ok (Parts.image_outline A h.sign x)

theorem twoOutline_sim {ctx : FlexCtx K} (ht : Num.Polar ctx.num) (hl : Num.Laws ctx.num) {A : Aff K} {k e : K}
    (h : Similar A k e) (tol : K) {fin : FlexEnd K} (hf : StraightEnd fin ∨ (fin = .round ∧ k = 1)) {p q : Pt K}
    (hpq : p ≠ q) (o0 o1 w0 w1 : K) :
    PyRel (ImageOf A e) (twoOutline ctx tol fin p q o0 o1 w0 w1)
      (twoOutline ctx tol (fin.scale k) (A.app p) (A.app q) (e * (k * o0)) (e * (k * o1)) (k * w0) (k * w1)) := by
  have hu : ∀ o, padd (A.app p) (psmul (e * (k * o)) (unitNormal ctx.num (psub (A.app q) (A.app p)))) =
      A.app (padd p (psmul o (unitNormal ctx.num (psub q p)))) := by
    intro o; rw [app_psub, h.normal ht, app_padd]
  have hu' : ∀ o, padd (A.app q) (psmul (e * (k * o)) (unitNormal ctx.num (psub (A.app q) (A.app p)))) =
      A.app (padd q (psmul o (unitNormal ctx.num (psub q p)))) := by
    intro o; rw [app_psub, h.normal ht, app_padd]
  have hv : psub (padd q (psmul o1 (unitNormal ctx.num (psub q p)))) (padd p (psmul o0 (unitNormal ctx.num (psub q p)))) ≠
      (0, 0) := by
    intro h0
    apply hpq
    unfold psub padd psmul unitNormal at h0
    simp only [Prod.mk.injEq] at h0
    have h1 : (q.1 - p.1) ^ 2 + (q.2 - p.2) ^ 2 = 0 := by
      linear_combination (q.1 - p.1) * h0.1 + (q.2 - p.2) * h0.2
    have h2 : q.1 - p.1 = 0 := by nlinarith [sq_nonneg (q.1 - p.1), sq_nonneg (q.2 - p.2)]
    have h3 : q.2 - p.2 = 0 := by nlinarith [sq_nonneg (q.1 - p.1), sq_nonneg (q.2 - p.2)]
    exact (Prod.ext (sub_eq_zero.1 h2) (sub_eq_zero.1 h3)).symm
  unfold twoOutline
  simp only [hu, hu']
  generalize padd p (psmul o0 (unitNormal ctx.num (psub q p))) = a at hv
  generalize padd q (psmul o1 (unitNormal ctx.num (psub q p))) = b at hv
  simp only [app_psub]
  generalize hvv : psub b a = v at hv
  have hk : ∀ w : K, psmul (k * w / 2) (unitNormal ctx.num (A.lin v)) =
      A.lin (psmul (e * (w / 2)) (unitNormal ctx.num v)) := by
    intro w
    rw [← h.normal ht]
    congr 1
    linear_combination (-(k * w / 2)) * h.sign_sq
  have hw : (k * w0 = k * w1) ↔ w0 = w1 := mul_right_inj' h.ne
  have hq : ∀ d : K, psmul (k * d) (psmul (1 / ctx.num.sqrt (normSq (A.lin v))) (A.lin v)) =
      A.lin (psmul d (psmul (1 / ctx.num.sqrt (normSq v)) v)) := fun d => straight_along ht h v d
  have hp : ∀ p v : Pt K, padd p (pneg v) = psub p v := by
    intro p v; unfold padd pneg psub; refine Prod.ext ?_ ?_ <;> simp only <;> ring
  have hm : ∀ p v : Pt K, psub p (pneg v) = padd p v := by
    intro p v; unfold padd pneg psub; refine Prod.ext ?_ ?_ <;> simp only <;> ring
  have hst : ∀ d0 d1 : K, ImageOf A e
      (if w0 = w1 then
        [psub (psub a (psmul (w0 / 2) (unitNormal ctx.num v))) (psmul d0 (psmul (1 / ctx.num.sqrt (normSq v)) v)),
         psub (padd a (psmul (w0 / 2) (unitNormal ctx.num v))) (psmul d0 (psmul (1 / ctx.num.sqrt (normSq v)) v)),
         padd (padd b (psmul (w1 / 2) (unitNormal ctx.num v))) (psmul d1 (psmul (1 / ctx.num.sqrt (normSq v)) v)),
         padd (psub b (psmul (w1 / 2) (unitNormal ctx.num v))) (psmul d1 (psmul (1 / ctx.num.sqrt (normSq v)) v))]
       else
        [psub a (psmul (w0 / 2) (unitNormal ctx.num v)),
         psub (psub a (psmul (w0 / 2) (unitNormal ctx.num v))) (psmul d0 (psmul (1 / ctx.num.sqrt (normSq v)) v)),
         psub (padd a (psmul (w0 / 2) (unitNormal ctx.num v))) (psmul d0 (psmul (1 / ctx.num.sqrt (normSq v)) v)),
         padd a (psmul (w0 / 2) (unitNormal ctx.num v)),
         padd b (psmul (w1 / 2) (unitNormal ctx.num v)),
         padd (padd b (psmul (w1 / 2) (unitNormal ctx.num v))) (psmul d1 (psmul (1 / ctx.num.sqrt (normSq v)) v)),
         padd (psub b (psmul (w1 / 2) (unitNormal ctx.num v))) (psmul d1 (psmul (1 / ctx.num.sqrt (normSq v)) v)),
         psub b (psmul (w1 / 2) (unitNormal ctx.num v))])
      (if k * w0 = k * w1 then
        [psub (psub (A.app a) (psmul (k * w0 / 2) (unitNormal ctx.num (A.lin v))))
           (psmul (k * d0) (psmul (1 / ctx.num.sqrt (normSq (A.lin v))) (A.lin v))),
         psub (padd (A.app a) (psmul (k * w0 / 2) (unitNormal ctx.num (A.lin v))))
           (psmul (k * d0) (psmul (1 / ctx.num.sqrt (normSq (A.lin v))) (A.lin v))),
         padd (padd (A.app b) (psmul (k * w1 / 2) (unitNormal ctx.num (A.lin v))))
           (psmul (k * d1) (psmul (1 / ctx.num.sqrt (normSq (A.lin v))) (A.lin v))),
         padd (psub (A.app b) (psmul (k * w1 / 2) (unitNormal ctx.num (A.lin v))))
           (psmul (k * d1) (psmul (1 / ctx.num.sqrt (normSq (A.lin v))) (A.lin v)))]
       else
        [psub (A.app a) (psmul (k * w0 / 2) (unitNormal ctx.num (A.lin v))),
         psub (psub (A.app a) (psmul (k * w0 / 2) (unitNormal ctx.num (A.lin v))))
           (psmul (k * d0) (psmul (1 / ctx.num.sqrt (normSq (A.lin v))) (A.lin v))),
         psub (padd (A.app a) (psmul (k * w0 / 2) (unitNormal ctx.num (A.lin v))))
           (psmul (k * d0) (psmul (1 / ctx.num.sqrt (normSq (A.lin v))) (A.lin v))),
         padd (A.app a) (psmul (k * w0 / 2) (unitNormal ctx.num (A.lin v))),
         padd (A.app b) (psmul (k * w1 / 2) (unitNormal ctx.num (A.lin v))),
         padd (padd (A.app b) (psmul (k * w1 / 2) (unitNormal ctx.num (A.lin v))))
           (psmul (k * d1) (psmul (1 / ctx.num.sqrt (normSq (A.lin v))) (A.lin v))),
         padd (psub (A.app b) (psmul (k * w1 / 2) (unitNormal ctx.num (A.lin v))))
           (psmul (k * d1) (psmul (1 / ctx.num.sqrt (normSq (A.lin v))) (A.lin v))),
         psub (A.app b) (psmul (k * w1 / 2) (unitNormal ctx.num (A.lin v)))]) := by
    intro d0 d1
    simp only [hw, hk, hq]
    unfold ImageOf
    rcases h.sign with he | he
    · subst he
      simp only [if_true, one_mul]
      split <;> simp only [List.map_cons, List.map_nil, app_padd, app_psub_vec]
    · have hne : ¬ ((-1 : K) = 1) := by intro h; linarith
      subst he
      simp only [hne, if_false, neg_mul, one_mul, psmul_neg_left, lin_pneg, hp, hm]
      split
      · refine ⟨2, ?_⟩
        simp [List.rotate, app_padd, app_psub_vec]
      · refine ⟨4, ?_⟩
        simp [List.rotate, app_padd, app_psub_vec]
  rcases hf with hf | ⟨rfl, rfl⟩
  · cases fin with
    | flush =>
      refine .ok ?_
      unfold ImageOf
      simp only [hk]
      rcases h.sign with he | he
      · subst he
        simp only [if_true, one_mul, List.map_cons, List.map_nil, app_padd, app_psub_vec]
      · have hne : ¬ ((-1 : K) = 1) := by intro h; linarith
        subst he
        simp only [hne, if_false, neg_mul, one_mul, psmul_neg_left, lin_pneg, hp, hm]
        refine ⟨2, ?_⟩
        simp [List.rotate, app_padd, app_psub_vec]
    | extended =>
      have := hst (w0 / 2) (w1 / 2)
      rw [← mul_div_assoc, ← mul_div_assoc] at this
      exact .ok this
    | pair c d =>
      have := hst c d
      rw [mul_comm k c, mul_comm k d] at this
      exact .ok this
    | round => exact absurd hf id
    | smooth => exact absurd hf id
    | fn f => exact absurd hf id
  · have hn : pneg v ≠ (0, 0) := by
      intro h0
      apply hv
      unfold pneg at h0
      rw [Prod.mk.injEq] at h0
      exact Prod.ext (neg_eq_zero.1 h0.1) (neg_eq_zero.1 h0.2)
    simp only [FlexEnd.scale, one_mul]
    rw [← lin_pneg, roundCap_sim ht hl h tol hn, roundCap_sim ht hl h tol hv]
    cases roundCap ctx.num tol a (pneg v) (w0 / 2) (-1) with
    | error x => exact .error x
    | ok s0 =>
      cases roundCap ctx.num tol b v (w1 / 2) (-1) with
      | error x => exact .error x
      | ok s1 =>
        refine .ok ?_
        unfold ImageOf
        rcases h.sign with he | he
        · subst he
          simp
        · have hne : ¬ ((-1 : K) = 1) := by intro h; linarith
          subst he
          simp only [hne, if_false, List.map_append, List.reverse_append]
          exact List.isRotated_append

theorem Spec.PyRel.bind {α β γ δ : Type} {R : α → β → Prop} {S : γ → δ → Prop} {a : Py α} {b : Py β} {f : α → Py γ}
    {g : β → Py δ} (h : PyRel R a b) (hs : ∀ x y, a = .ok x → R x y → PyRel S (f x) (g y)) :
    PyRel S (a >>= f) (b >>= g) := by
  cases h with
  | ok h => exact hs _ _ rfl h
  | error e => exact .error e

theorem idx_map {α β : Type} (g : α → β) (l : List α) (i : Nat) :
    PyRel (fun a b => b = g a) (idx l i) (idx (l.map g) i) := by
  unfold idx
  rw [List.getElem?_map]
  cases l[i]? with
  | none => exact .error _
  | some a => exact .ok rfl

theorem Spec.PyRel.refl {α : Type} (a : Py α) : PyRel (fun x y => y = x) a a := by
  cases a with
  | ok x => exact .ok rfl
  | error e => exact .error e

theorem column_map (g : K → K) (rows : List (List K)) (i : Nat) :
    PyRel (fun a b => b = a.map g) (column rows i) (column (rows.map (List.map g)) i) := by
  unfold column
  rw [py_mapM_map (fun r => idx r i) (List.map g) (fun r => idx r i) g rows (by
    intro r _
    have := idx_map g r i
    generalize idx r i = a at this ⊢
    generalize idx (r.map g) i = b at this ⊢
    cases this with
    | ok h => rw [h]; rfl
    | error e => rfl)]
  cases rows.mapM (fun r => idx r i) with
  | error e => exact .error e
  | ok x => exact .ok rfl

theorem column_mem {rows : List (List K)} {i : Nat} {l : List K} (h : column rows i = .ok l) {o : K} (ho : o ∈ l) :
    ∃ r ∈ rows, o ∈ r := by
  unfold column at h
  induction rows generalizing l with
  | nil => cases h; simp at ho
  | cons r rows ih =>
    rw [List.mapM_cons] at h
    have hr : ∀ x, idx r i = .ok x → x ∈ r := by
      intro x hx
      unfold idx at hx
      cases hg : r[i]? with
      | none => rw [hg] at hx; cases hx
      | some y => rw [hg] at hx; cases hx; exact List.mem_of_getElem? hg
    cases hx : idx r i with
    | error e => rw [hx] at h; cases h
    | ok x =>
      cases hy : rows.mapM (fun r => idx r i) with
      | error e => rw [hx, hy] at h; cases h
      | ok y =>
        rw [hx, hy] at h
        cases h
        rcases List.mem_cons.1 ho with rfl | ho
        · exact ⟨r, by simp, hr _ hx⟩
        · obtain ⟨r', h1, h2⟩ := ih hy ho
          exact ⟨r', by simp [h1], h2⟩

section Dedup

variable {α β : Type}

theorem dedupFrom_image {f : Pt K → Pt K} (hf : Function.Injective f) (g : α → β) (prev : Pt K) (l : List (Pt K × α)) :
    dedupFrom (f prev) (l.map (Prod.map f g)) = (dedupFrom prev l).map (Prod.map f g) := by
  induction l generalizing prev with
  | nil => rfl
  | cons x l ih =>
    simp only [List.map_cons, dedupFrom, Prod.map_fst, hf.eq_iff, ih]
    split <;> rfl

theorem dedupRows_image {f : Pt K → Pt K} (hf : Function.Injective f) (g : α → β) (l : List (Pt K × α)) :
    dedupRows (l.map (Prod.map f g)) = (dedupRows l).map (Prod.map f g) := by
  cases l with
  | nil => rfl
  | cons x l => simp only [List.map_cons, dedupRows, Prod.map_fst, dedupFrom_image hf]

theorem dedupFrom_chain (prev : Pt K) (l : List (Pt K × α)) :
    (prev :: (dedupFrom prev l).map Prod.fst).IsChain (· ≠ ·) := by
  induction l generalizing prev with
  | nil => simp [dedupFrom]
  | cons x l ih =>
    rw [dedupFrom]
    split
    · rename_i hx
      rw [← hx]
      exact ih x.1
    · rename_i hx
      rw [List.map_cons]
      exact List.isChain_cons_cons.2 ⟨fun h => hx h.symm, ih x.1⟩

theorem dedupRows_chain (l : List (Pt K × α)) : ((dedupRows l).map Prod.fst).IsChain (· ≠ ·) := by
  cases l with
  | nil => simp [dedupRows]
  | cons x l => exact dedupFrom_chain x.1 l

end Dedup

theorem Flex.dedup_chain (f : Flex K) : f.dedup.points.IsChain (· ≠ ·) := by
  unfold Flex.dedup
  split
  · rename_i h
    have h1 : dedupRows (f.points.map fun p => (p, ())) = f.points.map fun p => (p, ()) :=
      (dedupRows_sublist _).eq_of_length (by rw [h, List.length_map])
    have h2 := dedupRows_chain (f.points.map fun p => (p, ()))
    rw [h1, List.map_map] at h2
    have h3 : (Prod.fst ∘ fun p : Pt K => (p, ())) = id := rfl
    rwa [h3, List.map_id] at h2
  · exact dedupRows_chain _

/-- What a transformation does to a path. -/
def Spec.moved (A : Aff K) (k e : K) (f : Flex K) : Flex K :=
  { f with
    cache := none
    points := f.points.map A.app
    widths := f.widths.map (List.map fun w => k * w)
    offsets := f.offsets.map (List.map fun o => e * (k * o))
    ends := f.ends.map (FlexEnd.scale k) }

theorem dedup_moved {A : Aff K} {k e : K} (h : Similar A k e) (f : Flex K) :
    (moved A k e f).dedup = moved A k e f.dedup := by
  have h1 : (f.points.map A.app).map (fun p => (p, ())) =
      (f.points.map fun p => (p, ())).map (Prod.map A.app id) := by
    rw [List.map_map, List.map_map]; rfl
  have h2 : List.zip (f.points.map A.app) (List.zip (f.widths.map (List.map fun w => k * w))
      (f.offsets.map (List.map fun o => e * (k * o)))) =
      (List.zip f.points (List.zip f.widths f.offsets)).map (Prod.map A.app
        (Prod.map (List.map fun w => k * w) (List.map fun o => e * (k * o)))) := by
    rw [List.zip_map, List.zip_map]
  unfold Flex.dedup moved
  simp only
  have hi : Function.Injective A.app := fun _ _ => h.inj
  rw [h1, h2, dedupRows_image hi, dedupRows_image hi]
  simp only [List.length_map]
  split
  · rfl
  · simp only [List.map_map]
    rfl

/-- Paths whose outline is made of straight lines, and round ends if the map is a motion. -/
structure Spec.Plain (k : K) (f : Flex K) : Prop where
  corners : ∀ c ∈ f.corners, StraightCorner c
  ends : ∀ c ∈ f.ends, StraightEnd c ∨
    (c = .round ∧ k = 1 ∧ (f.points.length = 2 ∨ ∀ r ∈ f.offsets, ∀ o ∈ r, o = 0))

/-- Dictionaries with the same keys and related polygons. -/
def Spec.DictRel (R : Pgon K → Pgon K → Prop) (d d' : PolyDict K) : Prop :=
  List.Forall₂ (fun x y => y.1 = x.1 ∧ List.Forall₂ R x.2 y.2) d d'

theorem addDict_rel {R : Pgon K → Pgon K → Prop} {d d' : PolyDict K} (h : DictRel R d d') (key : Int × Int)
    {l l' : List (Pgon K)} (hl : List.Forall₂ R l l') : DictRel R (addDict d key l) (addDict d' key l') := by
  induction h with
  | nil => exact .cons ⟨rfl, hl⟩ .nil
  | cons hx hr ih =>
    rename_i x y r r'
    unfold addDict
    rw [hx.1]
    split
    · exact .cons ⟨rfl, List.rel_append hx.2 hl⟩ hr
    · exact .cons hx ih

theorem idx_mem {α : Type} {l : List α} {i : Nat} {a : α} (h : idx l i = .ok a) : a ∈ l := by
  unfold idx at h
  cases hg : l[i]? with
  | none => rw [hg] at h; cases h
  | some y => rw [hg] at h; cases h; exact List.mem_of_getElem? hg

theorem flexPieces_small (ctx : FlexCtx K) (precision : K) {m : Nat} (hm : m ≤ 4) (p : Pgon K) :
    flexPieces ctx precision m p = .ok [p] := by
  unfold flexPieces PolySet.fracture
  rw [if_neg (by omega)]
  rfl

theorem twoOf_moved {ctx : FlexCtx K} (ht : Num.Polar ctx.num) (hl : Num.Laws ctx.num) {A : Aff K} {k e : K}
    (h : Similar A k e) {f : Flex K} (hf : Plain k f) {p q : Pt K} (hp : f.points = [p, q]) (hpq : p ≠ q) (i : Nat) :
    PyRel (ImageOf A e) (f.twoOf ctx i) ((moved A k e f).twoOf ctx i) := by
  unfold Flex.twoOf
  refine (idx_map A.app f.points 0).bind fun x x' hx e1 => ?_
  refine (idx_map A.app f.points 1).bind fun y y' hy e2 => ?_
  refine (idx_map (FlexEnd.scale k) f.ends i).bind fun c c' hc e3 => ?_
  refine ((idx_map (List.map fun o => e * (k * o)) f.offsets 0).bind fun r r' _ e4 => ?_ :
    PyRel (fun a b => b = e * (k * a)) _ _).bind fun o0 o0' _ e5 => ?_
  · subst e4; exact idx_map _ r i
  refine ((idx_map (List.map fun o => e * (k * o)) f.offsets 1).bind fun r r' _ e4 => ?_ :
    PyRel (fun a b => b = e * (k * a)) _ _).bind fun o1 o1' _ e6 => ?_
  · subst e4; exact idx_map _ r i
  refine ((idx_map (List.map fun o => k * o) f.widths 0).bind fun r r' _ e4 => ?_ :
    PyRel (fun a b => b = k * a) _ _).bind fun w0 w0' _ e7 => ?_
  · subst e4; exact idx_map _ r i
  refine ((idx_map (List.map fun o => k * o) f.widths 1).bind fun r r' _ e4 => ?_ :
    PyRel (fun a b => b = k * a) _ _).bind fun w1 w1' _ e8 => ?_
  · subst e4; exact idx_map _ r i
  subst e1 e2 e3 e5 e6 e7 e8
  rw [hp] at hx hy
  cases hx
  cases hy
  exact twoOutline_sim ht hl h _ ((hf.ends c (idx_mem hc)).imp id fun x => ⟨x.1, x.2.1⟩) hpq _ _ _ _

theorem manyOf_moved {ctx : FlexCtx K} (ht : Num.Polar ctx.num) (hl : Num.Laws ctx.num) {A : Aff K} {k e : K}
    (h : Similar A k e) {f : Flex K} (hc : ∀ c ∈ f.corners, StraightCorner c)
    (hf : ∀ c ∈ f.ends, StraightEnd c ∨
      (c = .round ∧ k = 1 ∧ f.points.IsChain (· ≠ ·) ∧ ∀ r ∈ f.offsets, ∀ o ∈ r, o = 0)) (i : Nat) :
    PyRel (ImageOf A e) (f.manyOf ctx i) ((moved A k e f).manyOf ctx i) := by
  unfold Flex.manyOf
  refine (PyRel.refl (idx f.corners i)).bind fun c c' hcc e1 => ?_
  refine (idx_map (FlexEnd.scale k) f.ends i).bind fun fin fin' hfin e2 => ?_
  refine (PyRel.refl (idx f.bendRadius i)).bind fun r r' _ e3 => ?_
  refine (column_map (fun o => e * (k * o)) f.offsets i).bind fun offs offs' hoff e4 => ?_
  refine (column_map (fun o => k * o) f.widths i).bind fun ws ws' _ e5 => ?_
  subst e1 e2 e3 e4 e5
  simp only [moved, List.length_map]
  split
  · exact .error _
  · split
    · exact .error _
    · rw [offsetSpine_sim ht h]
      cases hs : offsetSpine ctx.num f.points offs with
      | error e => exact .error e
      | ok pts =>
        refine flexOutline_sim ht hl h _ _ (hc _ (idx_mem hcc)) ?_ _
        refine (hf fin (idx_mem hfin)).imp id fun ⟨h1, h2, h3, h4⟩ => ⟨h1, h2, ?_⟩
        have : offs.all (fun o => decide (o = 0)) = true := by
          rw [List.all_eq_true]
          intro o ho
          obtain ⟨r, hr, hor⟩ := column_mem hoff ho
          simpa using h4 r hr o hor
        unfold offsetSpine at hs
        rw [if_pos this] at hs
        cases hs
        exact h3

theorem pathPolys_rel {ctx : FlexCtx K} {R : Pgon K → Pgon K → Prop} {f g : Flex K} (hm : f.maxPoints ≤ 4)
    (hg : g.maxPoints = f.maxPoints) (hl : g.layers = f.layers) (hd : g.datatypes = f.datatypes)
    {o o' : Nat → Py (Pgon K)} (ho : ∀ i, PyRel R (o i) (o' i)) (is : List Nat) {d d' : PolyDict K} (h : DictRel R d d') :
    DictRel R (forOut (Flex.pathPolys ctx f o) d is).1 (forOut (Flex.pathPolys ctx g o') d' is).1 ∧
      (forOut (Flex.pathPolys ctx g o') d' is).2 = (forOut (Flex.pathPolys ctx f o) d is).2 := by
  induction is generalizing d d' with
  | nil => exact ⟨h, rfl⟩
  | cons i is ih =>
    have hs : DictRel R (Flex.pathPolys ctx f o d i).1 (Flex.pathPolys ctx g o' d' i).1 ∧
        (Flex.pathPolys ctx g o' d' i).2 = (Flex.pathPolys ctx f o d i).2 := by
      unfold Flex.pathPolys
      rw [hg, hl, hd]
      have hi := ho i
      generalize o i = a at hi ⊢
      generalize o' i = b at hi ⊢
      cases hi with
      | error e => exact ⟨h, rfl⟩
      | ok hi =>
        simp only [bind, Except.bind, flexPieces_small _ _ hm]
        cases idx f.layers i with
        | error e => exact ⟨h, rfl⟩
        | ok l =>
          cases idx f.datatypes i with
          | error e => exact ⟨h, rfl⟩
          | ok dt => exact ⟨addDict_rel h _ (.cons hi .nil), rfl⟩
    unfold forOut
    generalize Flex.pathPolys ctx f o d i = x at hs ⊢
    generalize Flex.pathPolys ctx g o' d' i = y at hs ⊢
    obtain ⟨x1, x2⟩ := x
    obtain ⟨y1, y2⟩ := y
    obtain ⟨h1, h2⟩ := hs
    simp only at h1 h2
    subst h2
    cases y2 with
    | some e => exact ⟨h1, rfl⟩
    | none => exact ih h1

theorem compute_moved {ctx : FlexCtx K} (ht : Num.Polar ctx.num) (hl : Num.Laws ctx.num) {A : Aff K} {k e : K}
    (h : Similar A k e) {f : Flex K} (hf : Plain k f) (hm : f.maxPoints ≤ 4) :
    DictRel (ImageOf A e) (f.compute ctx).2.1 ((moved A k e f).compute ctx).2.1 ∧
      ((moved A k e f).compute ctx).2.2 = (f.compute ctx).2.2 := by
  by_cases h2 : f.points.length = 2
  · obtain ⟨p, q, hp⟩ := List.length_eq_two.1 h2
    have hp' : (moved A k e f).points = [A.app p, A.app q] := by unfold moved; rw [hp]; rfl
    unfold Flex.compute
    rw [if_pos h2, if_pos (by rw [hp']; rfl), hp, hp']
    have hi : Function.Injective A.app := fun _ _ => h.inj
    simp only [hi.eq_iff]
    by_cases hpq : p = q
    · rw [if_pos hpq, if_pos hpq]
      exact ⟨.nil, rfl⟩
    · rw [if_neg hpq, if_neg hpq]
      exact pathPolys_rel hm rfl rfl rfl (twoOf_moved ht hl h hf hp hpq) (List.range f.n) .nil
  · unfold Flex.compute
    have h2' : ¬ (moved A k e f).points.length = 2 := by
      intro h3; apply h2; rw [← h3]; unfold moved; simp
    rw [if_neg h2, if_neg h2', dedup_moved h]
    have hd : f.dedup.maxPoints = f.maxPoints ∧ f.dedup.corners = f.corners ∧ f.dedup.ends = f.ends ∧ f.dedup.n = f.n := by
      unfold Flex.dedup; split <;> exact ⟨rfl, rfl, rfl, rfl⟩
    have ho : ∀ r ∈ f.dedup.offsets, r ∈ f.offsets := by
      unfold Flex.dedup
      split
      · exact fun r hr => hr
      · intro r hr
        simp only [List.mem_map] at hr
        obtain ⟨x, hx, rfl⟩ := hr
        have := (dedupRows_sublist _).subset hx
        exact (List.of_mem_zip (List.of_mem_zip this).2).2
    refine pathPolys_rel (f := f.dedup) (g := moved A k e f.dedup) (hd.1 ▸ hm) rfl rfl rfl (fun i => ?_)
      (List.range f.dedup.n) .nil
    refine manyOf_moved ht hl h (by rw [hd.2.1]; exact hf.corners) (fun c hc => ?_) i
    rw [hd.2.2.1] at hc
    exact (hf.ends c hc).imp id fun ⟨h1, h2', h3⟩ => ⟨h1, h2', f.dedup_chain, fun r hr => (h3.resolve_left h2) r (ho r hr)⟩

theorem getPolygons_moved_small {ctx : FlexCtx K} (ht : Num.Polar ctx.num) (hl : Num.Laws ctx.num) {A : Aff K} {k e : K}
    (h : Similar A k e) {f : Flex K} (hf : Plain k f) (hm : f.maxPoints ≤ 4) (hn : f.cache = none) :
    PyRel (DictRel (ImageOf A e)) (f.getPolygons ctx).2 ((moved A k e f).getPolygons ctx).2 := by
  obtain ⟨h1, h2⟩ := compute_moved ht hl h hf hm
  unfold Flex.getPolygons
  rw [hn, show (moved A k e f).cache = none from rfl]
  simp only
  generalize f.compute ctx = x at h1 h2 ⊢
  generalize (moved A k e f).compute ctx = y at h1 h2 ⊢
  obtain ⟨g, d, er⟩ := x
  obtain ⟨g', d', er'⟩ := y
  simp only at h1 h2
  subst h2
  cases er' with
  | none => exact .ok h1
  | some e => exact .error e

/-- The path without a limit of vertices. -/
def Spec.unlimited (f : Flex K) : Flex K := { f with maxPoints := 0 }

/-- No polygon is cut: there is no limit, or all polygons are within it (and the loop that looks for polygons to cut is
given the two steps it needs). -/
def Spec.Uncut (ctx : FlexCtx K) (f : Flex K) : Prop :=
  f.maxPoints ≤ 4 ∨
    (2 ≤ ctx.fuel ∧ ∃ d, ((unlimited f).getPolygons ctx).2 = .ok d ∧ ∀ x ∈ d, ∀ p ∈ x.2, p.length ≤ f.maxPoints)

theorem flexPieces_within {ctx : FlexCtx K} (hc : 2 ≤ ctx.fuel) (precision : K) {m : Nat} {p : Pgon K}
    (hp : p.length ≤ m) : flexPieces ctx precision m p = .ok [p] := by
  obtain ⟨n, hn⟩ : ∃ n, ctx.fuel = n + 2 := ⟨ctx.fuel - 2, by omega⟩
  have h0 : ∀ c : Slicer K, fracStep c m 0 ⟨[p], [0], [0]⟩ = .ok (some (1, ⟨[p], [0], [0]⟩)) := by
    intro c
    unfold fracStep
    simp only [List.getElem?_cons_zero]
    rw [if_neg (by omega)]
  have h1 : ∀ c : Slicer K, fracStep c m 1 ⟨[p], [0], [0]⟩ = .ok none := fun c => rfl
  unfold flexPieces PolySet.fracture
  rw [hn]
  split
  · rw [fracLoop]
    simp only [h0, bind, Except.bind]
    rw [fracLoop]
    simp only [h1, bind, Except.bind]
  · rfl

theorem addDict_mem (d : PolyDict K) (key : Int × Int) (l : List (Pgon K)) :
    (∀ x ∈ d, ∃ y ∈ addDict d key l, ∀ p ∈ x.2, p ∈ y.2) ∧ ∃ y ∈ addDict d key l, ∀ p ∈ l, p ∈ y.2 := by
  induction d with
  | nil => exact ⟨by simp, (key, l), by simp [addDict], fun p hp => hp⟩
  | cons z r ih =>
    unfold addDict
    split
    · refine ⟨fun x hx => ?_, (z.1, z.2 ++ l), by simp, fun p hp => by simp [hp]⟩
      rcases List.mem_cons.1 hx with rfl | hx
      · exact ⟨(x.1, x.2 ++ l), by simp, fun p hp => by simp [hp]⟩
      · exact ⟨x, by simp [hx], fun p hp => hp⟩
    · obtain ⟨h1, y, hy, h2⟩ := ih
      refine ⟨fun x hx => ?_, y, by simp [hy], h2⟩
      rcases List.mem_cons.1 hx with rfl | hx
      · exact ⟨x, by simp, fun p hp => hp⟩
      · obtain ⟨w, hw, h3⟩ := h1 x hx
        exact ⟨w, by simp [hw], h3⟩

theorem pathPolys_mono (ctx : FlexCtx K) (f : Flex K) (o : Nat → Py (Pgon K)) (d : PolyDict K) (i : Nat) :
    ∀ x ∈ d, ∃ y ∈ (Flex.pathPolys ctx f o d i).1, ∀ p ∈ x.2, p ∈ y.2 := by
  unfold Flex.pathPolys
  split
  · exact fun x hx => ⟨x, hx, fun p hp => hp⟩
  · exact (addDict_mem _ _ _).1

theorem forPolys_mono (ctx : FlexCtx K) (f : Flex K) (o : Nat → Py (Pgon K)) (d : PolyDict K) (is : List Nat) :
    ∀ x ∈ d, ∃ y ∈ (forOut (Flex.pathPolys ctx f o) d is).1, ∀ p ∈ x.2, p ∈ y.2 := by
  induction is generalizing d with
  | nil => exact fun x hx => ⟨x, hx, fun p hp => hp⟩
  | cons i is ih =>
    intro x hx
    obtain ⟨y, hy, h1⟩ := pathPolys_mono ctx f o d i x hx
    unfold forOut
    generalize Flex.pathPolys ctx f o d i = r at hy ⊢
    obtain ⟨r1, r2⟩ := r
    cases r2 with
    | some e => exact ⟨y, hy, h1⟩
    | none =>
      obtain ⟨z, hz, h2⟩ := ih r1 y hy
      exact ⟨z, hz, fun p hp => h2 p (h1 p hp)⟩

/-- With all polygons within the limit nothing is cut. -/
theorem forPolys_within {ctx : FlexCtx K} (hc : 2 ≤ ctx.fuel) {f g : Flex K} (hg : g.maxPoints ≤ 4)
    (hl : g.layers = f.layers) (hd : g.datatypes = f.datatypes) (o : Nat → Py (Pgon K)) (is : List Nat) (d : PolyDict K)
    (hn : (forOut (Flex.pathPolys ctx g o) d is).2 = none)
    (hm : ∀ x ∈ (forOut (Flex.pathPolys ctx g o) d is).1, ∀ p ∈ x.2, p.length ≤ f.maxPoints) :
    forOut (Flex.pathPolys ctx f o) d is = forOut (Flex.pathPolys ctx g o) d is := by
  induction is generalizing d with
  | nil => rfl
  | cons i is ih =>
    have hs : (Flex.pathPolys ctx g o d i).2 = none →
        (∀ x ∈ (Flex.pathPolys ctx g o d i).1, ∀ p ∈ x.2, p.length ≤ f.maxPoints) →
        Flex.pathPolys ctx f o d i = Flex.pathPolys ctx g o d i := by
      unfold Flex.pathPolys
      rw [hl, hd]
      cases o i with
      | error e => exact fun _ _ => rfl
      | ok p =>
        simp only [bind, Except.bind, flexPieces_small _ _ hg]
        cases idx f.layers i with
        | error e => simp
        | ok l =>
          cases idx f.datatypes i with
          | error e => simp
          | ok dt =>
            simp only [pure, Except.pure]
            intro _ h1
            obtain ⟨_, y, hy, h2⟩ := addDict_mem d (l, dt) [p]
            rw [flexPieces_within hc _ (h1 y hy p (h2 p (by simp)))]
    have hmono := forPolys_mono ctx g o (Flex.pathPolys ctx g o d i).1 is
    unfold forOut at hn hm ⊢
    generalize Flex.pathPolys ctx g o d i = y at hs hn hm hmono ⊢
    obtain ⟨y1, y2⟩ := y
    cases y2 with
    | some e => cases hn
    | none =>
      simp only at hn hm hs hmono
      rw [hs trivial fun x hx p hp => by
        obtain ⟨z, hz, h3⟩ := hmono x hx
        exact hm z hz p (h3 p hp)]
      exact ih y1 hn hm

theorem compute_uncut {ctx : FlexCtx K} (hc : 2 ≤ ctx.fuel) {f : Flex K} (hn : ((unlimited f).compute ctx).2.2 = none)
    (hm : ∀ x ∈ ((unlimited f).compute ctx).2.1, ∀ p ∈ x.2, p.length ≤ f.maxPoints) :
    (f.compute ctx).2 = ((unlimited f).compute ctx).2 := by
  have hu : (unlimited f).dedup = unlimited f.dedup := by
    unfold Flex.dedup unlimited
    simp only
    split <;> rfl
  have hd : f.dedup.maxPoints = f.maxPoints := by unfold Flex.dedup; split <;> rfl
  unfold Flex.compute at hn hm ⊢
  have hp : (unlimited f).points = f.points := rfl
  rw [hp] at hn hm ⊢
  split
  · rename_i h2
    rw [if_pos h2] at hn hm
    split
    · rename_i p q hpq
      rw [hpq] at hn hm
      simp only at hn hm
      split
      · rfl
      · rename_i hne
        rw [if_neg hne] at hn hm
        exact forPolys_within hc (f := f) (g := unlimited f) (Nat.zero_le _) rfl rfl _ _ _ hn hm
    · rfl
  · rename_i h2
    rw [if_neg h2, hu] at hn hm
    rw [hu]
    exact forPolys_within hc (f := f.dedup) (g := unlimited f.dedup) (Nat.zero_le _) rfl rfl _ _ _ hn
      (by rw [hd]; exact hm)

theorem getPolygons_uncut {ctx : FlexCtx K} (hc : 2 ≤ ctx.fuel) {f : Flex K} (hf : f.cache = none) {d : PolyDict K}
    (h : ((unlimited f).getPolygons ctx).2 = .ok d) (hm : ∀ x ∈ d, ∀ p ∈ x.2, p.length ≤ f.maxPoints) :
    (f.getPolygons ctx).2 = .ok d := by
  have hu : (unlimited f).cache = none := hf
  unfold Flex.getPolygons at h ⊢
  rw [hu] at h
  rw [hf]
  simp only at h ⊢
  have hx := compute_uncut hc (f := f)
  generalize (unlimited f).compute ctx = y at h hx
  generalize f.compute ctx = x at hx ⊢
  obtain ⟨g, e, er⟩ := y
  obtain ⟨g', e', er'⟩ := x
  cases er with
  | some a => cases h
  | none =>
    cases h
    have := hx rfl hm
    simp only [Prod.mk.injEq] at this
    obtain ⟨rfl, rfl⟩ := this
    rfl

theorem image_length {A : Aff K} {e : K} {p q : Pgon K} (h : ImageOf A e p q) : q.length = p.length := by
  unfold ImageOf at h
  split at h
  · rw [h, List.length_map]
  · have := h.perm.length_eq; simpa using this

theorem dictRel_length {A : Aff K} {e : K} {d d' : PolyDict K} (h : DictRel (ImageOf A e) d d') {m : Nat}
    (hm : ∀ x ∈ d, ∀ p ∈ x.2, p.length ≤ m) : ∀ x ∈ d', ∀ p ∈ x.2, p.length ≤ m := by
  unfold DictRel at h
  induction h with
  | nil => simp
  | cons hx _ ih =>
    rename_i a b l l' _
    intro x hx' p hp
    rcases List.mem_cons.1 hx' with rfl | hx'
    · have : ∀ u v : List (Pgon K), List.Forall₂ (ImageOf A e) u v → (∀ p ∈ u, p.length ≤ m) → ∀ p ∈ v, p.length ≤ m := by
        intro u v huv
        induction huv with
        | nil => simp
        | cons hpq _ ih2 =>
          intro hu q hq
          rcases List.mem_cons.1 hq with rfl | hq
          · rw [image_length hpq]; exact hu _ (by simp)
          · exact ih2 (fun p hp => hu p (by simp [hp])) q hq
      exact this _ _ hx.2 (hm a (by simp)) p hp
    · exact ih (fun x hx => hm x (by simp [hx])) x hx' p hp

/-- The polygons of a transformed path. -/
theorem getPolygons_moved {ctx : FlexCtx K} (ht : Num.Polar ctx.num) (hl : Num.Laws ctx.num) {A : Aff K} {k e : K}
    (h : Similar A k e) {f : Flex K} (hf : Plain k f) (hm : Uncut ctx f) (hn : f.cache = none) :
    PyRel (DictRel (ImageOf A e)) (f.getPolygons ctx).2 ((moved A k e f).getPolygons ctx).2 := by
  rcases hm with hm | ⟨hc, d, hd, hm⟩
  · exact getPolygons_moved_small ht hl h hf hm hn
  · have h1 := getPolygons_moved_small ht hl h (f := unlimited f) ⟨hf.corners, hf.ends⟩ (Nat.zero_le _) hn (ctx := ctx)
    rw [hd] at h1
    rw [getPolygons_uncut hc hn hd hm]
    have hu : moved A k e (unlimited f) = unlimited (moved A k e f) := rfl
    rw [hu] at h1
    generalize hg : ((unlimited (moved A k e f)).getPolygons ctx).2 = r at h1
    cases h1 with
    | ok h1 =>
      rw [getPolygons_uncut hc rfl hg (dictRel_length h1 hm)]
      exact .ok h1

theorem moved_one (A : Aff K) (f : Flex K) : moved A 1 1 f = { f with cache := none, points := f.points.map A.app } := by
  have h1 : (fun w : K => 1 * w) = id := by funext w; simp
  have h3 : FlexEnd.scale (1 : K) = id := by
    funext c
    cases c <;> simp [FlexEnd.scale]
  unfold moved
  simp only [h1, h3, List.map_id_fun, List.map_id]
  simp

theorem image_one {A : Aff K} {p q : Pgon K} (h : ImageOf A 1 p q) : q = p.map A.app := by
  unfold ImageOf at h; rwa [if_pos rfl] at h

theorem forall_one {A : Aff K} {l l' : List (Pgon K)} (h : List.Forall₂ (ImageOf A 1) l l') :
    l' = l.map (List.map A.app) := by
  induction h with
  | nil => rfl
  | cons hp _ ih => rw [List.map_cons, image_one hp, ih]

theorem dictRel_one {A : Aff K} {d d' : PolyDict K} (h : DictRel (ImageOf A 1) d d') : d' = mapElems A.app d := by
  unfold DictRel at h
  induction h with
  | nil => rfl
  | cons hx _ ih =>
    unfold mapElems at ih ⊢
    rw [List.map_cons, ← ih]
    exact congrArg (· :: _) (Prod.ext hx.1 (forall_one hx.2))

theorem pyRel_one {A : Aff K} {d d' : Py (PolyDict K)} (h : PyRel (DictRel (ImageOf A 1)) d d') :
    d' = d.map (mapElems A.app) := by
  cases h with
  | ok h => rw [dictRel_one h]; rfl
  | error e => rfl

/-- Reflect across the x axis (or not), scale, move by `arrayTrans`, rotate and translate, as for a reference. -/
def Spec.pathMap (t : Num K) (translation : Option (Pt K)) (rotation scale : Option K) (xrefl : Bool)
    (arrayTrans : Option (Pt K)) : Aff K :=
  ((Aff.opt translation .shift).comp (Aff.opt rotation fun a => .rotate (t.cos a) (t.sin a))).comp
    ((if xrefl then .reflect else .id : Aff K).comp ((Aff.opt arrayTrans .shift).comp (Aff.opt scale .scale)))

theorem pathMap_similar {t : Num K} (hl : Num.Laws t) (translation : Option (Pt K)) (rotation scale : Option K)
    (xrefl : Bool) (arrayTrans : Option (Pt K)) (hs : ∀ s, scale = some s → 0 < s) :
    Similar (pathMap t translation rotation scale xrefl arrayTrans) (scale.getD 1) (if xrefl then -1 else 1) := by
  have h1 : ∀ o : Option (Pt K), Similar (Aff.opt o .shift) (1 : K) 1 := by
    intro o
    cases o with
    | none => exact .id
    | some v => exact .shift v
  have h2 : Similar (Aff.opt rotation fun a => .rotate (t.cos a) (t.sin a)) (1 : K) 1 := by
    cases rotation with
    | none => exact .id
    | some a => exact .rotate (hl.trig.pyth a)
  have h3 : Similar (Aff.opt scale .scale) (scale.getD 1) 1 := by
    cases scale with
    | none => exact .id
    | some a => exact .scale (hs a rfl)
  have h4 : Similar (if xrefl then .reflect else .id : Aff K) 1 (if xrefl then -1 else 1) := by
    cases xrefl with
    | true => exact .reflect
    | false => exact .id
  have h := ((h1 translation).comp h2).comp (h4.comp ((h1 arrayTrans).comp h3))
  unfold pathMap
  simpa using h

theorem pathMap_app {t : Num K} (translation : Option (Pt K)) (rotation scale : Option K)
    (xrefl : Bool) (arrayTrans : Option (Pt K)) (hs : ∀ s, scale = some s → 0 < s) (p : Pt K) :
    (pathMap t translation rotation scale xrefl arrayTrans).app p =
      transformPt t translation rotation scale xrefl arrayTrans p := by
  have h1 : ∀ o : Option (Pt K), Aff.opt o .shift = .shift (o.getD (0, 0)) := by
    intro o
    cases o <;> rfl
  unfold pathMap transformPt
  rw [h1, h1]
  generalize translation.getD (0, 0) = tr
  generalize arrayTrans.getD (0, 0) = at0
  cases scale with
  | none =>
    cases rotation <;> cases xrefl <;>
      simp only [Aff.opt, Aff.app, Aff.comp, Aff.shift, Aff.rotate, Aff.reflect, Aff.id, Option.map_none,
        Option.map_some, Option.getD_some, Option.getD_none, if_true, Bool.false_eq_true, if_false] <;>
      (refine Prod.ext ?_ ?_ <;> simp only <;> ring)
  | some s =>
    have h0 : s ≠ 0 := (hs s rfl).ne'
    have d1 : at0.1 / s * s = at0.1 := div_mul_cancel₀ _ h0
    have d2 : at0.2 / s * s = at0.2 := div_mul_cancel₀ _ h0
    cases rotation <;> cases xrefl <;>
      simp only [Aff.opt, Aff.app, Aff.comp, Aff.shift, Aff.rotate, Aff.scale, Aff.reflect, Aff.id, Option.map_none,
        Option.map_some, Option.getD_some, Option.getD_none, if_true, Bool.false_eq_true, if_false] <;>
      generalize at0.1 / s = u at d1 <;>
      generalize at0.2 / s = v at d2 <;>
      (refine Prod.ext ?_ ?_ <;> simp only <;> rw [← d1, ← d2] <;> ring)

/-- Translated paths. -/
theorem C61_flex_translate_partial {ctx : FlexCtx K} (ht : Num.Polar ctx.num) (hl : Num.Laws ctx.num) {f : Flex K}
    (hf : Plain 1 f) (hm : Uncut ctx f) (hn : f.cache = none) (dx dy : K) :
    ((f.translate dx dy).getPolygons ctx).2 = (f.getPolygons ctx).2.map (mapElems fun p => (p.1 + dx, p.2 + dy)) := by
  have hs : Similar (Aff.shift (dx, dy)) (1 : K) 1 :=
    ⟨one_pos, .inl rfl, by simp [Aff.shift], by simp [Aff.shift], by simp [Aff.shift]⟩
  have h := pyRel_one (getPolygons_moved ht hl hs hf hm hn)
  have ha : (Aff.shift (dx, dy)).app = fun p : Pt K => (p.1 + dx, p.2 + dy) := by
    funext p; simp [Aff.app, Aff.shift]
  rw [moved_one, ha] at h
  exact h

/-- Rotated paths. -/
theorem C61_flex_rotate_partial {ctx : FlexCtx K} (ht : Num.Polar ctx.num) (hl : Num.Laws ctx.num) {f : Flex K}
    (hf : Plain 1 f) (hm : Uncut ctx f) (hn : f.cache = none) (angle : K) (center : Pt K) :
    ((f.rotate ctx.num angle center).getPolygons ctx).2 = (f.getPolygons ctx).2.map (mapElems fun p =>
      (center.1 + (p.1 - center.1) * ctx.num.cos angle - (p.2 - center.2) * ctx.num.sin angle,
       center.2 + (p.1 - center.1) * ctx.num.sin angle + (p.2 - center.2) * ctx.num.cos angle)) := by
  let A : Aff K := ((Aff.shift center).comp (.rotate (ctx.num.cos angle) (ctx.num.sin angle))).comp
    (.shift (-center.1, -center.2))
  have hs : Similar A (1 : K) 1 := by
    refine ⟨one_pos, .inl rfl, ?_, ?_, ?_⟩
    · simp [A, Aff.comp, Aff.shift, Aff.rotate]
    · simp [A, Aff.comp, Aff.shift, Aff.rotate]
    · simp [A, Aff.comp, Aff.shift, Aff.rotate, hl.trig.pyth]
  have h := pyRel_one (getPolygons_moved ht hl hs hf hm hn)
  have ha : A.app = spinPt (ctx.num.cos angle) (ctx.num.sin angle) center := by
    funext p
    simp only [A, Aff.app, Aff.comp, Aff.shift, Aff.rotate, spinPt]
    refine Prod.ext ?_ ?_ <;> simp only <;> ring
  have ha' : (fun p : Pt K => (center.1 + (p.1 - center.1) * ctx.num.cos angle - (p.2 - center.2) * ctx.num.sin angle,
       center.2 + (p.1 - center.1) * ctx.num.sin angle + (p.2 - center.2) * ctx.num.cos angle)) =
       spinPt (ctx.num.cos angle) (ctx.num.sin angle) center := by
    funext p
    unfold spinPt
    refine Prod.ext ?_ ?_ <;> simp only <;> ring
  rw [moved_one, ha] at h
  rw [ha']
  exact h

/-- Scaled paths, if their widths are scaled. -/
theorem C61_flex_scale_partial {ctx : FlexCtx K} (ht : Num.Polar ctx.num) (hl : Num.Laws ctx.num) {f : Flex K} {s : K}
    (hs : 0 < s) (hf : Plain s f) (hm : Uncut ctx f) (hn : f.cache = none)
    (hw : f.widthTransform = true ∨ f.gdsiiPath = false) (center : Pt K) :
    ((f.scale s center).getPolygons ctx).2 = (f.getPolygons ctx).2.map (mapElems fun p =>
      (center.1 + s * (p.1 - center.1), center.2 + s * (p.2 - center.2))) := by
  let A : Aff K := ((Aff.shift center).comp (.scale s)).comp (.shift (-center.1, -center.2))
  have hA : Similar A s 1 := by
    refine ⟨hs, .inl rfl, ?_, ?_, ?_⟩ <;> simp [A, Aff.comp, Aff.shift, Aff.scale]
  have h := pyRel_one (getPolygons_moved ht hl hA hf hm hn)
  have ha : A.app = fun p => (center.1 + s * (p.1 - center.1), center.2 + s * (p.2 - center.2)) := by
    funext p
    simp only [A, Aff.app, Aff.comp, Aff.shift, Aff.scale]
    refine Prod.ext ?_ ?_ <;> simp only <;> ring
  have hm' : moved A s 1 f = f.scale s center := by
    have e1 : (fun p : Pt K => (center.1 + s * (p.1 - center.1), center.2 + s * (p.2 - center.2))) =
      fun p => (p.1 * s + center.1 * (1 - s), p.2 * s + center.2 * (1 - s)) := by
      funext p; refine Prod.ext ?_ ?_ <;> simp only <;> ring
    have e2 : (fun w : K => s * w) = fun w => w * s := by funext w; ring
    have e3 : (fun w : K => 1 * (s * w)) = fun w => w * s := by funext w; ring
    have e4 : (f.widthTransform || !f.gdsiiPath) = true := by
      rcases hw with h | h <;> simp [h]
    unfold moved Flex.scale
    rw [ha, e1, e2, e3, e4, if_pos rfl]
  rw [hm', ha] at h
  exact h

theorem transform_moved {t : Num K} {f : Flex K} (translation : Option (Pt K)) {rotation scale : Option K}
    (hs : ∀ s, scale = some s → 0 < s) (xrefl : Bool) (arrayTrans : Option (Pt K))
    (hw : scale = none ∨ f.widthTransform = true ∨ f.gdsiiPath = false)
    (he : scale = none ∨ ∀ c ∈ f.ends, ∀ a b, c ≠ .pair a b)
    (ho : xrefl = true → ∀ r ∈ f.offsets, ∀ o ∈ r, o = 0) :
    moved (pathMap t translation rotation scale xrefl arrayTrans) (scale.getD 1) (if xrefl then -1 else 1) f =
      f.transform t translation rotation scale xrefl arrayTrans := by
  have hp : (pathMap t translation rotation scale xrefl arrayTrans).app =
      transformPt t translation rotation scale xrefl arrayTrans := by
    funext p; exact pathMap_app _ _ _ _ _ hs p
  have hwid : f.widths.map (List.map fun w => scale.getD 1 * w) = (match scale with
      | none => f.widths
      | some s => if f.widthTransform || !f.gdsiiPath then f.widths.map (List.map (· * s)) else f.widths) := by
    cases scale with
    | none => simp
    | some s =>
      have e4 : (f.widthTransform || !f.gdsiiPath) = true := by
        rcases hw with h | h | h
        · cases h
        · simp [h]
        · simp [h]
      simp only [e4, if_true, Option.getD_some]
      have : (fun w : K => s * w) = fun w => w * s := by funext w; ring
      rw [this]
  have hoff : f.offsets.map (List.map fun o => (if xrefl = true then -1 else 1) * (scale.getD 1 * o)) = (match scale with
      | none => f.offsets
      | some s => f.offsets.map (List.map (· * s))) := by
    have h1 : f.offsets.map (List.map fun o => (if xrefl = true then -1 else 1) * (scale.getD 1 * o)) =
        f.offsets.map (List.map (· * scale.getD 1)) := by
      refine List.map_congr_left fun r hr => List.map_congr_left fun o hro => ?_
      cases xrefl with
      | false => simp only [Bool.false_eq_true, if_false]; ring
      | true => rw [ho rfl r hr o hro]; simp
    rw [h1]
    cases scale with
    | none => simp
    | some s => rfl
  have hend : f.ends.map (FlexEnd.scale (scale.getD 1)) = f.ends := by
    have : ∀ c ∈ f.ends, FlexEnd.scale (scale.getD 1) c = c := by
      intro c hc
      cases c with
      | pair a b =>
        rcases he with rfl | he
        · simp [FlexEnd.scale]
        · exact absurd rfl (he _ hc a b)
      | _ => rfl
    exact (List.map_congr_left this).trans (List.map_id _)
  unfold moved Flex.transform
  rw [hp, hwid, hoff, hend]
  cases scale <;> rfl

/-- `transform` without a reflection, as in `CellReference.get_paths` and `CellArray.get_paths`. -/
theorem C61_flex_transform_partial {ctx : FlexCtx K} (ht : Num.Polar ctx.num) (hl : Num.Laws ctx.num) {f : Flex K}
    {scale : Option K} (hs : ∀ s, scale = some s → 0 < s) (hf : Plain (scale.getD 1) f) (hm : Uncut ctx f)
    (hn : f.cache = none) (hw : scale = none ∨ f.widthTransform = true ∨ f.gdsiiPath = false)
    (he : scale = none ∨ ∀ c ∈ f.ends, ∀ a b, c ≠ .pair a b) (translation : Option (Pt K)) (rotation : Option K)
    (arrayTrans : Option (Pt K)) :
    ((f.transform ctx.num translation rotation scale false arrayTrans).getPolygons ctx).2 =
      (f.getPolygons ctx).2.map (mapElems (pathMap ctx.num translation rotation scale false arrayTrans).app) := by
  have h := getPolygons_moved ht hl (pathMap_similar hl translation rotation scale false arrayTrans hs) hf hm hn
  rw [transform_moved translation hs false arrayTrans hw he (by simp)] at h
  exact pyRel_one h

/-- `transform` with a reflection, if the path has no offsets: every polygon is the image, with the vertices in the
opposite order and from another first vertex. -/
theorem C61_flex_reflect_partial {ctx : FlexCtx K} (ht : Num.Polar ctx.num) (hl : Num.Laws ctx.num) {f : Flex K}
    {scale : Option K} (hs : ∀ s, scale = some s → 0 < s) (hf : Plain (scale.getD 1) f) (hm : Uncut ctx f)
    (hn : f.cache = none) (hw : scale = none ∨ f.widthTransform = true ∨ f.gdsiiPath = false)
    (he : scale = none ∨ ∀ c ∈ f.ends, ∀ a b, c ≠ .pair a b) (ho : ∀ r ∈ f.offsets, ∀ o ∈ r, o = 0)
    (translation : Option (Pt K)) (rotation : Option K) (arrayTrans : Option (Pt K)) :
    PyRel (DictRel fun p q => q ~r (p.map (pathMap ctx.num translation rotation scale true arrayTrans).app).reverse)
      (f.getPolygons ctx).2 ((f.transform ctx.num translation rotation scale true arrayTrans).getPolygons ctx).2 := by
  have h := getPolygons_moved ht hl (pathMap_similar hl translation rotation scale true arrayTrans hs) hf hm hn
  rw [transform_moved translation hs true arrayTrans hw he fun _ => ho] at h
  have hne : ¬ ((-1 : K) = 1) := by intro h; linarith
  have hi : ImageOf (pathMap ctx.num translation rotation scale true arrayTrans) (if (true : Bool) = true then -1 else 1) =
      fun p q => q ~r (p.map (pathMap ctx.num translation rotation scale true arrayTrans).app).reverse := by
    funext p q
    unfold ImageOf
    simp only [if_true, hne, if_false]
  rwa [hi] at h

end Map

/-- Two lines with offsets along a corner, without a limit of vertices. -/
noncomputable def realBend (fins : List (FlexEnd ℝ)) : Flex ℝ :=
  { points := [(0, 0), (10, 0), (10, 10)]
    widths := [[1, 2], [1, 2], [2, 2]]
    offsets := [[-2, 2], [-2, 2], [-3, 3]]
    n := 2
    ends := fins
    corners := [.natural, .bevel]
    bendRadius := [none, none]
    layers := [1, 2]
    datatypes := [0, 0]
    tolerance := 1 / 100
    precision := 1 / 1000
    maxPoints := 0
    gdsiiPath := false
    widthTransform := true
    cache := none }

noncomputable def realCtx : FlexCtx ℝ := ⟨realNum, fun _ _ _ _ => .error .unmodelled, fun _ _ _ _ => .ok [], 100⟩

theorem realBend_plain (k : ℝ) : Plain k (realBend [.flush, .pair 3 4]) where
  corners c hc := by
    simp only [realBend, List.mem_cons, List.not_mem_nil, or_false] at hc
    rcases hc with rfl | rfl <;> exact trivial
  ends c hc := by
    simp only [realBend, List.mem_cons, List.not_mem_nil, or_false] at hc
    rcases hc with rfl | rfl <;> exact .inl trivial

/-- Non-vacuity of the theorems for motions and scalings. -/
example (center : Pt ℝ) :
    (((realBend [.flush, .pair 3 4]).scale 3 center).getPolygons realCtx).2 =
      ((realBend [.flush, .pair 3 4]).getPolygons realCtx).2.map (mapElems fun p =>
        (center.1 + 3 * (p.1 - center.1), center.2 + 3 * (p.2 - center.2))) :=
  C61_flex_scale_partial (ctx := realCtx) realNum_polar realNum_laws (by norm_num) (realBend_plain 3) (.inl (by decide)) rfl
    (.inl rfl) center

/-- Non-vacuity of the theorem for reflections: a path with round ends. -/
example : PyRel (DictRel fun p q => q ~r (p.map (pathMap realNum none (some 1) none true (some (3, 4))).app).reverse)
    (({ realBend [.round, .flush] with offsets := [[0, 0], [0, 0], [0, 0]] }).getPolygons realCtx).2
    ((({ realBend [.round, .flush] with offsets := [[0, 0], [0, 0], [0, 0]] }).transform realNum none (some 1) none true
      (some (3, 4))).getPolygons realCtx).2 :=
  C61_flex_reflect_partial (ctx := realCtx) realNum_polar realNum_laws (scale := none) (by simp)
    ⟨fun c hc => by
      simp only [realBend, List.mem_cons, List.not_mem_nil, or_false] at hc
      rcases hc with rfl | rfl <;> exact trivial,
     fun c hc => by
      simp only [realBend, List.mem_cons, List.not_mem_nil, or_false] at hc
      rcases hc with rfl | rfl
      · exact .inr ⟨rfl, rfl, .inr (by simp)⟩
      · exact .inl trivial⟩
    (.inl (by decide)) rfl (.inl rfl) (.inl rfl) (by simp) none (some 1) (some (3, 4))

/-- `Uncut` with the default limit. -/
example : Uncut tenCtx (tenFlex [(0, 0), (10, 0), (10, 10)] .flush) :=
  .inr ⟨by decide, [((0, 0), [[(0, 1), (0, -1), (11, -1), (11, 10), (9, 10), (9, 1)]])], by
    have : ((unlimited (tenFlex [(0, 0), (10, 0), (10, 10)] .flush)).getPolygons tenCtx).2.toOption =
        some [((0, 0), [[(0, 1), (0, -1), (11, -1), (11, 10), (9, 10), (9, 1)]])] := by decide +kernel
    generalize ((unlimited (tenFlex [(0, 0), (10, 0), (10, 10)] .flush)).getPolygons tenCtx).2 = r at this
    cases r with
    | error e => cases this
    | ok d => cases this; rfl, by decide +kernel⟩

/-- **C61**, violated: a path with an offset is on the wrong side of its spine after a reflection. The path is moved from
y = 3 to y = 3 and not to y = -3. -/
theorem C61_flex_reflect_offset :
    let f : Flex ℚ := { tenFlex [(0, 0), (10, 0)] .flush with offsets := [[3], [3]] }
    polysAfter f [] = (some [[(0, 2), (0, 4), (10, 4), (10, 2)]], none) ∧
    polysAfter f [.transform none none none true none] = (some [[(0, 2), (0, 4), (10, 4), (10, 2)]], none) := by
  decide +kernel

/-- **C61**, violated: `transform` does not scale the extensions given as tuple, as `scale` does. -/
theorem C61_flex_transform_ends :
    polysAfter (tenFlex [(0, 0), (5, 0)] (.pair 3 4)) [.transform none none (some 2) false none] =
      (some [[(-3, -2), (-3, 2), (14, 2), (14, -2)]], none) ∧
    polysAfter (tenFlex [(0, 0), (5, 0)] (.pair 3 4)) [.scale 2 (0, 0)] =
      (some [[(-6, -2), (-6, 2), (18, 2), (18, -2)]], none) := by
  decide +kernel

end Gdspy
