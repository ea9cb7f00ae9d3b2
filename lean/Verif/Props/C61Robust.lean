import Verif.Props.C61
import Verif.Props.C60Robust

/-!
# C61: transforming a RobustPath

A `RobustPath` is transformed by multiplying the matrices of its sections. Its curves (spine and sides) are the images
for every transformation, its polygons for every motion.
-/

set_option linter.unusedSectionVars false

namespace Gdspy

open Spec

variable {K : Type}

section Curves

variable [Field K]

/-- The curves of `s'` are the images of those of `s`, sampled in the same way. -/
structure SubImage [LinearOrder K] (t : Num K) (F : Pt K → Pt K) (s s' : Sub K) : Prop where
  call : ∀ u arm, s'.call t u arm = F (s.call t u arm)
  h : s'.h = s.h
  err : s'.err = s.err
  maxEvals : s'.maxEvals = s.maxEvals

theorem Mat.mul_app (a b : Mat K) (p : Pt K) : (a.mul b).app p = a.app (b.app p) := by
  unfold Mat.mul Mat.app; refine Prod.ext ?_ ?_ <;> simp only <;> ring

/-- The matrix of an affine map. -/
def Spec.Aff.mat (A : Aff K) : Mat K := ⟨A.a, A.b, A.e, A.c, A.d, A.f⟩

theorem mat_app (A : Aff K) : A.mat.app = A.app := rfl

/-- What a transformation does to a section. -/
def Sub.moved (A : Aff K) (s : Sub K) : Sub K := { s with tr := Mat.mul A.mat s.tr }

theorem moved_moved (A B : Aff K) (s : Sub K) : (s.moved B).moved A = s.moved (A.comp B) := by
  unfold Sub.moved Mat.mul Aff.mat Aff.comp
  simp only
  congr 2 <;> ring

theorem translate_moved (d : Pt K) : Sub.translate d = Sub.moved (K := K) (.shift d) := rfl

theorem scale_moved (s : K) : Sub.scale s s = Sub.moved (K := K) (.scale s) := rfl

theorem reflect_moved : Sub.scale (1 : K) (-1) = Sub.moved (K := K) .reflect := rfl

theorem rotate_moved (t : Num K) (a : K) : Sub.rotate t a = Sub.moved (K := K) (.rotate (t.cos a) (t.sin a)) := rfl

variable [LinearOrder K]

theorem moved_image (t : Num K) (A : Aff K) (s : Sub K) : SubImage t A.app s (s.moved A) where
  call u arm := Mat.mul_app A.mat s.tr (s.raw t u arm)
  h := rfl
  err := rfl
  maxEvals := rfl

/-- Everything about a path that `A` moves. -/
structure Spec.MovedBy (A : Aff K) (r r' : Robust K) : Prop where
  paths : r'.paths = r.paths.map (List.map (Sub.moved A))
  x : r'.x = A.app r.x
  n : r'.n = r.n
  ends : r'.ends = r.ends
  layers : r'.layers = r.layers
  datatypes : r'.datatypes = r.datatypes
  tolerance : r'.tolerance = r.tolerance
  precision : r'.precision = r.precision
  maxPoints : r'.maxPoints = r.maxPoints
  maxEvals : r'.maxEvals = r.maxEvals

theorem Spec.MovedBy.trans {A B : Aff K} {r r' r'' : Robust K} (h : MovedBy B r r') (h' : MovedBy A r' r'') :
    MovedBy (A.comp B) r r'' where
  paths := by
    rw [h'.paths, h.paths, List.map_map]
    congr 1
    funext l
    simp only [Function.comp_apply, List.map_map]
    congr 1
    funext s
    exact moved_moved A B s
  x := by
    rw [h'.x, h.x]
    unfold Aff.app Aff.comp
    refine Prod.ext ?_ ?_ <;> simp only <;> ring
  n := h'.n.trans h.n
  ends := h'.ends.trans h.ends
  layers := h'.layers.trans h.layers
  datatypes := h'.datatypes.trans h.datatypes
  tolerance := h'.tolerance.trans h.tolerance
  precision := h'.precision.trans h.precision
  maxPoints := h'.maxPoints.trans h.maxPoints
  maxEvals := h'.maxEvals.trans h.maxEvals

theorem movedBy_translate (dx dy : K) (r : Robust K) : MovedBy (.shift (dx, dy)) r (r.translate dx dy) where
  paths := rfl
  x := by unfold Robust.translate Robust.mapSubs Aff.app Aff.shift; simp
  n := rfl
  ends := rfl
  layers := rfl
  datatypes := rfl
  tolerance := rfl
  precision := rfl
  maxPoints := rfl
  maxEvals := rfl

theorem movedBy_rotate (t : Num K) (a : K) (c : Pt K) (r : Robust K) :
    MovedBy (((Aff.shift c).comp (.rotate (t.cos a) (t.sin a))).comp (.shift (-c.1, -c.2))) r (r.rotate t a c) where
  paths := by
    unfold Robust.rotate Robust.mapSubs
    simp only [translate_moved, rotate_moved, moved_moved]
    congr 3
    funext s
    unfold Aff.comp
    simp only
    congr 2 <;> ring
  x := by
    unfold Robust.rotate Robust.mapSubs Aff.app Aff.comp Aff.shift Aff.rotate spinPt
    refine Prod.ext ?_ ?_ <;> simp only <;> ring
  n := rfl
  ends := rfl
  layers := rfl
  datatypes := rfl
  tolerance := rfl
  precision := rfl
  maxPoints := rfl
  maxEvals := rfl

theorem movedBy_scale (s : K) (c : Pt K) (r : Robust K) :
    MovedBy (((Aff.shift c).comp (.scale s)).comp (.shift (-c.1, -c.2))) r (r.scale s c) where
  paths := by
    unfold Robust.scale Robust.mapSubs Robust.scaleLists
    simp only [translate_moved, scale_moved, moved_moved]
    congr 3
    funext s
    unfold Aff.comp Aff.shift Aff.scale
    simp only
    congr 2 <;> ring
  x := by
    unfold Robust.scale Robust.mapSubs Robust.scaleLists Aff.app Aff.comp Aff.shift Aff.scale
    refine Prod.ext ?_ ?_ <;> simp only <;> ring
  n := rfl
  ends := rfl
  layers := rfl
  datatypes := rfl
  tolerance := rfl
  precision := rfl
  maxPoints := rfl
  maxEvals := rfl

theorem movedBy_id (r : Robust K) : MovedBy .id r { r with cache := none } where
  paths := by
    have : Sub.moved (K := K) .id = id := by
      funext s
      unfold Sub.moved Mat.mul Aff.mat Aff.id
      simp
    rw [this]
    simp
  x := by unfold Aff.app Aff.id; simp
  n := rfl
  ends := rfl
  layers := rfl
  datatypes := rfl
  tolerance := rfl
  precision := rfl
  maxPoints := rfl
  maxEvals := rfl

theorem Spec.MovedBy.self (r : Robust K) : MovedBy .id r r where
  paths := (movedBy_id r).paths
  x := (movedBy_id r).x
  n := rfl
  ends := rfl
  layers := rfl
  datatypes := rfl
  tolerance := rfl
  precision := rfl
  maxPoints := rfl
  maxEvals := rfl

theorem movedBy_shift (d : Option (Pt K)) (r : Robust K) : MovedBy (Aff.opt d .shift) r (r.shift d) := by
  cases d with
  | none => exact .self r
  | some d =>
    refine ⟨rfl, ?_, rfl, rfl, rfl, rfl, rfl, rfl, rfl, rfl⟩
    unfold Robust.shift Robust.mapSubs Aff.app Aff.opt Aff.shift
    simp

theorem movedBy_mirror (x : Bool) (r : Robust K) : MovedBy (if x then .reflect else .id) r (r.mirror x) := by
  cases x with
  | false => exact .self r
  | true =>
    refine ⟨rfl, ?_, rfl, rfl, rfl, rfl, rfl, rfl, rfl, rfl⟩
    unfold Robust.mirror Robust.mapSubs Aff.app Aff.reflect
    simp

theorem movedBy_magnify (m : Option K) (r : Robust K) : MovedBy (Aff.opt m .scale) r (r.magnify m) := by
  cases m with
  | none => exact .self r
  | some m =>
    refine ⟨rfl, ?_, rfl, rfl, rfl, rfl, rfl, rfl, rfl, rfl⟩
    unfold Robust.magnify Robust.mapSubs Robust.scaleLists Aff.app Aff.opt Aff.scale
    simp [mul_comm]

theorem movedBy_spin (t : Num K) (a : Option K) (r : Robust K) :
    MovedBy (Aff.opt a fun a => .rotate (t.cos a) (t.sin a)) r (r.spin t a) := by
  cases a with
  | none => exact .self r
  | some a =>
    refine ⟨rfl, ?_, rfl, rfl, rfl, rfl, rfl, rfl, rfl, rfl⟩
    unfold Robust.spin Robust.mapSubs Aff.app Aff.opt Aff.rotate
    refine Prod.ext ?_ ?_ <;> simp only [Option.map_some, Option.getD_some] <;> ring

/-- `transform` moves a path as a reference does, except that `array_trans` is multiplied by `scale`. -/
theorem movedBy_transform (t : Num K) (translation : Option (Pt K)) (rotation scale : Option K) (xrefl : Bool)
    (arrayTrans : Option (Pt K)) (r : Robust K) :
    MovedBy (pathMap t translation rotation scale xrefl (arrayTrans.map (psmul (scale.getD 1)))) r
      (r.transform t translation rotation scale xrefl arrayTrans) := by
  have h := ((((movedBy_id r).trans (movedBy_shift arrayTrans _)).trans (movedBy_mirror xrefl _)).trans
    (movedBy_magnify scale _)).trans (movedBy_spin t rotation _) |>.trans (movedBy_shift translation _)
  have e : pathMap t translation rotation scale xrefl (arrayTrans.map (psmul (scale.getD 1))) =
      (Aff.opt translation .shift).comp ((Aff.opt rotation fun a => .rotate (t.cos a) (t.sin a)).comp
        ((Aff.opt scale .scale).comp ((if xrefl then .reflect else .id : Aff K).comp
          ((Aff.opt arrayTrans .shift).comp .id)))) := by
    unfold pathMap
    generalize Aff.opt translation .shift = A
    generalize (Aff.opt rotation fun a => Aff.rotate (t.cos a) (t.sin a)) = B
    cases scale <;> cases xrefl <;> cases arrayTrans <;>
      simp only [Aff.opt, Aff.comp, Aff.shift, Aff.scale, Aff.reflect, Aff.id, Option.map_none,
        Option.map_some, Option.getD_some, Option.getD_none, if_true, Bool.false_eq_true, if_false, psmul] <;>
      (congr 1 <;> ring)
  rw [e]
  exact h

variable [FloorRing K]

theorem locate_moved {A : Aff K} {r r' : Robust K} (h : MovedBy A r r') (u : K) (last : Int → K → Nat → Bool) :
    r'.locate u last = r.locate u last := by
  unfold Robust.locate
  rw [h.paths]
  cases r.paths with
  | nil => rfl
  | cons p l => simp only [List.map_cons, List.length_map]

theorem idx_map_eq {α β : Type} (g : α → β) (l : List α) (i : Nat) : idx (l.map g) i = (idx l i).map g := by
  unfold idx
  rw [List.getElem?_map]
  cases l[i]? <;> rfl

theorem sections_moved {β : Type} {A : Aff K} {r r' : Robust K} (h : MovedBy A r r') (i : Nat) (g g' : Sub K → β)
    (F : β → β) (hg : ∀ s, g' (s.moved A) = F (g s)) :
    (r'.paths.mapM fun p => do let q ← idx p i; .ok (g' q) : Py (List β)) =
      (r.paths.mapM fun p => do let q ← idx p i; .ok (g q) : Py (List β)).map (List.map F) := by
  rw [h.paths]
  refine py_mapM_map _ _ _ _ _ fun p _ => ?_
  rw [idx_map_eq]
  cases idx p i with
  | error e => rfl
  | ok q => show Except.ok _ = Except.ok _; rw [hg]

/-- The points `path(u, arm)`. -/
theorem call_moved (t : Num K) {A : Aff K} {r r' : Robust K} (h : MovedBy A r r') (u : K) (arm : Int) :
    r'.call t u arm = (r.call t u arm).map (List.map A.app) := by
  unfold Robust.call
  rw [locate_moved h]
  cases r.locate u fun i _ n => i = n with
  | error e => rfl
  | ok s => exact sections_moved h _ _ _ _ fun q => (moved_image t A q).call _ _

theorem subGrad_app (A : Aff K) (h : K) (c : K → Pt K) (u : K) :
    subGrad h (fun u => A.app (c u)) u = A.lin (subGrad h c u) := by
  unfold subGrad
  simp only
  rw [app_psub, lin_psmul]

theorem SubImage.grad {t : Num K} {A : Aff K} {s s' : Sub K} (h : SubImage t A.app s s') (u : K) (arm : Int) :
    s'.grad t u arm = A.lin (s.grad t u arm) := by
  unfold Sub.grad
  rw [h.h, ← subGrad_app]
  congr 1
  funext u
  exact h.call u arm

/-- The tangents `grad`. -/
theorem grad_moved (t : Num K) {A : Aff K} {r r' : Robust K} (h : MovedBy A r r') (u : K) (arm : Int) (minus : Bool) :
    r'.grad t u arm minus = (r.grad t u arm minus).map (List.map A.lin) := by
  unfold Robust.grad
  rw [locate_moved h]
  cases r.locate u fun i v n => decide (v = 0 ∧ ((i > 0 ∧ minus = true) ∨ i = n)) with
  | error e => rfl
  | ok s => exact sections_moved h _ _ _ _ fun q => (moved_image t A q).grad _ _

variable [IsStrictOrderedRing K]

theorem SubImage.width {t : Num K} (ht : Num.Polar t) {A : Aff K} {k e : K} (hA : Similar A k e) {s s' : Sub K}
    (h : SubImage t A.app s s') (u : K) : s'.width t u = k * s.width t u := by
  unfold Sub.width
  rw [h.call, h.call, app_psub, hA.root ht]

/-- The distance between the sides. -/
theorem width_moved {t : Num K} (ht : Num.Polar t) {A : Aff K} {k e : K} (hA : Similar A k e) {r r' : Robust K}
    (h : MovedBy A r r') (u : K) : r'.width t u = (r.width t u).map (List.map fun w => k * w) := by
  unfold Robust.width
  rw [locate_moved h]
  cases r.locate u fun i v n => decide (v = 0 ∧ i = n) with
  | error e => rfl
  | ok s => exact sections_moved h _ _ _ _ fun q => (moved_image t A q).width ht hA _

end Curves

section Polygons

variable [Field K] [LinearOrder K] [IsStrictOrderedRing K] [FloorRing K]

theorem Spec.Similar.dot {A : Aff K} {k e : K} (h : Similar A k e) (v w : Pt K) :
    (A.lin v).1 * (A.lin w).1 + (A.lin v).2 * (A.lin w).2 = k ^ 2 * (v.1 * w.1 + v.2 * w.2) := by
  unfold Aff.lin
  simp only
  rw [h.b, h.d]
  linear_combination (v.1 * w.1 + v.2 * w.2) * h.size + ((A.c ^ 2 + A.a ^ 2) * v.2 * w.2) * h.sign_sq

theorem sqErr_norm (a b : Pt K) : sqErr a b = normSq (psub a b) := rfl

theorem lerp_app (A : Aff K) (p q : Pt K) (f : K) : lerpPt (A.app p) (A.app q) f = A.app (lerpPt p q f) := by
  unfold lerpPt Aff.app; refine Prod.ext ?_ ?_ <;> simp only <;> ring

theorem fracTest_image {A : Aff K} {e : K} (h : Similar A 1 e) (c : K → Pt K) (err : K) (p q : K × Pt K) (fs : List K) :
    fracTest (fun u => A.app (c u)) err (p.1, A.app p.2) (q.1, A.app q.2) fs =
      (fracTest c err p q fs).map fun m => (m.1, A.app m.2) := by
  induction fs with
  | nil => rfl
  | cons f fs ih =>
    unfold fracTest
    simp only
    rw [lerp_app, sqErr_norm, app_psub, h.norm, one_pow, one_mul, ← sqErr_norm]
    split
    · rfl
    · exact ih

theorem subLoop_image {A : Aff K} {e : K} (h : Similar A 1 e) (c : K → Pt K) (err : K) (m : Option Nat) (fuel : Nat)
    (done : List (K × Pt K)) (p : K × Pt K) (rest : List (K × Pt K)) :
    subLoop (fun u => A.app (c u)) err m fuel (done.map fun x => (x.1, A.app x.2)) (p.1, A.app p.2)
        (rest.map fun x => (x.1, A.app x.2)) =
      (subLoop c err m fuel done p rest).map (List.map fun x => (x.1, A.app x.2)) := by
  induction fuel generalizing done p rest with
  | zero =>
    cases rest with
    | nil => simp [subLoop]
    | cons q rest =>
      simp only [subLoop, List.map_cons, List.length_map]
      split <;> simp
  | succ fuel ih =>
    cases rest with
    | nil => simp [subLoop]
    | cons q rest =>
      simp only [subLoop, List.map_cons, List.length_map]
      split
      · rw [fracTest_image h]
        cases fracTest c err p q [1 / 5, 1 / 2, 4 / 5] with
        | none => exact ih (p :: done) q rest
        | some x => exact ih done p (x :: q :: rest)
      · simp

theorem SubImage.points {t : Num K} {A : Aff K} {e : K} (h : Similar A 1 e) {s s' : Sub K} (hs : SubImage t A.app s s')
    (u0 u1 : K) (arm : Int) : s'.points t u0 u1 arm = (s.points t u0 u1 arm).map A.app := by
  unfold Sub.points subPoints
  have hc : (fun u => s'.call t u arm) = fun u => A.app (s.call t u arm) := funext fun u => hs.call u arm
  have := subLoop_image h (fun u => s.call t u arm) s.err (some s.maxEvals) (2 * s.maxEvals + 1) [] (u0, s.call t u0 arm)
    [(u1, s.call t u1 arm)]
  simp only [List.map_nil, List.map_cons] at this
  rw [hc, hs.err, hs.maxEvals, this]
  cases subLoop (fun u => s.call t u arm) s.err (some s.maxEvals) (2 * s.maxEvals + 1) [] (u0, s.call t u0 arm)
    [(u1, s.call t u1 arm)] with
  | none => rfl
  | some l => simp

theorem seek_image {A : Aff K} {e : K} (h : Similar A 1 e) (h0 h1 : K) (c0 c1 : K → Pt K) (tol : K) (n : Nat)
    (u0 u1 step : K) :
    seek h0 h1 (fun u => A.app (c0 u)) (fun u => A.app (c1 u)) tol n u0 u1 step = seek h0 h1 c0 c1 tol n u0 u1 step := by
  induction n generalizing u0 u1 step with
  | zero => rfl
  | succ n ih =>
    unfold seek
    simp only [app_psub, h.norm, subGrad_app, h.dot, ih, one_pow, one_mul]

theorem robustJoin_image {t : Num K} {A : Aff K} {e : K} (h : Similar A 1 e) (tol : K) (maxEvals : Nat)
    {s0 s0' s1 s1' : Sub K} (i0 : SubImage t A.app s0 s0') (i1 : SubImage t A.app s1 s1') (arm : Int) :
    robustJoin t tol maxEvals s0' s1' arm =
      ((robustJoin t tol maxEvals s0 s1 arm).1, (robustJoin t tol maxEvals s0 s1 arm).2.1,
        A.app (robustJoin t tol maxEvals s0 s1 arm).2.2) := by
  have hd : ∀ v0 v1 : Pt K, (A.lin v1).2 * (A.lin v0).1 - (A.lin v1).1 * (A.lin v0).2 =
      e * (v1.2 * v0.1 - v1.1 * v0.2) := by
    intro v0 v1
    have := h.cross v0 v1
    unfold vcross at this
    linear_combination this
  have hsq : ∀ x : K, (e * x) ^ 2 = x ^ 2 := by intro x; linear_combination x ^ 2 * h.sign_sq
  unfold robustJoin
  simp only [i0.call, i1.call, i0.grad, i1.grad, i0.h, i1.h, app_psub, h.norm, hd, hsq, one_pow, one_mul,
    lineCross_sim h, seek_image h, ← app_halfway A two_ne]
  generalize s0.grad t 1 arm = v0
  generalize s1.grad t 0 arm = v1
  by_cases hP : (v1.2 * v0.1 - v1.1 * v0.2) ^ 2 < 1 / 10 ^ 12 * normSq v0 * normSq v1 ∨
      normSq (psub (s1.call t 0 arm) (s0.call t 1 arm)) ≤ tol ^ 2
  · simp only [hP, if_true]
    split <;> rfl
  · simp only [hP, if_false]
    split <;> rfl

theorem robustPiece_image {t : Num K} {A : Aff K} {e : K} (h : Similar A 1 e) {s s' : Sub K}
    (hs : SubImage t A.app s s') (start : K) (arm : Int) (j : K × K × Pt K) :
    robustPiece t s' start arm (j.1, j.2.1, A.app j.2.2) =
      ((robustPiece t s start arm j).1.map A.app, (robustPiece t s start arm j).2) := by
  unfold robustPiece
  simp only [hs.points h]
  split
  · split
    · simp only [List.map_dropLast]
    · rfl
  · split
    · rfl
    · simp only [List.map_append, List.map_cons, List.map_nil]

theorem robustArm_image {t : Num K} {A : Aff K} {e : K} (h : Similar A 1 e) (tol : K) (maxEvals : Nat) (arm : Int)
    (l : List (Sub K)) (start : K) (s : Sub K) :
    robustArm t tol maxEvals arm start (s.moved A) (l.map (Sub.moved A)) =
      (robustArm t tol maxEvals arm start s l).map A.app := by
  induction l generalizing start s with
  | nil => exact (moved_image t A s).points h _ _ _
  | cons s1 l ih =>
    rw [List.map_cons, robustArm, robustArm, robustJoin_image h tol maxEvals (moved_image t A s) (moved_image t A s1),
      robustPiece_image h (moved_image t A s)]
    simp only
    rw [ih, List.map_append]

/-- A cap of the image under a motion that keeps the orientation, or of the image of a path without caps. -/
theorem robustCap_image {ctx : FlexCtx K} (ht : Num.Polar ctx.num) (hl : Num.Laws ctx.num) {A : Aff K} {e : K}
    (h : Similar A 1 e) (tol : K) (maxEvals : Nat) {fin : FlexEnd K} {s s' : Sub K} (hs : SubImage ctx.num A.app s s')
    {arm : Int} (harm : arm = 1 ∨ arm = -1)
    (hf : fin = .flush ∨ (e = 1 ∧ (StraightEnd fin ∨ (fin = .round ∧ s.grad ctx.num (if arm = 1 then 0 else 1) 0 ≠ (0, 0))))) :
    robustCap ctx tol maxEvals fin s' arm = (robustCap ctx tol maxEvals fin s arm).map (List.map A.app) := by
  rcases hf with rfl | ⟨rfl, hf⟩
  · rfl
  have hlin : ∀ u : K, A.lin (psmul (-(arm : K)) (s.grad ctx.num u 0)) = psmul (-(arm : K)) (A.lin (s.grad ctx.num u 0)) :=
    fun u => lin_psmul _ _ _
  have hst : ∀ d : K, ∀ r : K, ∀ p v : Pt K,
      [padd (padd (A.app p) (psmul d (psmul (1 / ctx.num.sqrt (normSq (A.lin v))) (A.lin v))))
          (psmul r ((psmul (1 / ctx.num.sqrt (normSq (A.lin v))) (A.lin v)).2 * 1,
            (psmul (1 / ctx.num.sqrt (normSq (A.lin v))) (A.lin v)).1 * -1)),
        psub (padd (A.app p) (psmul d (psmul (1 / ctx.num.sqrt (normSq (A.lin v))) (A.lin v))))
          (psmul r ((psmul (1 / ctx.num.sqrt (normSq (A.lin v))) (A.lin v)).2 * 1,
            (psmul (1 / ctx.num.sqrt (normSq (A.lin v))) (A.lin v)).1 * -1))] =
      [padd (padd p (psmul d (psmul (1 / ctx.num.sqrt (normSq v)) v)))
          (psmul r ((psmul (1 / ctx.num.sqrt (normSq v)) v).2 * 1, (psmul (1 / ctx.num.sqrt (normSq v)) v).1 * -1)),
        psub (padd p (psmul d (psmul (1 / ctx.num.sqrt (normSq v)) v)))
          (psmul r ((psmul (1 / ctx.num.sqrt (normSq v)) v).2 * 1, (psmul (1 / ctx.num.sqrt (normSq v)) v).1 * -1))].map
        A.app := by
    intro d r p v
    have h1 := straight_along ht h v d
    have h2 := straight_across ht h v r 1
    simp only [one_mul] at h1 h2
    rw [h1, h2]
    simp only [List.map_cons, List.map_nil, app_padd, app_psub_vec]
  rcases hf with hf | ⟨rfl, hv⟩
  · cases fin with
    | flush => rfl
    | extended =>
      unfold robustCap
      simp only [hs.call, hs.grad, hs.width ht h, ← hlin, one_mul]
      exact congrArg Except.ok (hst _ _ _ _)
    | pair a b =>
      unfold robustCap
      simp only [hs.call, hs.grad, hs.width ht h, ← hlin, one_mul]
      exact congrArg Except.ok (hst _ _ _ _)
    | round => exact absurd hf id
    | smooth => exact absurd hf id
    | fn f => exact absurd hf id
  · unfold robustCap
    simp only [hs.call, hs.grad, hs.width ht h, ← hlin, one_mul]
    generalize hvv : s.grad ctx.num (if arm = 1 then 0 else 1) 0 = v at hv
    generalize s.call ctx.num (if arm = 1 then 0 else 1) 0 = p
    generalize 1 / 2 * s.width ctx.num (if arm = 1 then 0 else 1) = r
    have hn : psmul (-(arm : K)) v ≠ (0, 0) := by
      rcases harm with rfl | rfl
      · intro h0
        apply hv
        unfold psmul at h0
        simp only [Int.cast_one, neg_mul, one_mul, Prod.mk.injEq, neg_eq_zero] at h0
        exact Prod.ext h0.1 h0.2
      · intro h0
        apply hv
        unfold psmul at h0
        simp only [Int.cast_neg, Int.cast_one, neg_neg, one_mul] at h0
        exact h0
    cases flexSteps ctx.num (2 * ctx.num.halfpi) tol r with
    | error e => rfl
    | ok n =>
      refine congrArg Except.ok ?_
      rw [List.map_map]
      refine List.map_congr_left fun a _ => ?_
      rw [circle_sim ht hl h hn, Function.comp_apply, app_padd, lin_psmul, one_mul]

/-- The spine of every path with round ends has a direction at its ends. -/
def Spec.HasEndDirections (t : Num K) (path : List (Sub K)) : Prop :=
  ∀ s l, path = s :: l → s.grad t 0 0 ≠ (0, 0) ∧ (l.getLastD s).grad t 1 0 ≠ (0, 0)

theorem robustOutline_image {ctx : FlexCtx K} (ht : Num.Polar ctx.num) (hl : Num.Laws ctx.num) {A : Aff K} {e : K}
    (h : Similar A 1 e) (tol : K) (maxEvals : Nat) {fin : FlexEnd K} {path : List (Sub K)}
    (hf : fin = .flush ∨ (e = 1 ∧ (StraightEnd fin ∨ (fin = .round ∧ HasEndDirections ctx.num path)))) :
    robustOutline ctx tol maxEvals fin (path.map (Sub.moved A)) =
      (robustOutline ctx tol maxEvals fin path).map (List.map A.app) := by
  cases path with
  | nil => rfl
  | cons s l =>
    have hlast : (l.map (Sub.moved A)).getLastD (s.moved A) = (l.getLastD s).moved A := by
      rw [List.getLastD_eq_getLast?, List.getLastD_eq_getLast?, List.getLast?_map]
      cases l.getLast? <;> rfl
    have c1 := robustCap_image ht hl h tol maxEvals (fin := fin) (moved_image ctx.num A (l.getLastD s)) (arm := -1)
      (.inr rfl) (hf.imp id (And.imp id (Or.imp id (And.imp id fun hd => (hd s l rfl).2))))
    have c0 := robustCap_image ht hl h tol maxEvals (fin := fin) (moved_image ctx.num A s) (arm := 1) (.inl rfl)
      (hf.imp id (And.imp id (Or.imp id (And.imp id fun hd => (hd s l rfl).1))))
    unfold robustOutline
    simp only [List.map_cons, hlast, robustArm_image h]
    rw [c1, c0]
    cases robustCap ctx tol maxEvals fin (l.getLastD s) (-1) with
    | error e => rfl
    | ok a =>
      cases robustCap ctx tol maxEvals fin s 1 with
      | error e => rfl
      | ok b =>
        refine congrArg Except.ok ?_
        simp only [List.map_append, List.map_reverse]

/-- The ends for which the outline is moved with the path; `e = -1` for a reflection. -/
def Spec.PlainEnds (t : Num K) (e : K) (r : Robust K) : Prop :=
  ∀ k ∈ List.zip r.paths r.ends,
    k.2 = .flush ∨ (e = 1 ∧ (StraightEnd k.2 ∨ (k.2 = .round ∧ HasEndDirections t k.1)))

/-- No polygon is cut: there is no limit, or all outlines are within it (and the loop that looks for polygons to cut is
given the two steps it needs). -/
def Spec.Whole (ctx : FlexCtx K) (r : Robust K) : Prop :=
  r.maxPoints ≤ 4 ∨
    (2 ≤ ctx.fuel ∧ ∀ k ∈ List.zip r.paths r.ends, ∀ p, robustOutline ctx r.tolerance r.maxEvals k.2 k.1 = .ok p →
      p.length ≤ r.maxPoints)

theorem pieces_image {ctx : FlexCtx K} {A : Aff K} {prec : K} {m : Nat} {o : Py (Pgon K)}
    (hm : m ≤ 4 ∨ (2 ≤ ctx.fuel ∧ ∀ p, o = .ok p → p.length ≤ m)) :
    (o.map (List.map A.app) >>= flexPieces ctx prec m) =
      (o >>= flexPieces ctx prec m).map (List.map (List.map A.app)) := by
  cases o with
  | error e => rfl
  | ok p =>
    simp only [Except.map, bind, Except.bind]
    rcases hm with hm | ⟨hc, hm⟩
    · rw [flexPieces_small _ _ hm, flexPieces_small _ _ hm]; rfl
    · have := hm p rfl
      rw [flexPieces_within hc _ this, flexPieces_within hc _ (by simpa using this)]; rfl

theorem addDict_mapElems (A : Aff K) (d : PolyDict K) (key : Int × Int) (l : List (Pgon K)) :
    addDict (mapElems A.app d) key (l.map (List.map A.app)) = mapElems A.app (addDict d key l) := by
  induction d with
  | nil => rfl
  | cons x d ih =>
    unfold mapElems at ih ⊢
    rw [List.map_cons, addDict, addDict]
    split
    · rw [List.map_cons]; simp
    · rw [List.map_cons, ← ih]

theorem robustPolys_moved {ctx : FlexCtx K} (ht : Num.Polar ctx.num) (hl : Num.Laws ctx.num) {A : Aff K} {e : K}
    (h : Similar A 1 e) {r r' : Robust K} (hr : MovedBy A r r') (l : List (List (Sub K) × FlexEnd K × Int × Int))
    (hp : ∀ k ∈ l, k.2.1 = .flush ∨ (e = 1 ∧ (StraightEnd k.2.1 ∨ (k.2.1 = .round ∧ HasEndDirections ctx.num k.1))))
    (hm : r.maxPoints ≤ 4 ∨ (2 ≤ ctx.fuel ∧ ∀ k ∈ l, ∀ p,
      robustOutline ctx r.tolerance r.maxEvals k.2.1 k.1 = .ok p → p.length ≤ r.maxPoints)) (d : PolyDict K) :
    forOut (Robust.pathPolys ctx r') (mapElems A.app d) (l.map fun k => (k.1.map (Sub.moved A), k.2)) =
      (mapElems A.app (forOut (Robust.pathPolys ctx r) d l).1, (forOut (Robust.pathPolys ctx r) d l).2) := by
  induction l generalizing d with
  | nil => rfl
  | cons k l ih =>
    have ho := robustOutline_image ht hl h r.tolerance r.maxEvals (hp k (by simp))
    have hpc := pieces_image (ctx := ctx) (A := A) (prec := r.precision) (m := r.maxPoints)
      (o := robustOutline ctx r.tolerance r.maxEvals k.2.1 k.1) (hm.imp id (And.imp id fun hm p => hm k (by simp) p))
    have hk : Robust.pathPolys ctx r' (mapElems A.app d) (k.1.map (Sub.moved A), k.2) =
        (mapElems A.app (Robust.pathPolys ctx r d k).1, (Robust.pathPolys ctx r d k).2) := by
      unfold Robust.pathPolys
      simp only [hr.tolerance, hr.maxEvals, hr.precision, hr.maxPoints, ho, hpc]
      cases (robustOutline ctx r.tolerance r.maxEvals k.2.1 k.1 >>= fun poly => flexPieces ctx r.precision r.maxPoints poly) with
      | error e => rfl
      | ok ps =>
        simp only [Except.map]
        rw [addDict_mapElems]
    rw [List.map_cons, forOut, forOut, hk]
    generalize Robust.pathPolys ctx r d k = y
    obtain ⟨d', er⟩ := y
    cases er with
    | some e => rfl
    | none => exact ih (fun k hk => hp k (by simp [hk])) (hm.imp id (And.imp id fun hm k hk => hm k (by simp [hk]))) d'

theorem getPolygons_movedBy {ctx : FlexCtx K} (ht : Num.Polar ctx.num) (hl : Num.Laws ctx.num) {A : Aff K} {e : K}
    (h : Similar A 1 e) {r r' : Robust K} (hr : MovedBy A r r') (hp : PlainEnds ctx.num e r) (hm : Whole ctx r)
    (hn : r.cache = none) (hn' : r'.cache = none) :
    (r'.getPolygons ctx).2 = (r.getPolygons ctx).2.map (mapElems A.app) := by
  have hz : ∀ k ∈ List.zip r.paths (List.zip r.ends (List.zip r.layers r.datatypes)),
      (k.1, k.2.1) ∈ List.zip r.paths r.ends := by
    intro k hk
    obtain ⟨i, hi, hk⟩ := List.mem_iff_getElem.1 hk
    simp only [List.getElem_zip] at hk
    simp only [List.length_zip, lt_inf_iff] at hi
    rw [← hk]
    refine List.mem_iff_getElem.2 ⟨i, by simp only [List.length_zip, lt_inf_iff]; omega, ?_⟩
    simp only [List.getElem_zip]
  have hc := robustPolys_moved ht hl h hr (List.zip r.paths (List.zip r.ends (List.zip r.layers r.datatypes)))
    (fun k hk => hp _ (hz k hk)) (hm.imp id (And.imp id fun hm k hk => hm _ (hz k hk))) []
  have hcomp : r'.compute ctx = (mapElems A.app (r.compute ctx).1, (r.compute ctx).2) := by
    unfold Robust.compute
    rw [← hc, hr.paths, hr.ends, hr.layers, hr.datatypes]
    congr 1
    rw [List.zip_map_left]
    rfl
  unfold Robust.getPolygons
  rw [hn, hn']
  simp only
  rw [hcomp]
  generalize r.compute ctx = y
  obtain ⟨d, er⟩ := y
  cases er <;> rfl

/-- Translated paths: position, curves, tangents, widths, polygons. -/
theorem C61_robust_translate_partial {ctx : FlexCtx K} (ht : Num.Polar ctx.num) (hl : Num.Laws ctx.num) (r : Robust K) (dx dy : K) :
    let g := r.translate dx dy
    g.x = (r.x.1 + dx, r.x.2 + dy) ∧
      (∀ u arm, g.call ctx.num u arm = (r.call ctx.num u arm).map (List.map fun p => (p.1 + dx, p.2 + dy))) ∧
      (∀ u arm minus, g.grad ctx.num u arm minus = r.grad ctx.num u arm minus) ∧
      (∀ u, g.width ctx.num u = r.width ctx.num u) ∧
      (PlainEnds ctx.num 1 r → Whole ctx r → r.cache = none →
        (g.getPolygons ctx).2 = (r.getPolygons ctx).2.map (mapElems fun p => (p.1 + dx, p.2 + dy))) := by
  have hA : Similar (Aff.shift (dx, dy)) (1 : K) 1 := .shift _
  have hm := movedBy_translate dx dy r
  have ha : (Aff.shift (dx, dy)).app = fun p : Pt K => (p.1 + dx, p.2 + dy) := by
    funext p; simp [Aff.app, Aff.shift]
  have hlin : (Aff.shift (dx, dy)).lin = (id : Pt K → Pt K) := by
    funext p; simp [Aff.lin, Aff.shift]
  refine ⟨rfl, fun u arm => by rw [call_moved _ hm, ha], fun u arm minus => ?_, fun u => ?_, fun hp hw hn => ?_⟩
  · rw [grad_moved _ hm, hlin, List.map_id_fun]
    cases r.grad ctx.num u arm minus <;> rfl
  · rw [width_moved ht hA hm]
    simp only [one_mul, List.map_id_fun']
    cases r.width ctx.num u <;> rfl
  · rw [getPolygons_movedBy ht hl hA hm hp hw hn rfl, ha]

/-- Rotated paths. -/
theorem C61_robust_rotate_partial {ctx : FlexCtx K} (ht : Num.Polar ctx.num) (hl : Num.Laws ctx.num) (r : Robust K) (angle : K)
    (center : Pt K) :
    let g := r.rotate ctx.num angle center
    let turn : Pt K → Pt K := fun p =>
      (center.1 + (p.1 - center.1) * ctx.num.cos angle - (p.2 - center.2) * ctx.num.sin angle,
       center.2 + (p.1 - center.1) * ctx.num.sin angle + (p.2 - center.2) * ctx.num.cos angle)
    g.x = turn r.x ∧
      (∀ u arm, g.call ctx.num u arm = (r.call ctx.num u arm).map (List.map turn)) ∧
      (∀ u arm minus, g.grad ctx.num u arm minus = (r.grad ctx.num u arm minus).map (List.map fun v =>
        (v.1 * ctx.num.cos angle - v.2 * ctx.num.sin angle, v.1 * ctx.num.sin angle + v.2 * ctx.num.cos angle))) ∧
      (∀ u, g.width ctx.num u = r.width ctx.num u) ∧
      (PlainEnds ctx.num 1 r → Whole ctx r → r.cache = none →
        (g.getPolygons ctx).2 = (r.getPolygons ctx).2.map (mapElems turn)) := by
  intro g turn
  have hm := movedBy_rotate ctx.num angle center r
  generalize hAe : ((Aff.shift center).comp (.rotate (ctx.num.cos angle) (ctx.num.sin angle))).comp
    (.shift (-center.1, -center.2)) = A at hm
  have hA : Similar A (1 : K) 1 := by
    have := ((Similar.shift center).comp (.rotate (hl.trig.pyth angle))).comp (.shift (-center.1, -center.2))
    rw [hAe] at this
    simpa using this
  have ha : A.app = turn := by
    funext p
    subst hAe
    simp only [Aff.app, Aff.comp, Aff.shift, Aff.rotate, turn]
    refine Prod.ext ?_ ?_ <;> simp only <;> ring
  have hlin : A.lin = fun v : Pt K =>
      (v.1 * ctx.num.cos angle - v.2 * ctx.num.sin angle, v.1 * ctx.num.sin angle + v.2 * ctx.num.cos angle) := by
    funext p
    subst hAe
    simp only [Aff.lin, Aff.comp, Aff.shift, Aff.rotate]
    refine Prod.ext ?_ ?_ <;> simp only <;> ring
  refine ⟨by rw [← ha]; exact hm.x, fun u arm => by rw [call_moved _ hm, ha], fun u arm minus => by rw [grad_moved _ hm, hlin],
    fun u => ?_, fun hp hw hn => ?_⟩
  · rw [width_moved ht hA hm]
    simp only [one_mul, List.map_id_fun']
    cases r.width ctx.num u <;> rfl
  · rw [getPolygons_movedBy ht hl hA hm hp hw hn rfl, ha]

/-- Scaled paths: the curves, tangents and widths. (The polygons are not the images: they are made with the same tolerance.) -/
theorem C61_robust_scale_partial {t : Num K} (ht : Num.Polar t) (r : Robust K) {s : K} (hs : 0 < s) (center : Pt K) :
    let g := r.scale s center
    let grow : Pt K → Pt K := fun p => (center.1 + s * (p.1 - center.1), center.2 + s * (p.2 - center.2))
    g.x = grow r.x ∧
      (∀ u arm, g.call t u arm = (r.call t u arm).map (List.map grow)) ∧
      (∀ u arm minus, g.grad t u arm minus = (r.grad t u arm minus).map (List.map (psmul s))) ∧
      (∀ u, g.width t u = (r.width t u).map (List.map (s * ·))) := by
  intro g grow
  have hm := movedBy_scale s center r
  generalize hAe : ((Aff.shift center).comp (.scale s)).comp (.shift (-center.1, -center.2)) = A at hm
  have hA : Similar A s 1 := by
    have := ((Similar.shift center).comp (.scale hs)).comp (.shift (-center.1, -center.2))
    rw [hAe] at this
    simpa using this
  have ha : A.app = grow := by
    funext p
    subst hAe
    simp only [Aff.app, Aff.comp, Aff.shift, Aff.scale, grow]
    refine Prod.ext ?_ ?_ <;> simp only <;> ring
  have hlin : A.lin = psmul s := by
    funext p
    subst hAe
    simp only [Aff.lin, Aff.comp, Aff.shift, Aff.scale, psmul]
    refine Prod.ext ?_ ?_ <;> simp only <;> ring
  exact ⟨by rw [← ha]; exact hm.x, fun u arm => by rw [call_moved _ hm, ha], fun u arm minus => by rw [grad_moved _ hm, hlin],
    fun u => width_moved ht hA hm u⟩

/-- `transform`: the path goes where a reference would put it, if `array_trans` and `scale` are not both given. Without
`scale` the polygons do, too; a reflected path needs flush ends. -/
theorem C61_robust_transform_partial {ctx : FlexCtx K} (ht : Num.Polar ctx.num) (hl : Num.Laws ctx.num) (r : Robust K)
    (translation : Option (Pt K)) (rotation scale : Option K) (xrefl : Bool) (arrayTrans : Option (Pt K))
    (hs : ∀ s, scale = some s → 0 < s) (ha : scale = none ∨ arrayTrans = none) :
    let g := r.transform ctx.num translation rotation scale xrefl arrayTrans
    let A := pathMap ctx.num translation rotation scale xrefl arrayTrans
    g.x = A.app r.x ∧
      (∀ u arm, g.call ctx.num u arm = (r.call ctx.num u arm).map (List.map A.app)) ∧
      (∀ u arm minus, g.grad ctx.num u arm minus = (r.grad ctx.num u arm minus).map (List.map A.lin)) ∧
      (∀ u, g.width ctx.num u = (r.width ctx.num u).map (List.map (scale.getD 1 * ·))) ∧
      (scale = none → PlainEnds ctx.num (if xrefl then -1 else 1) r → Whole ctx r → r.cache = none →
        (g.getPolygons ctx).2 = (r.getPolygons ctx).2.map (mapElems A.app)) := by
  intro g A
  have hm := movedBy_transform ctx.num translation rotation scale xrefl arrayTrans r
  have he : arrayTrans.map (psmul (scale.getD 1)) = arrayTrans := by
    rcases ha with rfl | rfl
    · cases arrayTrans with
      | none => rfl
      | some p => simp [psmul]
    · rfl
  rw [he] at hm
  have hA := pathMap_similar hl translation rotation scale xrefl arrayTrans hs
  refine ⟨hm.x, fun u arm => call_moved _ hm u arm, fun u arm minus => grad_moved _ hm u arm minus,
    fun u => width_moved ht hA hm u, fun h0 hp hw hn => ?_⟩
  subst h0
  refine getPolygons_movedBy ht hl hA hm hp hw hn ?_
  show (r.transform ctx.num translation rotation none xrefl arrayTrans).cache = none
  unfold Robust.transform
  cases translation <;> cases rotation <;> cases xrefl <;> cases arrayTrans <;> rfl

end Polygons

/-! ## Samples -/

/-- A line with a round end beside a flush line. -/
noncomputable def realLine : Sub ℝ :=
  ⟨funcLinearPt (0, 0) (10, 0), fun _ _ => (10, 0), fun _ => 0, fun _ => 2, 1 / 10000, 1 / 2000, 1000, Mat.eye⟩

noncomputable def realRobust : Robust ℝ :=
  { x := (10, 0)
    n := 2
    widths := [2, 1]
    offsets := [0, 3]
    paths := [[realLine], [{ realLine with off := fun _ => 3, wid := fun _ => 1 }]]
    ends := [.round, .flush]
    layers := [1, 2]
    datatypes := [0, 0]
    tolerance := 1 / 100
    precision := 1 / 1000
    maxPoints := 0
    maxEvals := 1000
    gdsiiPath := false
    widthTransform := true
    cache := none }

theorem realLine_dirs : HasEndDirections realNum [realLine] := by
  have hc : ∀ u, realLine.call realNum u 0 = (10 * u, 0) := by
    intro u
    unfold Sub.call Sub.raw Sub.mid Mat.app padd psmul realLine Mat.eye funcLinearPt
    refine Prod.ext ?_ ?_ <;> simp [mul_comm]
  intro s l h
  cases h
  unfold Sub.grad subGrad
  simp only [List.getLastD_nil, hc]
  constructor
  · unfold psmul psub realLine
    rw [max_eq_left (by norm_num), min_eq_right (by norm_num)]
    intro h
    have := congrArg Prod.fst h
    norm_num at this
  · unfold psmul psub realLine
    rw [max_eq_right (by norm_num), min_eq_left (by norm_num)]
    intro h
    have := congrArg Prod.fst h
    norm_num at this

/-- Non-vacuity of the theorems for motions. -/
example : ((realRobust.rotate realNum 1 (3, 4)).getPolygons realCtx).2 =
    (realRobust.getPolygons realCtx).2.map (mapElems fun p =>
      (3 + (p.1 - 3) * realNum.cos 1 - (p.2 - 4) * realNum.sin 1,
       4 + (p.1 - 3) * realNum.sin 1 + (p.2 - 4) * realNum.cos 1)) :=
  (C61_robust_rotate_partial (ctx := realCtx) realNum_polar realNum_laws realRobust 1 (3, 4)).2.2.2.2
    (by
      intro k hk
      simp only [realRobust, List.zip_cons_cons, List.zip_nil_right, List.mem_cons, List.not_mem_nil, or_false] at hk
      rcases hk with rfl | rfl
      · exact .inr ⟨rfl, .inr ⟨rfl, realLine_dirs⟩⟩
      · exact .inl rfl)
    (.inl (by decide)) rfl

/-- Non-vacuity for reflections. -/
example : PlainEnds realNum (if true then -1 else 1) { realRobust with ends := [.flush, .flush] } := by
  intro k hk
  simp only [realRobust, List.zip_cons_cons, List.zip_nil_right, List.mem_cons, List.not_mem_nil, or_false] at hk
  rcases hk with rfl | rfl <;> exact .inl rfl

/-- Numbers with the roots and angles that the samples need. -/
def capCtx : FlexCtx ℚ :=
  ⟨{ ratNum with
      sqrt := fun x => (([10, 5, 20, 2, 4, 1, 1 / 2] : List ℚ).find? fun y => y * y = x).getD 0
      atan2 := fun y x => if x = 0 ∧ 0 < y then 90 else 0 },
    fun _ _ _ _ => .error .unmodelled, fun _ _ _ _ => .ok [], 100⟩

/-- The point `path(u, arm)[0]` after the calls. -/
def robustPointAfter (ops : List (RobustOp ℚ)) (u : ℚ) (arm : Int) : Option (List (Pt ℚ)) :=
  ((tenRobust.after capCtx ops).call capCtx.num u arm).toOption

/-- The polygons after the calls, for a path with the given ends. -/
def cappedAfter (fin : FlexEnd ℚ) (ops : List (RobustOp ℚ)) : Option (List (Pgon ℚ)) :=
  ((({ tenRobust with ends := [fin] } : Robust ℚ).after capCtx ops).getPolygons capCtx).2.toOption.map PolyDict.all

/-- A reflected path with flush ends. -/
example : cappedAfter .flush [.segment (10, 5) .none .none false] ≠ none ∧
    cappedAfter .flush [.segment (10, 0) .none .none false, .transform (some (0, 5)) none none true none] =
      some [[(10, 4), (0, 4), (0, 6), (10, 6)]] := by
  decide +kernel

/-- **C61**, violated: with `scale`, the displacement `array_trans` is scaled, too. A reference array with spacing 3 and
magnification 2 puts the copy of the path at 3, `transform` puts it at 6. -/
theorem C61_robust_transform_array :
    robustPointAfter [.segment (10, 0) .none .none false, .transform none none (some 2) false (some (3, 0))] 0 0 =
      some [(6, 0)] ∧
    (pathMap ratNum none none (some 2) false (some (3, 0))).app (0, 0) = (3, 0) := by
  decide +kernel

/-- **C61**, violated: the extensions given as tuple are not scaled. -/
theorem C61_robust_scale_ends :
    cappedAfter (.pair 3 4) [.segment (10, 0) .none .none false] =
      some [[(14, -1), (14, 1), (10, 1), (0, 1), (-3, 1), (-3, -1), (0, -1), (10, -1)]] ∧
    cappedAfter (.pair 3 4) [.segment (10, 0) .none .none false, .scale 2 (0, 0)] =
      some [[(24, -2), (24, 2), (20, 2), (0, 2), (-3, 2), (-3, -2), (0, -2), (20, -2)]] := by
  decide +kernel

/-- **C61**, violated: the outline of a reflected path with extended ends crosses itself: the caps are not reversed with the
sides. -/
theorem C61_robust_reflect_caps :
    cappedAfter .extended [.segment (10, 0) .none .none false] =
      some [[(11, -1), (11, 1), (10, 1), (0, 1), (-1, 1), (-1, -1), (0, -1), (10, -1)]] ∧
    cappedAfter .extended [.segment (10, 0) .none .none false, .transform none none none true none] =
      some [[(11, -1), (11, 1), (10, -1), (0, -1), (-1, 1), (-1, -1), (0, 1), (10, 1)]] := by
  decide +kernel

/-- **C61**, violated: `x_reflection` leaves a negative current width, so a later segment with the same width as before
shrinks to zero in its middle and its sides cross. -/
theorem C61_robust_reflect_width :
    let ops : List (RobustOp ℚ) := [.segment (10, 0) .none .none false, .transform none none none true none,
      .segment (20, 0) (.num 2) .none false]
    robustPointAfter ops (3 / 2) 1 = some [(15, 0)] ∧ robustPointAfter ops (3 / 2) (-1) = some [(15, 0)] ∧
    robustPointAfter ops 2 1 = some [(20, -1)] ∧ robustPointAfter ops 2 (-1) = some [(20, 1)] := by
  decide +kernel

/-- **C61**, violated: `turn` starts in the direction that the last section had before it was transformed: a path that
leads up after a rotation turns left to the right side. -/
theorem C61_robust_rotate_turn :
    (tenRobust.after capCtx [.segment (10, 0) .none .none false, .rotate 90 (0, 0), .turn 5 .l .none .none]).x = (5, 15) ∧
    (tenRobust.after capCtx [.segment (10, 0) .none .none false, .turn 5 .l .none .none, .rotate 90 (0, 0)]).x =
      (-5, 15) := by
  decide +kernel

end Gdspy
