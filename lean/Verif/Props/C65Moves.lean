import Verif.Props.C65Curve
import Verif.Props.C42
import Verif.Props.C61

/-!
C65, third part: `Path.turn`, and the transformations of a path between construction calls.
-/

set_option linter.unusedSectionVars false

namespace Gdspy

open Spec

variable {K : Type} [Field K] [LinearOrder K] [IsStrictOrderedRing K]

section Turns

theorem cos_sub_half {t : Num K} (ht : Num.Laws t) (y : K) : t.cos (y - t.halfpi) = t.sin y ∧ t.sin (y - t.halfpi) = -t.cos y := by
  have h1 := ht.trig.add y (-t.halfpi)
  have h2 := ht.trig.neg t.halfpi
  rw [← sub_eq_add_neg] at h1
  rw [h1.1, h1.2, h2.1, h2.2, ht.cosHalf, ht.sinHalf]
  constructor <;> ring

theorem cos_add_half {t : Num K} (ht : Num.Laws t) (y : K) : t.cos (y + t.halfpi) = -t.sin y ∧ t.sin (y + t.halfpi) = t.cos y := by
  have h1 := ht.trig.add y t.halfpi
  rw [h1.1, h1.2, ht.cosHalf, ht.sinHalf]
  constructor <;> ring

theorem arcSide_left {t : Num K} (ht : Num.Laws t) (x y a r b w0 w1 d0 d1 : K) (hb : 0 ≤ b) (n ii : Nat) (s u : K) :
    arcSide t (x - r * t.cos (a + -t.halfpi), y - r * t.sin (a + -t.halfpi)) r (a + -t.halfpi) (a + (b - t.halfpi)) w0 w1 d0 d1 n ii s u =
      turnSide t ⟨(x, y), (t.cos a, t.sin a)⟩ r b w0 w1 d0 d1 n ii s u := by
  have h0 := cos_sub_half ht a
  have h1 := cos_sub_half ht (a + u * b)
  have h2 := ht.trig.add a (u * b)
  have e : mix (a + -t.halfpi) (a + (b - t.halfpi)) u = a + u * b - t.halfpi := by unfold mix; ring
  have e2 : r + lane n ii * mix d0 d1 u + s * mix w0 w1 u / 2 = r + (lane n ii * mix d0 d1 u + s * mix w0 w1 u / 2) := by ring
  unfold arcSide turnSide
  rw [if_pos hb, e, ← sub_eq_add_neg, h0.1, h0.2, h1.1, h1.2, h2.1, h2.2, e2]
  generalize lane n ii * mix d0 d1 u + s * mix w0 w1 u / 2 = X
  unfold Turtle.left Turtle.around Turtle.at Turtle.forward turnVec
  refine Prod.ext ?_ ?_ <;> simp only <;> ring

theorem arcSide_right {t : Num K} (ht : Num.Laws t) (x y a r b w0 w1 d0 d1 : K) (hb : b < 0) (n ii : Nat) (s u : K) :
    arcSide t (x - r * t.cos (a + t.halfpi), y - r * t.sin (a + t.halfpi)) r (a + t.halfpi) (a + (t.halfpi + b)) w0 w1 d0 d1 n ii s u =
      turnSide t ⟨(x, y), (t.cos a, t.sin a)⟩ r b w0 w1 d0 d1 n ii s u := by
  have h0 := cos_add_half ht a
  have h1 := cos_add_half ht (a + -(u * -b))
  have h2 := ht.trig.add a (-(u * -b))
  have h3 := ht.trig.neg (u * -b)
  have e : mix (a + t.halfpi) (a + (t.halfpi + b)) u = a + -(u * -b) + t.halfpi := by unfold mix; ring
  have e2 : r + lane n ii * mix d0 d1 u + s * mix w0 w1 u / 2 = r + (lane n ii * mix d0 d1 u + s * mix w0 w1 u / 2) := by ring
  unfold arcSide turnSide
  rw [if_neg (not_le.2 hb), e, h0.1, h0.2, h1.1, h1.2, h2.1, h2.2, h3.1, h3.2, e2]
  generalize lane n ii * mix d0 d1 u + s * mix w0 w1 u / 2 = X
  unfold Turtle.right Turtle.around Turtle.at Turtle.forward turnVec
  refine Prod.ext ?_ ?_ <;> simp only <;> ring

variable [FloorRing K]

/-- **C65**, turns: the polygons are outlines of the band that follows the turn. -/
theorem C65_turn {t : Num K} (ht : Num.Laws t) (r : K) (angle : TurnArg K) (tol : K) (N : Option Nat) (mp : Nat)
    (fw fd : Option K) (layer datatype : LayerArg) (p q : PPath K)
    (h : p.turn t r angle tol N mp fw fd layer datatype = (q, none)) :
    let w := fw.getD (widthOf p)
    let d := fd.getD p.distance
    widthOf q = w ∧ q.distance = d ∧
    (widthOf p = 0 ∧ w = 0 → q.polygons = p.polygons) ∧
    (¬ (widthOf p = 0 ∧ w = 0) → ∃ rounds : List (List (Pgon K)), 0 < rounds.length ∧
      q.polygons = p.polygons ++ rounds.flatten ∧ ∀ (jj : Nat) (round : List (Pgon K)), rounds[jj]? = some round → round.length = p.n ∧
        ∀ ii P, round[ii]? = some P → 4 ≤ P.length →
          OutlineOf (turnSide t (turtleOf t p) r (turnAngle t angle) (widthOf p) w p.distance d p.n ii) ((jj : K) / rounds.length)
            (((jj : K) + 1) / rounds.length) P) := by
  intro w d
  unfold PPath.turn at h
  simp only at h
  split at h
  · simp at h
  · rename_i q' hq'
    have := C65_arc t r _ _ tol N mp fw fd layer datatype _ q' hq'
    simp only at this
    have hq : widthOf q = widthOf q' ∧ q.distance = q'.distance ∧ q.polygons = q'.polygons := by
      simp only [Prod.mk.injEq, and_true] at h
      rw [← h]
      split <;> exact ⟨rfl, rfl, rfl⟩
    rw [hq.1, hq.2.1, hq.2.2]
    obtain ⟨g1, g2, g3, g4⟩ := this
    refine ⟨g1, g2, g3, ?_⟩
    intro hc
    obtain ⟨rounds, r1, r2, r3⟩ := g4 hc
    refine ⟨rounds, r1, r2, ?_⟩
    intro jj round hround
    refine ⟨(r3 jj round hround).1, ?_⟩
    intro ii P hP h4
    have hout := (r3 jj round hround).2 ii P hP h4
    have hm : turtleOf t p = ⟨(p.x, p.y), (t.cos (p.direction.angle t), t.sin (p.direction.angle t))⟩ := by
      rw [turtleOf, Dir.vec_angle ht]
    rw [hm]
    generalize p.direction.angle t = a at hout ⊢
    have key : arcSide t (p.x - r * t.cos (a + (angle.deltas t).1), p.y - r * t.sin (a + (angle.deltas t).1)) r
        (a + (angle.deltas t).1) (a + (angle.deltas t).2.1) (widthOf p) w p.distance d p.n ii =
        turnSide t ⟨(p.x, p.y), (t.cos a, t.sin a)⟩ r (turnAngle t angle) (widthOf p) w p.distance d p.n ii := by
      funext s u
      have hp := ht.pos
      cases angle with
      | l =>
        have := arcSide_left ht p.x p.y a r t.halfpi (widthOf p) w p.distance d hp.le p.n ii s u
        rw [show t.halfpi - t.halfpi = 0 by ring] at this
        exact this
      | ll =>
        have := arcSide_left ht p.x p.y a r (2 * t.halfpi) (widthOf p) w p.distance d (by linarith) p.n ii s u
        rw [show 2 * t.halfpi - t.halfpi = t.halfpi by ring] at this
        exact this
      | r =>
        have := arcSide_right ht p.x p.y a r (-t.halfpi) (widthOf p) w p.distance d (by linarith) p.n ii s u
        rw [show t.halfpi + -t.halfpi = 0 by ring] at this
        exact this
      | rr =>
        have := arcSide_right ht p.x p.y a r (-(2 * t.halfpi)) (widthOf p) w p.distance d (by linarith) p.n ii s u
        rw [show t.halfpi + -(2 * t.halfpi) = -t.halfpi by ring] at this
        exact this
      | num b =>
        simp only [TurnArg.deltas, turnAngle]
        by_cases hb : b < 0
        · simp only [hb, if_true]
          exact arcSide_right ht p.x p.y a r b (widthOf p) w p.distance d hb p.n ii s u
        · simp only [hb, if_false]
          have := arcSide_left ht p.x p.y a r b (widthOf p) w p.distance d (not_lt.1 hb) p.n ii s u
          rw [show b - t.halfpi = -t.halfpi + b by ring] at this
          exact this
    rw [← key]
    exact hout

omit [FloorRing K] in
theorem left_zero {t : Num K} (ht : Num.Laws t) (m : Turtle K) (r : K) : m.left t r 0 = m ∧ m.right t r 0 = m := by
  have hz := ht.trig.zero
  unfold Turtle.left Turtle.right Turtle.around turnVec
  rw [hz.1, hz.2]
  constructor <;>
  · obtain ⟨⟨a, b⟩, ⟨c, d⟩⟩ := m
    simp

omit [FloorRing K] in
theorem segSide_in_band (m : Turtle K) (l o w0 w1 d0 d1 : K) (h0 : 0 ≤ w0) (h1 : 0 ≤ w1) (n ii : Nat) (s : K) (hs : |s| ≤ 1) :
    SegmentBand m l o w0 w1 d0 d1 n ii (segSide m w0 d0 n ii s) ∧
    SegmentBand m l o w0 w1 d0 d1 n ii (segSide (m.forward l o) w1 d1 n ii s) := by
  have key : ∀ w : K, 0 ≤ w → |s * w / 2| ≤ w / 2 := by
    intro w hw
    rw [mul_div_assoc, abs_mul, abs_of_nonneg (by linarith : 0 ≤ w / 2)]
    nlinarith
  refine ⟨⟨0, lane n ii * d0 + s * w0 / 2, le_refl _, zero_le_one, ?_, ?_⟩,
    ⟨1, lane n ii * d1 + s * w1 / 2, zero_le_one, le_refl _, ?_, ?_⟩⟩
  · have := key w0 h0
    simp only [mix]
    simpa using this
  · unfold segSide; simp
  · have := key w1 h1
    simp only [mix]
    simpa using this
  · unfold segSide Turtle.at Turtle.forward
    refine Prod.ext ?_ ?_ <;> simp only <;> ring

omit [FloorRing K] in
/-- **C65**, joins: a turn to the left begins and ends with the sides of the segments before and after it, path by path; a
turn to the right begins and ends with them in the opposite order: it joins path `ii` of the segment to path `n - 1 - ii`
of the turn. -/
theorem C65_turn_joins {t : Num K} (ht : Num.Laws t) (m : Turtle K) (r a w0 w1 d0 d1 : K) (n ii : Nat) (hi : ii < n) (s : K) :
    (0 ≤ a → turnSide t m r a w0 w1 d0 d1 n ii s 0 = segSide m w0 d0 n ii s ∧
      turnSide t m r a w0 w1 d0 d1 n ii s 1 = segSide (m.left t r a) w1 d1 n ii s) ∧
    (a < 0 → turnSide t m r a w0 w1 d0 d1 n ii s 0 = segSide m w0 d0 n (n - 1 - ii) (-s) ∧
      turnSide t m r a w0 w1 d0 d1 n ii s 1 = segSide (m.right t r (-a)) w1 d1 n (n - 1 - ii) (-s)) := by
  have hz := left_zero ht m r
  have hl : (lane n (n - 1 - ii) : K) = -lane n ii := by
    unfold lane
    rw [show n - 1 - ii = n - (1 + ii) by omega, Nat.cast_sub (by omega)]
    push_cast
    ring
  constructor
  · intro ha
    unfold turnSide segSide
    simp only [if_pos ha, zero_mul, one_mul, hz.1]
    constructor <;> congr 1 <;> unfold mix <;> ring
  · intro ha
    unfold turnSide segSide
    simp only [if_neg (not_le.2 ha), zero_mul, one_mul, hz.2, hl]
    constructor <;> congr 1 <;> unfold mix <;> ring

omit [FloorRing K] in
/-- **C65**, joins: a curve drawn by `parametric`, `bezier` or `smooth` has the paths in the opposite order, too. -/
theorem C65_curve_joins {t : Num K} (F slp : K → Pt K) (width dist : K → K) (n ii : Nat) (hi : ii < n) (s u : K)
    (d : Dir K) (ht : Trig.Laws t.toTrig) (ht' : Num.Polar t) (r : K) (hr : 0 < r)
    (hd : slp u = (r * (d.vec t).1, r * (d.vec t).2)) :
    curveSide F (fun u => toLeft t (slp u)) width dist n ii s u =
      segSide ⟨F u, d.vec t⟩ (width u) (dist u) n (n - 1 - ii) (-s) := by
  have hl : (lane n (n - 1 - ii) : K) = -lane n ii := by
    unfold lane
    rw [show n - 1 - ii = n - (1 + ii) by omega, Nat.cast_sub (by omega)]
    push_cast
    ring
  have hu := Dir.vec_unit ht d
  have hsq := ht'.sqrtSq (r ^ 2) (by positivity)
  have hnn := ht'.sqrtNonneg (r ^ 2)
  have hs : t.sqrt (r ^ 2) = r := by nlinarith
  unfold curveSide segSide toLeft
  simp only [hd, hl]
  have e : (r * (d.vec t).1) ^ 2 + (r * (d.vec t).2) ^ 2 = r ^ 2 := by
    linear_combination r ^ 2 * hu
  rw [e, hs]
  unfold Turtle.at Turtle.forward
  refine Prod.ext ?_ ?_
  · simp only; field_simp; ring
  · simp only; field_simp; ring

end Turns

section Transforms

theorem dictAngle_vec {t : Num K} (ht : Num.Laws t) (d : Dir K) :
    d.vec t = (t.cos (d.dictAngle t), t.sin (d.dictAngle t)) := by
  have h0 := ht.trig.zero
  have hn := ht.trig.neg t.halfpi
  have ha := ht.trig.add t.halfpi t.halfpi
  have hc := ht.cosHalf
  have hs := ht.sinHalf
  cases d with
  | px => simp [Dir.vec, Dir.dictAngle, h0]
  | mx =>
    simp only [Dir.vec, Dir.dictAngle]
    rw [show 1 * (2 * t.halfpi) = t.halfpi + t.halfpi by ring, ha.1, ha.2, hc, hs]
    simp
  | py =>
    simp only [Dir.vec, Dir.dictAngle]
    rw [show 1 / 2 * (2 * t.halfpi) = t.halfpi by ring, hc, hs]
  | my =>
    simp only [Dir.vec, Dir.dictAngle]
    rw [show -(1 / 2) * (2 * t.halfpi) = -t.halfpi by ring, hn.1, hn.2, hc, hs]
  | num a => rfl

/-- **C65.** `translate` moves the path and everything drawn later. -/
theorem C65_translate (t : Num K) (dx dy : K) (p : PPath K) :
    PathMoved t (Aff.shift (dx, dy)).app 1 1 p (p.translate dx dy) ∧ (p.translate dx dy).distance = p.distance ∧
      (p.translate dx dy).length = p.length := by
  refine ⟨⟨?_, ⟨rfl, rfl⟩, rfl, ?_, ?_⟩, rfl, rfl⟩
  · unfold PPath.translate
    simp [Aff.app, Aff.shift]
  · unfold widthOf PPath.translate; ring
  · intro l o
    unfold Turtle.at Turtle.forward turtleOf PPath.translate Aff.shift Aff.app
    refine Prod.ext ?_ ?_ <;> simp only <;> ring

/-- **C65.** `rotate` turns the path and everything drawn later. -/
theorem C65_rotate {t : Num K} (ht : Num.Laws t) (angle : K) (c : Pt K) (p : PPath K) :
    PathMoved t ((Aff.rotate (t.cos angle) (t.sin angle)).about c).app 1 1 p (p.rotate t angle c) ∧
      (p.rotate t angle c).distance = p.distance ∧ (p.rotate t angle c).length = p.length := by
  have hg : ∀ v : Pt K, spinPt (t.cos angle) (t.sin angle) c v = ((Aff.rotate (t.cos angle) (t.sin angle)).about c).app v := by
    intro v
    simp only [spinPt, Aff.app, Aff.about, Aff.comp, Aff.shift, Aff.rotate]
    ext <;> ring
  refine ⟨⟨?_, ⟨rfl, rfl⟩, rfl, ?_, ?_⟩, rfl, rfl⟩
  · unfold PPath.rotate
    simp only [funext hg]
  · unfold widthOf PPath.rotate; ring
  · intro l o
    rw [← hg]
    have hv := dictAngle_vec ht p.direction
    have ha := ht.trig.add (p.direction.dictAngle t) angle
    have hv' : (Dir.num (p.direction.dictAngle t + angle)).vec t = (t.cos (p.direction.dictAngle t + angle), t.sin (p.direction.dictAngle t + angle)) := rfl
    unfold Turtle.at Turtle.forward turtleOf PPath.rotate
    simp only [hv', hv, ha.1, ha.2]
    unfold spinPt
    refine Prod.ext ?_ ?_ <;> simp only <;> ring

/-- **C65.** `scale` with one factor: so are the polygons, the end point and the width. (The distance between parallel
paths is not: see `C65_scale_keeps_distance`.) -/
theorem C65_scale_partial (t : Num K) (s : K) (c : Pt K) (p : PPath K) :
    PathMoved t ((⟨s, 0, 0, s, 0, 0⟩ : Aff K).about c).app s 1 p (p.scale s none c) := by
  have hg : ∀ v : Pt K, scaleAbout s none c v = ((⟨s, 0, 0, s, 0, 0⟩ : Aff K).about c).app v := by
    intro v
    simp only [scaleAbout, Aff.app, Aff.about, Aff.comp, Aff.shift]
    ext <;> ring
  refine ⟨?_, ⟨rfl, rfl⟩, rfl, ?_, ?_⟩
  · unfold PPath.scale
    simp only [funext hg]
  · unfold widthOf PPath.scale
    simp only
    ring
  · intro l o
    rw [← hg]
    unfold Turtle.at Turtle.forward turtleOf PPath.scale scaleAbout
    refine Prod.ext ?_ ?_ <;> simp only [Option.getD_none] <;> ring

/-- **C65.** `mirror` reflects the path; what is drawn later is reflected in so far as the path has one lane only (the
order of parallel paths is not exchanged: see `C65_mirror_keeps_order`). -/
theorem C65_mirror {t : Num K} (ht : Num.Laws t) (ht' : Num.Polar t) (p1 p2 : Pt K) (h12 : p1 ≠ p2) (p : PPath K) :
    ∃ g : Pt K → Pt K, (∀ v v', IsMirror p1 p2 v v' ↔ v' = g v) ∧ PathMoved t g 1 (-1) p (p.mirror t p1 p2) ∧
      (p.mirror t p1 p2).length = p.length := by
  refine ⟨mirrorPt p1 p2, mirrorPt_isMirror p1 p2 h12, ⟨rfl, ⟨rfl, rfl⟩, rfl, ?_, ?_⟩, rfl⟩
  · unfold widthOf PPath.mirror; ring
  · intro l o
    obtain ⟨s, hs, hm⟩ := mirrorPt_eq h12
    have key : (p.mirror t p1 p2).direction.vec t =
        (s * ((p.direction.vec t).1 * (p2.1 - p1.1) + (p.direction.vec t).2 * (p2.2 - p1.2)) * (p2.1 - p1.1) - (p.direction.vec t).1,
         s * ((p.direction.vec t).1 * (p2.1 - p1.1) + (p.direction.vec t).2 * (p2.2 - p1.2)) * (p2.2 - p1.2) - (p.direction.vec t).2) := by
      rw [dictAngle_vec ht p.direction]
      unfold PPath.mirror
      simp only [Dir.vec]
      have hc := ht'.cos (p2.1 - p1.1) (p2.2 - p1.2)
      have hsn := ht'.sin (p2.1 - p1.1) (p2.2 - p1.2)
      have hsq := ht'.sqrtSq ((p2.1 - p1.1) ^ 2 + (p2.2 - p1.2) ^ 2) (by positivity)
      generalize t.sqrt ((p2.1 - p1.1) ^ 2 + (p2.2 - p1.2) ^ 2) = r at hc hsn hsq
      generalize t.atan2 (p2.2 - p1.2) (p2.1 - p1.1) = φ at hc hsn ⊢
      generalize p.direction.dictAngle t = a
      have h2 := ht.trig.add φ φ
      have h3 := ht.trig.add (φ + φ) (-a)
      have h4 := ht.trig.neg a
      have h5 := ht.trig.pyth φ
      rw [show φ + φ + -a = 2 * φ - a by ring, h2.1, h2.2, h4.1, h4.2] at h3
      rw [h3.1, h3.2]
      have hr : s * r ^ 2 = 2 := by rw [hsq, ← hs]; ring
      rw [← hc, ← hsn]
      generalize t.cos φ = c at *
      generalize t.sin φ = n at *
      generalize t.cos a = x at *
      generalize t.sin a = y at *
      ext
      · simp only
        linear_combination (-(x * c + y * n) * c) * hr - x * h5
      · simp only
        linear_combination (-(x * c + y * n) * n) * hr - y * h5
    unfold Turtle.at Turtle.forward turtleOf
    simp only
    rw [key, hm]
    have hx : ((p.mirror t p1 p2).x, (p.mirror t p1 p2).y) = mirrorPt p1 p2 (p.x, p.y) := rfl
    rw [hm] at hx
    rw [Prod.ext_iff] at hx
    obtain ⟨hx1, hx2⟩ := hx
    simp only at hx1 hx2
    rw [hx1, hx2]
    generalize p2.1 - p1.1 = u at *
    generalize p2.2 - p1.2 = v at *
    generalize (p.direction.vec t).1 = x
    generalize (p.direction.vec t).2 = y
    refine Prod.ext ?_ ?_
    · simp only
      linear_combination (-o * y) * hs
    · simp only
      linear_combination (o * x) * hs

/-- The band ahead of a transformed path is the transformed band. -/
theorem moved_band {t : Num K} {g : Pt K → Pt K} {k sgn : K} (hk : 0 < k) (hs : sgn ^ 2 = 1) {p p' : PPath K}
    (h : PathMoved t g k sgn p p') (l o w0 w1 d0 d1 : K) (n ii : Nat) (y : Pt K) :
    SegmentBand (turtleOf t p') (k * l) (sgn * k * o) (k * w0) (k * w1) (sgn * k * d0) (sgn * k * d1) n ii y ↔
      ∃ x, SegmentBand (turtleOf t p) l o w0 w1 d0 d1 n ii x ∧ y = g x := by
  have habs : |sgn| = 1 := by
    rw [← abs_one]; exact (sq_eq_sq_iff_abs_eq_abs _ _).1 (by rw [hs, one_pow])
  have hmix : ∀ a b c u : K, mix (c * a) (c * b) u = c * mix a b u := by intro a b c u; unfold mix; ring
  have hscale : ∀ x a w : K, |sgn * k * x - a * (sgn * k * w)| = k * |x - a * w| := by
    intro x a w
    rw [show sgn * k * x - a * (sgn * k * w) = sgn * (k * (x - a * w)) by ring, abs_mul, habs, one_mul, abs_mul, abs_of_pos hk]
  constructor
  · rintro ⟨u, s, h0, h1, h2, rfl⟩
    refine ⟨(turtleOf t p).at (u * l) (u * o + sgn * s / k), ⟨u, sgn * s / k, h0, h1, ?_, rfl⟩, ?_⟩
    · rw [hmix, hmix] at h2
      have e : s = sgn * k * (sgn * s / k) := by
        field_simp
        linear_combination -s * hs
      rw [e, hscale] at h2
      have : k * |sgn * s / k - lane n ii * mix d0 d1 u| ≤ k * (mix w0 w1 u / 2) := by linarith
      exact le_of_mul_le_mul_left this hk
    · rw [← h.ahead]
      congr 1
      · ring
      · field_simp
        linear_combination -s * hs
  · rintro ⟨x, ⟨u, s, h0, h1, h2, rfl⟩, rfl⟩
    refine ⟨u, sgn * k * s, h0, h1, ?_, ?_⟩
    · rw [hmix, hmix, hscale]
      have := mul_le_mul_of_nonneg_left h2 hk.le
      linarith
    · rw [← h.ahead]
      congr 1 <;> ring

/-- **C65**, drawing after a transformation: a segment drawn by the transformed path, with transformed arguments, covers
the image of what the original path would have covered, if the distance between paths was transformed, too (with the
opposite sign for a reflection). -/
theorem C65_moved_segment {t : Num K} (ht : Trig.Laws t.toTrig) {g : Pt K → Pt K} {k sgn : K} (hk : 0 < k) (hs : sgn ^ 2 = 1)
    {p p' : PPath K} (h : PathMoved t g k sgn p p') (hd : p'.distance = sgn * k * p.distance) (length : K) (fw fd : Option K)
    (off : K) (layer datatype : LayerArg) (q q' : PPath K) (hp : 0 ≤ widthOf p) (hf : ∀ w, fw = some w → 0 ≤ w)
    (hn : ¬ (widthOf p = 0 ∧ fw.getD (widthOf p) = 0))
    (hq : p.segment t length none fw fd off layer datatype = (q, none))
    (hq' : p'.segment t (k * length) none (fw.map (k * ·)) (fd.map (sgn * k * ·)) (sgn * k * off) layer datatype = (q', none)) :
    ∃ new new', q.polygons = p.polygons ++ new ∧ q'.polygons = p.polygons.map (List.map g) ++ new' ∧ new.length = p.n ∧
      new'.length = p.n ∧ widthOf q' = k * widthOf q ∧ q'.distance = sgn * k * q.distance ∧ (q'.x, q'.y) = g (q.x, q.y) ∧
      ∀ (ii : Nat) (P P' : Pgon K), new[ii]? = some P → new'[ii]? = some P' → ∀ y, Hull P' y ↔ ∃ x, Hull P x ∧ y = g x := by
  have hw' : (fw.map (k * ·)).getD (widthOf p') = k * fw.getD (widthOf p) := by
    cases fw with
    | none => exact h.width
    | some w => rfl
  have hd' : (fd.map (sgn * k * ·)).getD p'.distance = sgn * k * fd.getD p.distance := by
    cases fd with
    | none => exact hd
    | some w => rfl
  obtain ⟨a1, a2, a3, -, a5⟩ := C65_segment ht length none fw fd off layer datatype p q hp hf hq
  obtain ⟨b1, b2, b3, -, b5⟩ := C65_segment ht (k * length) none (fw.map (k * ·)) (fd.map (sgn * k * ·)) (sgn * k * off)
    layer datatype p' q' (by rw [h.width]; positivity) (by
      intro w hw
      cases fw with
      | none => cases hw
      | some v =>
        have := hf v rfl
        cases hw
        simp only
        positivity) hq'
  simp only [Option.getD_none] at a3 a5 b3 b5
  have face : ∀ p : PPath K, (turtleOf t p).face (p.direction.vec t) = turtleOf t p := fun p => rfl
  rw [face] at a3 a5 b3 b5
  rw [hw'] at b1 b5
  rw [hd'] at b2 b5
  obtain ⟨new, n1, n2, n3⟩ := a5 hn
  obtain ⟨new', m1, m2, m3⟩ := b5 (by
    rintro ⟨c1, c2⟩
    rw [h.width] at c1
    exact hn ⟨(mul_eq_zero.1 c1).resolve_left hk.ne', (mul_eq_zero.1 c2).resolve_left hk.ne'⟩)
  refine ⟨new, new', n1, by rw [m1, h.polygons], n2, by rw [m2, h.paths], by rw [b1, a1], by rw [b2, a2], ?_, ?_⟩
  · rw [b3, a3, h.ahead]
  · intro ii P P' hP hP' y
    rw [(m3 ii P' hP').1 y, h.width, hd, h.paths, moved_band hk hs h]
    constructor
    · rintro ⟨x, hx, rfl⟩
      exact ⟨x, ((n3 ii P hP).1 x).2 hx, rfl⟩
    · rintro ⟨x, hx, rfl⟩
      exact ⟨x, ((n3 ii P hP).1 x).1 hx, rfl⟩

end Transforms

section Limits

/-- Two parallel paths of width 2, at distance 10 of each other. -/
def twoLanes : PPath ℚ := PPath.new 2 (0, 0) 2 10

/-- A segment with layers 1 and 2. -/
def laneSegment (l : ℚ) (p : PPath ℚ) : Out (PPath ℚ) := p.segment ratNum l none none none 0 (.list [1, 2]) (.one 0)

/-- The polygons with layer 1. -/
def onLayerOne (p : PPath ℚ) : List (Pgon ℚ) :=
  ((p.polygons.zip p.layers).filter fun x => x.2 == 1).map Prod.fst

/-- **C65**, violated: after a segment with layers [1, 2] (layer 1 on the left, at y from 4 to 6), a turn to the right with
the same layers draws layer 1 on the right, from y = -4 and -6; only the polygons with layer 2 touch the end of the segment's
polygon with layer 1. -/
theorem C65_right_turn_swaps_layers :
    let p := laneSegment 10 twoLanes
    let q := p.1.turn ratNum 20 .r (1 / 100) (some 4) 199 none none (.list [1, 2]) (.one 0)
    p.2 = none ∧ q.2 = none ∧
      onLayerOne q.1 = [[(0, 6), (0, 4), (10, 4), (10, 6)], [(10, -4), (26, -20), (24, -20), (10, -6)]] := by
  decide +kernel

/-- ... and so does a curve (here a straight one) drawn by `parametric`. -/
theorem C65_curve_swaps_layers :
    let p := laneSegment 10 twoLanes
    let q := p.1.parametric ratNum 100 (fun u => (10 * u, 0)) (some fun _ => (1, 0)) (1 / 100) 2 199 .none .none true
      (.list [1, 2]) (.one 0)
    p.2 = none ∧ q.2 = none ∧
      onLayerOne q.1 = [[(0, 6), (0, 4), (10, 4), (10, 6)], [(10, -4), (20, -4), (20, -6), (10, -6)]] := by
  decide +kernel

/-- **C65**, violated: `scale` leaves the distance between parallel paths (and the length) as it was, so that drawing and
scaling do not commute. -/
theorem C65_scale_keeps_distance :
    (∀ (s : ℚ) (sy : Option ℚ) (c : Pt ℚ) (p : PPath ℚ), (p.scale s sy c).distance = p.distance ∧ (p.scale s sy c).length = p.length) ∧
    let a := (laneSegment 10 twoLanes).1.scale 2 none (0, 0)
    let b := laneSegment 20 (twoLanes.scale 2 none (0, 0))
    a.polygons = [[(0, 12), (0, 8), (20, 8), (20, 12)], [(0, -8), (0, -12), (20, -12), (20, -8)]] ∧
      b.1.polygons = [[(0, 7), (0, 3), (20, 3), (20, 7)], [(0, -3), (0, -7), (20, -7), (20, -3)]] :=
  ⟨fun _ _ _ _ => ⟨rfl, rfl⟩, by decide +kernel⟩

/-- **C65**, violated: with two factors the width is multiplied by the first one, also where it extends along y. -/
theorem C65_scale_two_factors :
    let a := ((PPath.new (2 : ℚ) (0, 0) 1 0).segment ratNum 10 none none none 0 (.one 1) (.one 0)).1.scale 1 (some 3) (0, 0)
    let b := ((PPath.new (2 : ℚ) (0, 0) 1 0).scale 1 (some 3) (0, 0)).segment ratNum 10 none none none 0 (.one 1) (.one 0)
    a.polygons = [[(0, 3), (0, -3), (10, -3), (10, 3)]] ∧ b.1.polygons = [[(0, 1), (0, -1), (10, -1), (10, 1)]] := by
  decide +kernel

/-- **C65**, violated: `mirror` reflects what was drawn but keeps the order of parallel paths for what comes. -/
theorem C65_mirror_keeps_order :
    onLayerOne ((laneSegment 10 twoLanes).1.mirror ratNum (0, 0) (1, 0)) = [[(0, -6), (0, -4), (10, -4), (10, -6)]] ∧
      onLayerOne (laneSegment 10 (twoLanes.mirror ratNum (0, 0) (1, 0))).1 = [[(0, 6), (0, 4), (10, 4), (10, 6)]] := by
  decide +kernel

end Limits

section Examples

/-- Over the reals: two parallel paths of width 2, at distance 10. -/
noncomputable def realLanes : PPath ℝ := PPath.new 2 (0, 0) 2 10

/-- The hypotheses of C65_segment. -/
example : (realLanes.segment realNum 10 none (some 4) none 1 (.one 1) (.one 0)).2 = none ∧ 0 ≤ widthOf realLanes ∧
    (∀ w : ℝ, some 4 = some w → 0 ≤ w) ∧ Trig.Laws realNum.toTrig := by
  refine ⟨?_, ?_, ?_, realNum_laws.trig⟩
  · unfold PPath.segment
    simp only
    split
    · rfl
    · rfl
  · unfold widthOf realLanes PPath.new; norm_num
  · intro w hw
    cases hw
    norm_num

/-- Calls that return, as in C65_arc, C65_turn, C65_parametric, C65_bezier and C65_smooth. -/
example : (twoLanes.arc ratNum 20 0 90 (1 / 100) (some 8) 4 none none (.one 1) (.one 0)).2 = none ∧
    (twoLanes.turn ratNum 20 .l (1 / 100) (some 8) 4 none none (.one 1) (.one 0)).2 = none ∧
    (twoLanes.parametric ratNum 100 (fun u => (10 * u, 0)) none (1 / 100) 3 199 (.num 4) .none true (.one 1) (.one 0)).2 = none ∧
    (twoLanes.bezier ratNum 100 [(5, 0), (10, 0)] (1 / 100) 5 6 (.num 4) .none true (.one 1) (.one 0)).2 = none ∧
    (twoLanes.smooth ratNum 100 (fun _ => .ok ([(1, 0), (4, 2)], [(2, 0), (5, 2)])) [(3, 0), (6, 0)] false (1 / 100) 5 199
      none none false (.one 1) (.one 0)).2 = none := by
  decide +kernel

noncomputable example (p : PPath ℝ) : PathMoved realNum ((Aff.rotate (Real.cos 1) (Real.sin 1)).about (2, 3)).app 1 1 p
    (p.rotate realNum 1 (2, 3)) :=
  (C65_rotate realNum_laws 1 (2, 3) p).1

noncomputable example (p : PPath ℝ) : ∃ g : Pt ℝ → Pt ℝ, (∀ v v', IsMirror (0, 0) (1, 2) v v' ↔ v' = g v) ∧
    PathMoved realNum g 1 (-1) p (p.mirror realNum (0, 0) (1, 2)) := by
  obtain ⟨g, h1, h2, -⟩ := C65_mirror realNum_laws realNum_polar (0, 0) (1, 2) (by simp) p
  exact ⟨g, h1, h2⟩

end Examples

end Gdspy
