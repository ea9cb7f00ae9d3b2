import Verif.Spec.Band
import Verif.Spec.Flex
import Verif.Props.C46
import Verif.Props.C48
import Verif.Props.C57
import Mathlib.Tactic.Ring
import Mathlib.Tactic.Linarith
import Mathlib.Tactic.FieldSimp
import Mathlib.Tactic.NormNum
import Mathlib.Tactic.Positivity

/-!
# C65: the polygons of a Path are bands of the stated width
-/

set_option linter.unusedSectionVars false

namespace Gdspy

open Spec

variable {K : Type}

theorem tag_keeps (layer datatype : LayerArg) (p : PPath K) :
    (p.tag layer datatype).1.polygons = p.polygons ∧ (p.tag layer datatype).1.n = p.n := by
  unfold PPath.tag
  split
  · exact ⟨rfl, rfl⟩
  · split <;> exact ⟨rfl, rfl⟩

section Segments

variable [Field K] [LinearOrder K] [IsStrictOrderedRing K]

/-- A coordinate system with the origin at the turtle: `u` along `(l, o)`, `s` to the right. -/
def frame (m : Turtle K) (l o : K) (q : Pt K) : Pt K := m.at (q.1 * l) (q.1 * o + q.2)

theorem frame_affine (m : Turtle K) (l o : K) : ∃ A : Aff K, frame m l o = A.app := by
  refine ⟨⟨l * m.head.1 + o * m.head.2, m.head.2, l * m.head.2 - o * m.head.1, -m.head.1, m.pos.1, m.pos.2⟩, ?_⟩
  funext q
  unfold frame Turtle.at Turtle.forward Aff.app
  refine Prod.ext ?_ ?_ <;> simp only <;> ring

theorem hull_image (A : Aff K) (P : Pgon K) (p : Pt K) : Hull (P.map A.app) p ↔ ∃ q, Hull P q ∧ p = A.app q := by
  have key : ∀ (c : List K) (P : Pgon K), c.length = P.length →
      (List.zipWith (fun x v => x * v.1) c (P.map A.app)).sum =
        A.a * (List.zipWith (fun x v => x * v.1) c P).sum + A.b * (List.zipWith (fun x v => x * v.2) c P).sum + c.sum * A.e ∧
      (List.zipWith (fun x v => x * v.2) c (P.map A.app)).sum =
        A.c * (List.zipWith (fun x v => x * v.1) c P).sum + A.d * (List.zipWith (fun x v => x * v.2) c P).sum + c.sum * A.f := by
    intro c
    induction c with
    | nil => intro P _; simp
    | cons x c ih =>
      intro P hP
      cases P with
      | nil => simp at hP
      | cons v P =>
        obtain ⟨h1, h2⟩ := ih P (by simpa using hP)
        simp only [List.map_cons, List.zipWith_cons_cons, List.sum_cons, h1, h2]
        unfold Aff.app
        constructor <;> simp only <;> ring
  constructor
  · rintro ⟨c, h1, h2, h3, h4, h5⟩
    rw [List.length_map] at h1
    obtain ⟨k1, k2⟩ := key c P h1
    refine ⟨((List.zipWith (fun x v => x * v.1) c P).sum, (List.zipWith (fun x v => x * v.2) c P).sum),
      ⟨c, h1, h2, h3, rfl, rfl⟩, ?_⟩
    unfold Aff.app
    refine Prod.ext ?_ ?_
    · simp only; rw [h4, k1, h3]; ring
    · simp only; rw [h5, k2, h3]; ring
  · rintro ⟨q, ⟨c, h1, h2, h3, h4, h5⟩, rfl⟩
    obtain ⟨k1, k2⟩ := key c P h1
    refine ⟨c, by rw [List.length_map]; exact h1, h2, h3, ?_, ?_⟩
    · rw [k1, h3, ← h4, ← h5]; unfold Aff.app; simp only; ring
    · rw [k2, h3, ← h4, ← h5]; unfold Aff.app; simp only; ring

theorem hull4 (a b c d p : Pt K) : Hull [a, b, c, d] p ↔ ∃ x y z w : K, 0 ≤ x ∧ 0 ≤ y ∧ 0 ≤ z ∧ 0 ≤ w ∧
    x + y + z + w = 1 ∧ p.1 = x * a.1 + y * b.1 + z * c.1 + w * d.1 ∧ p.2 = x * a.2 + y * b.2 + z * c.2 + w * d.2 := by
  constructor
  · rintro ⟨l, h1, h2, h3, h4, h5⟩
    match l, h1 with
    | [x, y, z, w], _ =>
      simp only [List.mem_cons, List.not_mem_nil, or_false, forall_eq_or_imp, forall_eq, List.sum_cons, List.sum_nil,
        List.zipWith_cons_cons, List.zipWith_nil_left] at h2 h3 h4 h5
      exact ⟨x, y, z, w, h2.1, h2.2.1, h2.2.2.1, h2.2.2.2, by linarith, by linarith, by linarith⟩
  · rintro ⟨x, y, z, w, h1, h2, h3, h4, h5, h6, h7⟩
    refine ⟨[x, y, z, w], rfl, by simp [h1, h2, h3, h4], ?_, ?_, ?_⟩ <;> simp <;> linarith

theorem hull3 (a b c p : Pt K) : Hull [a, b, c] p ↔ ∃ x y z : K, 0 ≤ x ∧ 0 ≤ y ∧ 0 ≤ z ∧
    x + y + z = 1 ∧ p.1 = x * a.1 + y * b.1 + z * c.1 ∧ p.2 = x * a.2 + y * b.2 + z * c.2 := by
  constructor
  · rintro ⟨l, h1, h2, h3, h4, h5⟩
    match l, h1 with
    | [x, y, z], _ =>
      simp only [List.mem_cons, List.not_mem_nil, or_false, forall_eq_or_imp, forall_eq, List.sum_cons, List.sum_nil,
        List.zipWith_cons_cons, List.zipWith_nil_left] at h2 h3 h4 h5
      exact ⟨x, y, z, h2.1, h2.2.1, h2.2.2, by linarith, by linarith, by linarith⟩
  · rintro ⟨x, y, z, h1, h2, h3, h5, h6, h7⟩
    refine ⟨[x, y, z], rfl, by simp [h1, h2, h3], ?_, ?_, ?_⟩ <;> simp <;> linarith

/-- A vertex repeated at the end changes nothing. -/
theorem hull_end (a b c p : Pt K) : Hull [a, b, c, c] p ↔ Hull [a, b, c] p := by
  rw [hull4, hull3]
  constructor
  · rintro ⟨x, y, z, w, h1, h2, h3, h4, h5, h6, h7⟩
    exact ⟨x, y, z + w, h1, h2, by linarith, by linarith, by linarith, by linarith⟩
  · rintro ⟨x, y, z, h1, h2, h3, h5, h6, h7⟩
    exact ⟨x, y, z, 0, h1, h2, h3, le_refl _, by linarith, by linarith, by linarith⟩

theorem hull_start (a b c p : Pt K) : Hull [a, a, b, c] p ↔ Hull [a, b, c] p := by
  rw [hull4, hull3]
  constructor
  · rintro ⟨x, y, z, w, h1, h2, h3, h4, h5, h6, h7⟩
    exact ⟨x + y, z, w, by linarith, h3, h4, by linarith, by linarith, by linarith⟩
  · rintro ⟨x, y, z, h1, h2, h3, h5, h6, h7⟩
    exact ⟨x, 0, y, z, h1, le_refl _, h2, h3, by linarith, by linarith, by linarith⟩

/-- A trapezium. -/
theorem hull_trapezium (c0 c1 : K) {h0 h1 : K} (hh0 : 0 ≤ h0) (hh1 : 0 ≤ h1) (q : Pt K) :
    Hull [(0, c0 - h0), (0, c0 + h0), (1, c1 + h1), (1, c1 - h1)] q ↔
      0 ≤ q.1 ∧ q.1 ≤ 1 ∧ |q.2 - mix c0 c1 q.1| ≤ mix h0 h1 q.1 := by
  rw [hull4]
  constructor
  · rintro ⟨x, y, z, w, h1', h2, h3, h4, h5, h6, h7⟩
    simp only at h6 h7
    have e : q.1 = z + w := by linarith
    have e1 : 1 - q.1 = x + y := by linarith
    refine ⟨by linarith, by linarith, ?_⟩
    rw [abs_le]
    unfold mix
    rw [e1, e, h7]
    have := mul_nonneg h1' hh0
    have := mul_nonneg h2 hh0
    have := mul_nonneg h3 hh1
    have := mul_nonneg h4 hh1
    constructor <;> nlinarith
  · rintro ⟨hu, hu1, hs⟩
    rw [abs_le] at hs
    obtain ⟨hs1, hs2⟩ := hs
    have hH : 0 ≤ mix h0 h1 q.1 := by
      unfold mix
      have := mul_nonneg (sub_nonneg.2 hu1) hh0
      have := mul_nonneg hu hh1
      linarith
    obtain ⟨v, hv0, hv1, hv⟩ : ∃ v : K, 0 ≤ v ∧ v ≤ 1 ∧ q.2 = mix c0 c1 q.1 - mix h0 h1 q.1 + v * (2 * mix h0 h1 q.1) := by
      rcases hH.eq_or_lt with h0' | hpos
      · exact ⟨0, le_refl _, zero_le_one, by rw [← h0'] at hs1 hs2 ⊢; linarith⟩
      · refine ⟨(q.2 - mix c0 c1 q.1 + mix h0 h1 q.1) / (2 * mix h0 h1 q.1), ?_, ?_, ?_⟩
        · exact div_nonneg (by linarith) (by linarith)
        · rw [div_le_one (by linarith)]; linarith
        · rw [div_mul_cancel₀ _ (by linarith)]; ring
    refine ⟨(1 - q.1) * (1 - v), (1 - q.1) * v, q.1 * v, q.1 * (1 - v), ?_, ?_, ?_, ?_, by ring, by simp only; ring, ?_⟩
    · exact mul_nonneg (by linarith) (by linarith)
    · exact mul_nonneg (by linarith) hv0
    · exact mul_nonneg hu hv0
    · exact mul_nonneg hu (by linarith)
    · rw [hv]
      unfold mix
      simp only
      ring

theorem laneOff_eq (n ii : Nat) (d : K) : laneOff n ii d = lane n ii * d := by
  unfold laneOff lane; ring

/-- The polygon of one path of a segment, in the coordinates of the turtle. -/
theorem segPoly_hull (m : Turtle K) (l o ow od w d : K) (hw : 0 ≤ w) (how : 0 ≤ ow) (h0 : w ≠ 0 ∨ ow ≠ 0) (n ii : Nat)
    (p : Pt K) :
    Hull (segPoly m.head.1 m.head.2 m.pos.1 m.pos.2 ow od (m.at l o).1 (m.at l o).2 w d n ii) p ↔
      SegmentBand m l o (2 * ow) (2 * w) od d n ii p := by
  have hq : ([(m.pos.1 + (laneOff n ii od - ow) * m.head.2, m.pos.2 - (laneOff n ii od - ow) * m.head.1),
      (m.pos.1 + (laneOff n ii od + ow) * m.head.2, m.pos.2 - (laneOff n ii od + ow) * m.head.1),
      ((m.at l o).1 + (laneOff n ii d + w) * m.head.2, (m.at l o).2 - (laneOff n ii d + w) * m.head.1),
      ((m.at l o).1 + (laneOff n ii d - w) * m.head.2, (m.at l o).2 - (laneOff n ii d - w) * m.head.1)] : Pgon K) =
      [(0, lane n ii * od - ow), (0, lane n ii * od + ow), (1, lane n ii * d + w), (1, lane n ii * d - w)].map
        (frame m l o) := by
    simp only [laneOff_eq, List.map_cons, List.map_nil]
    unfold frame Turtle.at Turtle.forward
    simp only [List.cons.injEq, and_true, Prod.mk.injEq]
    refine ⟨⟨?_, ?_⟩, ⟨?_, ?_⟩, ⟨?_, ?_⟩, ?_, ?_⟩ <;> ring
  have hfull : Hull [(m.pos.1 + (laneOff n ii od - ow) * m.head.2, m.pos.2 - (laneOff n ii od - ow) * m.head.1),
      (m.pos.1 + (laneOff n ii od + ow) * m.head.2, m.pos.2 - (laneOff n ii od + ow) * m.head.1),
      ((m.at l o).1 + (laneOff n ii d + w) * m.head.2, (m.at l o).2 - (laneOff n ii d + w) * m.head.1),
      ((m.at l o).1 + (laneOff n ii d - w) * m.head.2, (m.at l o).2 - (laneOff n ii d - w) * m.head.1)] p ↔
      SegmentBand m l o (2 * ow) (2 * w) od d n ii p := by
    obtain ⟨A, hA⟩ := frame_affine m l o
    rw [hq, hA, hull_image, ← hA]
    have hm : ∀ u, mix (2 * ow) (2 * w) u / 2 = mix ow w u := by intro u; unfold mix; ring
    have hl : ∀ u, lane n ii * mix od d u = mix (lane n ii * od) (lane n ii * d) u := by intro u; unfold mix; ring
    unfold SegmentBand
    constructor
    · rintro ⟨q, hq, rfl⟩
      rw [hull_trapezium _ _ how hw] at hq
      exact ⟨q.1, q.2, hq.1, hq.2.1, by rw [hl, hm]; exact hq.2.2, rfl⟩
    · rintro ⟨u, s, h1, h2, h3, rfl⟩
      rw [hl, hm] at h3
      exact ⟨(u, s), (hull_trapezium _ _ how hw _).2 ⟨h1, h2, h3⟩, rfl⟩
  rw [← hfull]
  unfold segPoly
  simp only
  by_cases hw0 : w = 0
  · rw [if_pos hw0, if_neg (by rcases h0 with h | h <;> [exact absurd hw0 h; exact h]), hw0]
    simp only [add_zero, sub_zero, List.dropLast_cons_cons, List.dropLast_singleton]
    rw [hull_end]
  · rw [if_neg hw0]
    by_cases ho : ow = 0
    · rw [if_pos ho, ho]
      simp only [add_zero, sub_zero, List.drop_succ_cons, List.drop_zero]
      rw [hull_start]
    · rw [if_neg ho]

/-- The area, and that the vertices go around counterclockwise. -/
theorem segPoly_shoelace (m : Turtle K) (hm : m.head.1 ^ 2 + m.head.2 ^ 2 = 1) (l o ow od w d : K)
    (h0 : w ≠ 0 ∨ ow ≠ 0) (n ii : Nat) :
    shoelace (segPoly m.head.1 m.head.2 m.pos.1 m.pos.2 ow od (m.at l o).1 (m.at l o).2 w d n ii) = 2 * (l * (ow + w)) := by
  have hfull : shoelace [(m.pos.1 + (laneOff n ii od - ow) * m.head.2, m.pos.2 - (laneOff n ii od - ow) * m.head.1),
      (m.pos.1 + (laneOff n ii od + ow) * m.head.2, m.pos.2 - (laneOff n ii od + ow) * m.head.1),
      ((m.at l o).1 + (laneOff n ii d + w) * m.head.2, (m.at l o).2 - (laneOff n ii d + w) * m.head.1),
      ((m.at l o).1 + (laneOff n ii d - w) * m.head.2, (m.at l o).2 - (laneOff n ii d - w) * m.head.1)] =
      2 * (l * (ow + w)) := by
    unfold shoelace Turtle.at Turtle.forward
    simp only [List.rotate_cons_succ, List.rotate_zero, List.cons_append, List.nil_append, List.zipWith_cons_cons,
      List.zipWith_nil_left, List.sum_cons, List.sum_nil]
    linear_combination (2 * l * (ow + w)) * hm
  unfold segPoly
  simp only
  by_cases hw0 : w = 0
  · rw [if_pos hw0, if_neg (by rcases h0 with h | h <;> [exact absurd hw0 h; exact h])]
    subst hw0
    rw [← hfull]
    unfold shoelace
    simp only [add_zero, sub_zero, List.dropLast_cons_cons, List.dropLast_singleton, List.rotate_cons_succ,
      List.rotate_zero, List.cons_append, List.nil_append, List.zipWith_cons_cons, List.zipWith_nil_left, List.sum_cons, List.sum_nil]
    ring
  · rw [if_neg hw0]
    by_cases ho : ow = 0
    · rw [if_pos ho]
      subst ho
      rw [← hfull]
      unfold shoelace
      simp only [add_zero, sub_zero, List.drop_succ_cons, List.drop_zero, List.rotate_cons_succ,
        List.rotate_zero, List.cons_append, List.nil_append, List.zipWith_cons_cons, List.zipWith_nil_left, List.sum_cons, List.sum_nil]
      ring
    · rw [if_neg ho]
      exact hfull

theorem Dir.vec_unit {t : Num K} (ht : Trig.Laws t.toTrig) (d : Dir K) : (d.vec t).1 ^ 2 + (d.vec t).2 ^ 2 = 1 := by
  cases d <;> simp [Dir.vec, ht.pyth]

/-- A new path has the given width, distance and position. -/
theorem C65_new (width : K) (initial : Pt K) (n : Nat) (distance : K) :
    widthOf (PPath.new width initial n distance) = width ∧ (PPath.new width initial n distance).distance = distance ∧
      ((PPath.new width initial n distance).x, (PPath.new width initial n distance).y) = initial ∧
      (PPath.new width initial n distance).n = n := by
  refine ⟨?_, rfl, rfl, rfl⟩
  unfold widthOf PPath.new
  simp only
  ring

/-- **C65**, segments: each of the parallel paths gets one polygon, the band from the old width and distance to the new
ones; its vertices go around it once, so that it has the area of the band. A path without width gets none. -/
theorem C65_segment {t : Num K} (ht : Trig.Laws t.toTrig) (length : K) (direction : Option (Dir K)) (fw fd : Option K)
    (off : K) (layer datatype : LayerArg) (p q : PPath K) (hp : 0 ≤ widthOf p) (hf : ∀ w, fw = some w → 0 ≤ w)
    (h : p.segment t length direction fw fd off layer datatype = (q, none)) :
    let w := fw.getD (widthOf p)
    let d := fd.getD p.distance
    let m := (turtleOf t p).face ((direction.getD p.direction).vec t)
    widthOf q = w ∧ q.distance = d ∧ (q.x, q.y) = m.at length off ∧
    (widthOf p = 0 ∧ w = 0 → q.polygons = p.polygons) ∧
    (¬ (widthOf p = 0 ∧ w = 0) → ∃ new, q.polygons = p.polygons ++ new ∧ new.length = p.n ∧ ∀ ii P, new[ii]? = some P →
      (∀ x, Hull P x ↔ SegmentBand m length off (widthOf p) w p.distance d p.n ii x) ∧
      shoelace P = 2 * (length * ((widthOf p + w) / 2))) := by
  intro w d m
  have hw : (fw.map (· / 2)).getD p.w = w / 2 := by
    simp only [w]
    cases fw with
    | none => unfold widthOf; simp
    | some a => rfl
  have hw0 : 0 ≤ w := by
    simp only [w]
    cases fw with
    | none => exact hp
    | some a => exact hf a rfl
  have hat : (p.x + (length * ((direction.getD p.direction).vec t).1 + off * ((direction.getD p.direction).vec t).2),
      p.y + (length * ((direction.getD p.direction).vec t).2 - off * ((direction.getD p.direction).vec t).1)) = m.at length off := by
    simp only [m]
    unfold Turtle.at Turtle.forward Turtle.face turtleOf
    refine Prod.ext ?_ ?_ <;> simp only <;> ring
  have hpw : p.w = widthOf p / 2 := by unfold widthOf; ring
  unfold PPath.segment at h
  simp only [hw] at h
  split at h
  · rename_i hc
    have hpoly := (tag_keeps layer datatype { p with
      direction := direction.getD p.direction
      x := p.x + (length * ((direction.getD p.direction).vec t).1 + off * ((direction.getD p.direction).vec t).2)
      y := p.y + (length * ((direction.getD p.direction).vec t).2 - off * ((direction.getD p.direction).vec t).1)
      w := w / 2
      distance := d
      polygons := p.polygons ++ (List.range p.n).map (segPoly ((direction.getD p.direction).vec t).1
        ((direction.getD p.direction).vec t).2 p.x p.y p.w p.distance
        (p.x + (length * ((direction.getD p.direction).vec t).1 + off * ((direction.getD p.direction).vec t).2))
        (p.y + (length * ((direction.getD p.direction).vec t).2 - off * ((direction.getD p.direction).vec t).1)) (w / 2) d p.n)
      length := p.length + t.sqrt (length ^ 2 + off ^ 2) }).1
    have hse := (tag_sameEnd layer datatype { p with
      direction := direction.getD p.direction
      x := p.x + (length * ((direction.getD p.direction).vec t).1 + off * ((direction.getD p.direction).vec t).2)
      y := p.y + (length * ((direction.getD p.direction).vec t).2 - off * ((direction.getD p.direction).vec t).1)
      w := w / 2
      distance := d
      polygons := p.polygons ++ (List.range p.n).map (segPoly ((direction.getD p.direction).vec t).1
        ((direction.getD p.direction).vec t).2 p.x p.y p.w p.distance
        (p.x + (length * ((direction.getD p.direction).vec t).1 + off * ((direction.getD p.direction).vec t).2))
        (p.y + (length * ((direction.getD p.direction).vec t).2 - off * ((direction.getD p.direction).vec t).1)) (w / 2) d p.n)
      length := p.length + t.sqrt (length ^ 2 + off ^ 2) }).1
    rw [h] at hpoly hse
    obtain ⟨e1, e2, e3, e4, e5, e6⟩ := hse
    simp only at e1 e2 e3 e4 e5 e6 hpoly
    have hc' : ¬ (widthOf p = 0 ∧ w = 0) := by
      rintro ⟨c1, c2⟩
      rcases hc with hc | hc
      · exact hc (by rw [c2]; simp)
      · exact hc (by rw [hpw, c1]; simp)
    refine ⟨?_, ?_, ?_, fun hx => absurd hx hc', fun _ => ⟨_, hpoly, by simp, ?_⟩⟩
    · unfold widthOf; rw [e4]; ring
    · exact e5
    · rw [e1, e2]; exact hat
    · intro ii P hP
      rw [List.getElem?_map] at hP
      have hii : ii < p.n := by
        by_contra hn
        rw [List.getElem?_eq_none (by simpa using hn)] at hP
        cases hP
      rw [List.getElem?_range hii] at hP
      simp only [Option.map_some, Option.some.injEq] at hP
      have hx := congrArg Prod.fst hat
      have hy := congrArg Prod.snd hat
      simp only at hx hy
      rw [hx, hy] at hP
      subst hP
      have g0 : w / 2 ≠ 0 ∨ p.w ≠ 0 := hc
      have gp : (0 : K) ≤ p.w := by rw [hpw]; linarith
      refine ⟨fun x => ?_, ?_⟩
      · have := segPoly_hull m length off p.w p.distance (w / 2) d (by linarith) gp g0 p.n ii x
        rw [show 2 * p.w = widthOf p from rfl, show 2 * (w / 2) = w by ring] at this
        exact this
      · have := segPoly_shoelace m (Dir.vec_unit ht _) length off p.w p.distance (w / 2) d g0 p.n ii
        rw [show length * ((widthOf p + w) / 2) = length * (p.w + w / 2) by rw [hpw]; ring]
        exact this
  · rename_i hc
    simp only [Prod.mk.injEq, and_true] at h
    subst h
    push Not at hc
    refine ⟨?_, rfl, hat, fun _ => rfl, fun hx => absurd ?_ hx⟩
    · unfold widthOf; simp only; ring
    · refine ⟨?_, ?_⟩
      · unfold widthOf; rw [hc.2]; ring
      · have := hc.1; linarith

end Segments

section Outlines

variable [Field K] [LinearOrder K] [IsStrictOrderedRing K]

theorem linspace_mix (a b : K) (n : Nat) : linspace a b n = (linspace 0 1 n).map (mix a b) := by
  unfold linspace
  rw [List.map_map]
  refine List.map_congr_left fun i _ => ?_
  unfold mix
  simp only [Function.comp_apply, sub_zero, zero_add]
  rw [div_eq_mul_one_div]
  ring

theorem mix_mix (a b u v w : K) : mix (mix a b u) (mix a b v) w = mix a b (mix u v w) := by
  unfold mix; ring

theorem mix_swap (a b u : K) : mix b a u = mix a b (1 - u) := by unfold mix; ring

theorem mix_inc {u0 u1 : K} (h : u0 < u1) {v w : K} (hv : v < w) : mix u0 u1 v < mix u0 u1 w := by
  unfold mix; nlinarith

theorem mix_between {u0 u1 : K} (h : u0 < u1) {v : K} (h0 : 0 ≤ v) (h1 : v ≤ 1) : u0 ≤ mix u0 u1 v ∧ mix u0 u1 v ≤ u1 := by
  unfold mix; constructor <;> nlinarith

theorem Spec.OutlineOf.reparam {side : K → K → Pt K} {u0 u1 : K} (hu : u0 < u1) {P : Pgon K}
    (h : OutlineOf (fun s v => side s (mix u0 u1 v)) 0 1 P) : OutlineOf side u0 u1 P := by
  obtain ⟨l, r, h1, h2, h3, h4, h5⟩ := h
  refine ⟨l.map (mix u0 u1), r.map (mix u0 u1), ?_, ?_, ?_, ?_, ?_⟩
  · rw [List.map_map, List.map_map]; exact h1
  · exact List.pairwise_map.2 (h2.imp fun h => mix_inc hu h)
  · exact List.pairwise_map.2 (h3.imp fun h => mix_inc hu h)
  · intro u hu'
    rw [← List.map_append] at hu'
    obtain ⟨v, hv, rfl⟩ := List.mem_map.1 hu'
    exact mix_between hu (h4 v hv).1 (h4 v hv).2
  · intro u hu' s hs
    rcases List.mem_cons.1 hu' with rfl | hu'
    · have := h5 0 (by simp) s hs
      simp only at this
      rwa [show mix u u1 0 = u by unfold mix; ring] at this
    · rw [List.mem_singleton] at hu'
      subst hu'
      have := h5 1 (by simp) s hs
      simp only at this
      rwa [show mix u0 u 1 = u by unfold mix; ring] at this

theorem linspace01_mem {n : Nat} {v : K} (hn : 2 ≤ n) (h : v ∈ linspace 0 1 n) : 0 ≤ v ∧ v ≤ 1 := by
  obtain ⟨i, hi, rfl⟩ := linspace_mem h
  have hpos : (0 : K) < (n : K) - 1 := by
    have : (2 : K) ≤ (n : K) := by exact_mod_cast hn
    linarith
  have hle : (i : K) ≤ (n : K) - 1 := by
    have : ((i + 1 : Nat) : K) ≤ (n : K) := by exact_mod_cast hi
    push_cast at this
    linarith
  constructor
  · simp only [sub_zero, zero_add]
    exact mul_nonneg (Nat.cast_nonneg i) (div_nonneg zero_le_one hpos.le)
  · simp only [sub_zero, zero_add, mul_one_div]
    exact (div_le_one hpos).2 hle

theorem linspace01_ends {n : Nat} (hn : 2 ≤ n) :
    ∃ l : List K, linspace 0 1 n = 0 :: (l ++ [1]) := by
  have h0 : (linspace (0 : K) 1 n)[0]? = some 0 := linspace_first _ _ _ (by omega)
  have h1 : (linspace (0 : K) 1 n)[n - 1]? = some 1 := linspace_last _ _ _ hn
  have hl := linspace_length (0 : K) 1 n
  generalize linspace (0 : K) 1 n = x at h0 h1 hl
  match x, hl with
  | [], hl => simp at hl; omega
  | a :: y, hl =>
    simp only [List.getElem?_cons_zero, Option.some.injEq] at h0
    subst h0
    have hy : y ≠ [] := by rintro rfl; simp at hl; omega
    refine ⟨y.dropLast, ?_⟩
    rw [← List.dropLast_append_getLast hy] at h1 ⊢
    have h2 := h1
    rw [show n - 1 = (n - 2) + 1 by omega, List.getElem?_cons_succ, List.getElem?_append_right (by simp at hl ⊢; omega)] at h2
    simp only [List.length_dropLast] at h2
    simp only [List.length_cons] at hl
    rw [show n - 2 - (y.length - 1) = 0 by omega] at h2
    simp only [List.getElem?_cons_zero, Option.some.injEq] at h2
    rw [h2]
    simp

variable [FloorRing K]

/-- One piece of an arc. -/
theorem arcPoly_outline (t : Num K) (cx cy radius : K) {n m ii : Nat} (hm : 4 ≤ m) {w0 w1 d0 d1 a0 a1 : K}
    (h0 : ¬ (w0 = 0 ∧ w1 = 0)) :
    OutlineOf (arcSide t (cx, cy) radius a0 a1 (2 * w0) (2 * w1) d0 d1 n ii) 0 1
      (arcPoly t cx cy radius n m ii w0 w1 d0 d1 a0 a1).1 := by
  have hz : ∀ k (α β α' β' : K), List.zipWith (polarPt t cx cy) (linspace α β k) (linspace α' β' k) =
      (linspace 0 1 k).map fun v => polarPt t cx cy (mix α β v) (mix α' β' v) := by
    intro k α β α' β'
    rw [linspace_mix α, linspace_mix α', List.zipWith_map, List.zipWith_self]
  have hout : ∀ v, polarPt t cx cy (mix a0 a1 v)
      (mix (radius + (ii : K) * d0 - ((n : K) - 1) * d0 / 2 + w0) (radius + (ii : K) * d1 - ((n : K) - 1) * d1 / 2 + w1) v) =
      arcSide t (cx, cy) radius a0 a1 (2 * w0) (2 * w1) d0 d1 n ii 1 v := by
    intro v
    unfold polarPt arcSide lane
    have : mix (radius + (ii : K) * d0 - ((n : K) - 1) * d0 / 2 + w0) (radius + (ii : K) * d1 - ((n : K) - 1) * d1 / 2 + w1) v =
        radius + ((ii : K) - ((n : K) - 1) / 2) * mix d0 d1 v + 1 * mix (2 * w0) (2 * w1) v / 2 := by
      unfold mix; ring
    rw [this]
    refine Prod.ext ?_ ?_ <;> simp only <;> ring
  have hin : ∀ v, polarPt t cx cy (mix a1 a0 v)
      (mix (radius + (ii : K) * d1 - ((n : K) - 1) * d1 / 2 - w1) (radius + (ii : K) * d0 - ((n : K) - 1) * d0 / 2 - w0) v) =
      arcSide t (cx, cy) radius a0 a1 (2 * w0) (2 * w1) d0 d1 n ii (-1) (1 - v) := by
    intro v
    unfold polarPt arcSide lane
    have : mix (radius + (ii : K) * d1 - ((n : K) - 1) * d1 / 2 - w1) (radius + (ii : K) * d0 - ((n : K) - 1) * d0 / 2 - w0) v =
        radius + ((ii : K) - ((n : K) - 1) / 2) * mix d0 d1 (1 - v) + -1 * mix (2 * w0) (2 * w1) (1 - v) / 2 := by
      unfold mix; ring
    rw [this, mix_swap a0 a1]
    refine Prod.ext ?_ ?_ <;> simp only <;> ring
  generalize hS : arcSide t (cx, cy) radius a0 a1 (2 * w0) (2 * w1) d0 d1 n ii = S at *
  have hS0 : w0 = 0 → S 1 0 = S (-1) 0 := by
    rintro rfl
    rw [← hS]
    unfold arcSide mix
    simp
  have hS1 : w1 = 0 → S 1 1 = S (-1) 1 := by
    rintro rfl
    rw [← hS]
    unfold arcSide mix
    simp
  let k2 : Nat := m / 2 + (if w1 = 0 then 1 else 0) + (if w0 = 0 then 1 else 0)
  let L : List K :=
    if w0 = 0 then (if w1 = 0 then (linspace 0 1 (m - m / 2)).dropLast else linspace 0 1 (m - m / 2)).drop 1
    else if w1 = 0 then (linspace 0 1 (m - m / 2)).dropLast else linspace 0 1 (m - m / 2)
  let R : List K := (linspace 0 1 k2).map fun v => 1 - v
  have hk2 : 2 ≤ k2 := by simp only [k2]; omega
  have hk1 : 2 ≤ m - m / 2 := by omega
  have hP : (arcPoly t cx cy radius n m ii w0 w1 d0 d1 a0 a1).1 = L.map (S 1) ++ R.map (S (-1)) := by
    have hk0 : k2 ≠ 0 := by omega
    have hl : (L.map (S 1) ++ R.map (S (-1))).length = m := by
      simp only [L, R, k2]
      by_cases e0 : w0 = 0 <;> by_cases e1 : w1 = 0
      · exact absurd ⟨e0, e1⟩ h0
      all_goals
        simp only [e0, e1, if_true, if_false, List.length_append, List.length_map, linspace_length, List.length_drop,
          List.length_dropLast]
        omega
    unfold arcPoly
    simp only [hz]
    rw [if_neg hk0]
    simp only
    rw [← List.take_of_length_le (l := L.map (S 1) ++ R.map (S (-1))) (i := m) hl.le]
    congr 1
    congr 1
    · simp only [L]
      by_cases e0 : w0 = 0 <;> by_cases e1 : w1 = 0 <;>
        simp only [e0, e1, if_true, if_false] <;>
        (try simp only [← List.map_drop, ← List.map_dropLast]) <;>
        exact List.map_congr_left fun v _ => by rw [← hout v]; try simp only [e0, e1]
    · simp only [R]
      rw [List.map_map]
      exact List.map_congr_left fun v _ => hin v
  have hsub : L.Sublist (linspace 0 1 (m - m / 2)) := by
    simp only [L]
    by_cases e0 : w0 = 0 <;> by_cases e1 : w1 = 0 <;> simp only [e0, e1, if_true, if_false]
    · exact (List.drop_sublist _ _).trans (List.dropLast_sublist _)
    · exact List.drop_sublist _ _
    · exact List.dropLast_sublist _
    · exact .refl _
  obtain ⟨x, hx⟩ := linspace01_ends (K := K) hk1
  obtain ⟨y, hy⟩ := linspace01_ends (K := K) hk2
  have r0 : (0 : K) ∈ R := by simp only [R]; rw [hy]; simp
  have r1 : (1 : K) ∈ R := by simp only [R]; rw [hy]; simp
  have l0 : w0 ≠ 0 → (0 : K) ∈ L := by
    intro h
    simp only [L, h, if_false]
    split
    · rw [hx, ← List.cons_append, List.dropLast_concat]; simp
    · rw [hx]; simp
  have l1 : w1 ≠ 0 → (1 : K) ∈ L := by
    intro h
    simp only [L, h, if_false]
    split
    · rw [hx]; simp
    · rw [hx]; simp
  rw [hP]
  refine ⟨L, R, rfl, (linspace_inc zero_lt_one hk1).sublist hsub, ?_, ?_, ?_⟩
  · exact List.pairwise_map.2 ((linspace_inc (zero_lt_one (α := K)) hk2).imp fun h => by simpa using h)
  · intro u hu
    rcases List.mem_append.1 hu with hu | hu
    · exact linspace01_mem hk1 (hsub.subset hu)
    · obtain ⟨v, hv, rfl⟩ := List.mem_map.1 hu
      have := linspace01_mem hk2 hv
      exact ⟨by linarith, by linarith⟩
  · intro u hu s hs
    simp only [List.mem_cons, List.not_mem_nil, or_false] at hu hs
    rw [List.mem_append]
    rcases hs with rfl | rfl
    · rcases hu with rfl | rfl
      · by_cases e0 : w0 = 0
        · rw [hS0 e0]; exact .inr (List.mem_map_of_mem r0)
        · exact .inl (List.mem_map_of_mem (l0 e0))
      · by_cases e1 : w1 = 0
        · rw [hS1 e1]; exact .inr (List.mem_map_of_mem r1)
        · exact .inl (List.mem_map_of_mem (l1 e1))
    · rcases hu with rfl | rfl
      · exact .inr (List.mem_map_of_mem r0)
      · exact .inr (List.mem_map_of_mem r1)

theorem forOut_polys {α : Type} (f : PPath K → α → Out (PPath K)) (g : α → List (Pgon K)) (n : Nat)
    (hf : ∀ s a s', s.n = n → f s a = (s', none) → s'.n = n ∧ s'.polygons = s.polygons ++ g a) (l : List α)
    (s s' : PPath K) (hs : s.n = n) (h : forOut f s l = (s', none)) : s'.polygons = s.polygons ++ (l.map g).flatten := by
  induction l generalizing s with
  | nil =>
    simp only [forOut, Prod.mk.injEq, and_true] at h
    subst h; simp
  | cons a l ih =>
    unfold forOut at h
    cases hfa : f s a with
    | mk s1 e =>
      rw [hfa] at h
      cases e with
      | some e => simp at h
      | none =>
        obtain ⟨h1, h2⟩ := hf s a s1 hs hfa
        rw [ih s1 h1 h, h2]
        simp

theorem linspace_getD (a b : K) {k jj : Nat} (h : jj ≤ k) (hk : 0 < k) :
    (linspace a b (k + 1)).getD jj 0 = mix a b ((jj : K) / (k : K)) := by
  rw [List.getD_eq_getElem?_getD, linspace_get _ _ _ _ (by omega)]
  have hk' : (k : K) ≠ 0 := by exact_mod_cast hk.ne'
  unfold mix
  simp only [Option.getD_some, Nat.cast_add, Nat.cast_one, add_sub_cancel_right]
  field_simp
  ring

theorem arcPoly_le (t : Num K) (cx cy radius : K) (n m ii : Nat) (w0 w1 d0 d1 a0 a1 : K) :
    (arcPoly t cx cy radius n m ii w0 w1 d0 d1 a0 a1).1.length ≤ m := by
  unfold arcPoly
  simp only
  generalize m / 2 + (if w1 = 0 then 1 else 0) + (if w0 = 0 then 1 else 0) = k
  split
  · rw [List.length_zipWith, linspace_length, linspace_length]; omega
  · rw [List.length_take]; exact min_le_left _ _

theorem arcSide_piece (t : Num K) (c : Pt K) (radius ia fa w d u0 u1 : K) (n ii : Nat) (p : PPath K) :
    arcSide t (c.1, c.2) radius (mix ia fa u0) (mix ia fa u1) (2 * mix p.w (w / 2) u0) (2 * mix p.w (w / 2) u1)
      (mix p.distance d u0) (mix p.distance d u1) n ii =
      fun s v => arcSide t c radius ia fa (widthOf p) w p.distance d n ii s (mix u0 u1 v) := by
  funext s v
  have : mix (2 * mix p.w (w / 2) u0) (2 * mix p.w (w / 2) u1) v = mix (widthOf p) w (mix u0 u1 v) := by
    unfold mix widthOf; ring
  unfold arcSide
  rw [this]
  simp only [mix_mix]

/-- **C65**, arcs: each of the parallel paths gets the polygons of `k` pieces; each is the outline of its piece of the
ring section around the centre (4 vertices are needed for the 4 corners). -/
theorem C65_arc (t : Num K) (radius ia fa tol : K) (N : Option Nat) (mp : Nat) (fw fd : Option K)
    (layer datatype : LayerArg) (p q : PPath K)
    (h : p.arc t radius ia fa tol N mp fw fd layer datatype = (q, none)) :
    let w := fw.getD (widthOf p)
    let d := fd.getD p.distance
    let c : Pt K := (p.x - radius * t.cos ia, p.y - radius * t.sin ia)
    widthOf q = w ∧ q.distance = d ∧
    (widthOf p = 0 ∧ w = 0 → q.polygons = p.polygons) ∧
    (¬ (widthOf p = 0 ∧ w = 0) → ∃ rounds : List (List (Pgon K)), 0 < rounds.length ∧
      q.polygons = p.polygons ++ rounds.flatten ∧ ∀ (jj : Nat) (round : List (Pgon K)), rounds[jj]? = some round → round.length = p.n ∧
        ∀ ii P, round[ii]? = some P → 4 ≤ P.length →
          OutlineOf (arcSide t c radius ia fa (widthOf p) w p.distance d p.n ii) ((jj : K) / rounds.length)
            (((jj : K) + 1) / rounds.length) P) := by
  intro w d c
  have hend := arc_end t radius ia fa tol N mp fw fd layer datatype p
  rw [h] at hend
  obtain ⟨-, -, -, e4, e5, -⟩ := hend
  simp only at e4 e5
  have hw : (fw.map (· / 2)).getD p.w = w / 2 := by
    simp only [w]
    cases fw with
    | none => unfold widthOf; simp
    | some a => rfl
  rw [hw] at e4
  have hpw : p.w = widthOf p / 2 := by unfold widthOf; ring
  refine ⟨by unfold widthOf; rw [e4]; ring, e5, ?_⟩
  unfold PPath.arc at h
  simp only [hw] at h
  split at h
  · simp at h
  · rename_i n hn
    split at h
    · simp at h
    · rename_i hk
      split at h
      · rename_i hc
        have hc' : ¬ (widthOf p = 0 ∧ w = 0) := by
          rintro ⟨c1, c2⟩
          rcases hc with hc | hc
          · exact hc (by rw [c2]; simp)
          · exact hc (by rw [hpw, c1]; simp)
        refine ⟨fun hx => absurd hx hc', fun _ => ?_⟩
        generalize pieceCount n mp = k at hk h
        generalize hm : n / k = m at h
        let g : Nat → List (Pgon K) := fun jj => (List.range p.n).map fun ii =>
          (arcPoly t c.1 c.2 radius p.n m ii ((linspace p.w (w / 2) (k + 1)).getD jj 0)
            ((linspace p.w (w / 2) (k + 1)).getD (jj + 1) 0) ((linspace p.distance d (k + 1)).getD jj 0)
            ((linspace p.distance d (k + 1)).getD (jj + 1) 0) ((linspace ia fa (k + 1)).getD jj 0)
            ((linspace ia fa (k + 1)).getD (jj + 1) 0)).1
        have hg := forOut_polys (PPath.arcPiece t c.1 c.2 radius m (linspace p.w (w / 2) (k + 1)) (linspace p.distance d (k + 1))
          (linspace ia fa (k + 1)) layer datatype) g p.n (by
          intro s jj s' hs hss
          unfold PPath.arcPiece at hss
          simp only at hss
          split at hss
          · simp at hss
          · rename_i r hr
            have hr' := forOut_append _ _ _ _ hr
            have ht := tag_keeps layer datatype
              { r with length := r.length + |((linspace ia fa (k + 1)).getD (jj + 1) 0 - (linspace ia fa (k + 1)).getD jj 0) * radius| }
            rw [hss] at ht
            subst hr'
            rw [hs] at ht
            exact ⟨ht.2, ht.1⟩) (List.range k) _ q (by rfl) h
        refine ⟨(List.range k).map g, by simp; omega, hg, ?_⟩
        intro jj round hround
        rw [List.getElem?_map] at hround
        have hjj : jj < k := by
          by_contra hx
          rw [List.getElem?_eq_none (by simpa using hx)] at hround
          cases hround
        rw [List.getElem?_range hjj] at hround
        simp only [Option.map_some, Option.some.injEq] at hround
        subst hround
        refine ⟨by simp [g], fun ii P hP h4 => ?_⟩
        simp only [g] at hP
        rw [List.getElem?_map] at hP
        have hii : ii < p.n := by
          by_contra hx
          rw [List.getElem?_eq_none (by simpa using hx)] at hP
          cases hP
        rw [List.getElem?_range hii] at hP
        simp only [Option.map_some, Option.some.injEq] at hP
        rw [List.length_map, List.length_range]
        have hkpos : 0 < k := by omega
        have hkK : (0 : K) < (k : K) := by exact_mod_cast hkpos
        have hm4 : 4 ≤ m := by
          have := arcPoly_le t c.1 c.2 radius p.n m ii ((linspace p.w (w / 2) (k + 1)).getD jj 0)
            ((linspace p.w (w / 2) (k + 1)).getD (jj + 1) 0) ((linspace p.distance d (k + 1)).getD jj 0)
            ((linspace p.distance d (k + 1)).getD (jj + 1) 0) ((linspace ia fa (k + 1)).getD jj 0)
            ((linspace ia fa (k + 1)).getD (jj + 1) 0)
          rw [hP] at this
          omega
        have hlt : ((jj : K) / k) < ((jj : K) + 1) / k := (div_lt_div_iff_of_pos_right hkK).2 (by linarith)
        have hcast : (((jj + 1 : Nat) : K)) = (jj : K) + 1 := by push_cast; ring
        rw [linspace_getD _ _ hjj.le hkpos, linspace_getD _ _ hjj.le hkpos, linspace_getD _ _ hjj.le hkpos,
          linspace_getD _ _ (Nat.succ_le_of_lt hjj) hkpos, linspace_getD _ _ (Nat.succ_le_of_lt hjj) hkpos,
          linspace_getD _ _ (Nat.succ_le_of_lt hjj) hkpos, hcast] at hP
        refine Spec.OutlineOf.reparam hlt ?_
        have hfin := arcPoly_outline t c.1 c.2 radius (n := p.n) (ii := ii) hm4 (w0 := mix p.w (w / 2) ((jj : K) / k))
          (w1 := mix p.w (w / 2) (((jj : K) + 1) / k)) (d0 := mix p.distance d ((jj : K) / k))
          (d1 := mix p.distance d (((jj : K) + 1) / k)) (a0 := mix ia fa ((jj : K) / k))
          (a1 := mix ia fa (((jj : K) + 1) / k)) (by
            rintro ⟨z0, z1⟩
            apply hc'
            unfold mix at z0 z1
            have hd : (w / 2 - p.w) * (((jj : K) + 1) / k - (jj : K) / k) = 0 := by linear_combination z1 - z0
            have hw' : w / 2 - p.w = 0 := by
              rcases mul_eq_zero.1 hd with h | h
              · exact h
              · exact absurd h (sub_pos.2 hlt).ne'
            have hpz : p.w = 0 := by linear_combination z0 - (jj : K) / k * hw'
            refine ⟨by unfold widthOf; rw [hpz]; ring, by linear_combination 2 * hw' + 2 * hpz⟩)
        rw [← hP]
        rw [arcSide_piece] at hfin
        exact hfin
      · rename_i hc
        push Not at hc
        simp only [Prod.mk.injEq, and_true] at h
        subst h
        refine ⟨fun _ => rfl, fun hx => absurd ?_ hx⟩
        refine ⟨by unfold widthOf; rw [hc.2]; ring, ?_⟩
        have := hc.1
        linarith

end Outlines

end Gdspy
