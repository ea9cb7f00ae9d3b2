import Verif.Props.C45
import Mathlib.Tactic.LinearCombination
import Mathlib.Tactic.FieldSimp
import Mathlib.Tactic.Positivity
import Mathlib.Algebra.Order.Floor.Ring
import Mathlib.Algebra.Order.BigOperators.Group.List

/-!
# C46: the end point of a path
-/

set_option linter.unusedSectionVars false

namespace Gdspy

open Spec

variable {K : Type}

/-- The fields that drawing does not touch. -/
def SameEnd (p q : PPath K) : Prop :=
  q.x = p.x ∧ q.y = p.y ∧ q.direction = p.direction ∧ q.w = p.w ∧ q.distance = p.distance ∧ q.n = p.n

theorem SameEnd.trans {p q r : PPath K} (h1 : SameEnd p q) (h2 : SameEnd q r) : SameEnd p r := by
  obtain ⟨a, b, c, d, e, f⟩ := h1
  obtain ⟨a', b', c', d', e', f'⟩ := h2
  exact ⟨a'.trans a, b'.trans b, c'.trans c, d'.trans d, e'.trans e, f'.trans f⟩

theorem tag_sameEnd (layer datatype : LayerArg) (p : PPath K) :
    SameEnd p (p.tag layer datatype).1 ∧ (p.tag layer datatype).1.length = p.length := by
  unfold PPath.tag
  split
  · exact ⟨⟨rfl, rfl, rfl, rfl, rfl, rfl⟩, rfl⟩
  · split <;> exact ⟨⟨rfl, rfl, rfl, rfl, rfl, rfl⟩, rfl⟩

theorem forOut_sameEnd {α : Type} (f : PPath K → α → Out (PPath K))
    (hf : ∀ p a, SameEnd p (f p a).1) (l : List α) (p : PPath K) : SameEnd p (forOut f p l).1 := by
  induction l generalizing p with
  | nil => exact ⟨rfl, rfl, rfl, rfl, rfl, rfl⟩
  | cons a l ih =>
    unfold forOut
    have := hf p a
    cases hfa : f p a with
    | mk s e =>
      rw [hfa] at this
      cases e with
      | some e => exact this
      | none => exact this.trans (ih s)

section Segment

variable [Field K] [DecidableEq K]

/-- A segment moves the end point ahead (in the given direction) and to the right, whether or not it
raises. -/
theorem segment_turtle (t : Num K) (length : K) (direction : Option (Dir K))
    (fw fd : Option K) (off : K) (layer datatype : LayerArg) (p : PPath K) :
    turtleOf t (p.segment t length direction fw fd off layer datatype).1 =
      ((turtleOf t p).face ((direction.getD p.direction).vec t)).forward length off := by
  unfold PPath.segment
  simp only
  split
  · obtain ⟨⟨h1, h2, h3, -⟩, -⟩ := tag_sameEnd layer datatype { p with
      direction := direction.getD p.direction
      x := p.x + (length * ((direction.getD p.direction).vec t).1 + off * ((direction.getD p.direction).vec t).2)
      y := p.y + (length * ((direction.getD p.direction).vec t).2 - off * ((direction.getD p.direction).vec t).1)
      w := (fw.map (· / 2)).getD p.w
      distance := fd.getD p.distance
      polygons := p.polygons ++ (List.range p.n).map
        (segPoly ((direction.getD p.direction).vec t).1 ((direction.getD p.direction).vec t).2 p.x p.y p.w p.distance
          (p.x + (length * ((direction.getD p.direction).vec t).1 + off * ((direction.getD p.direction).vec t).2))
          (p.y + (length * ((direction.getD p.direction).vec t).2 - off * ((direction.getD p.direction).vec t).1))
          ((fw.map (· / 2)).getD p.w) (fd.getD p.distance) p.n)
      length := p.length + t.sqrt (length ^ 2 + off ^ 2) }
    simp only [turtleOf, h1, h2, h3, Turtle.face, Turtle.forward, Turtle.mk.injEq, Prod.mk.injEq, and_true]
    constructor <;> ring
  · simp only [turtleOf, Turtle.face, Turtle.forward, Turtle.mk.injEq, Prod.mk.injEq, and_true]
    constructor <;> ring

end Segment

section Arc

variable [Field K] [LinearOrder K] [FloorRing K]

theorem forOut_poly_sameEnd (g : Nat → Out (Pgon K)) (l : List Nat) (p : PPath K) :
    let r := forOut (fun (q : PPath K) ii =>
      match g ii with | (pol, e) => ({ q with polygons := q.polygons ++ [pol] }, e)) p l
    SameEnd p r.1 ∧ r.1.length = p.length := by
  induction l generalizing p with
  | nil => exact ⟨⟨rfl, rfl, rfl, rfl, rfl, rfl⟩, rfl⟩
  | cons a l ih =>
    unfold forOut
    cases hg : g a with
    | mk pol e =>
      cases e with
      | some e => exact ⟨⟨rfl, rfl, rfl, rfl, rfl, rfl⟩, rfl⟩
      | none =>
        have := ih { p with polygons := p.polygons ++ [pol] }
        exact ⟨⟨this.1.1, this.1.2.1, this.1.2.2.1, this.1.2.2.2.1, this.1.2.2.2.2.1, this.1.2.2.2.2.2⟩, this.2⟩

theorem arcPiece_sameEnd (t : Num K) (cx cy radius : K) (m : Nat) (ws ds as : List K)
    (layer datatype : LayerArg) (p : PPath K) (jj : Nat) :
    SameEnd p (p.arcPiece t cx cy radius m ws ds as layer datatype jj).1 := by
  unfold PPath.arcPiece
  simp only
  have := forOut_poly_sameEnd (fun ii => arcPoly t cx cy radius p.n m ii (ws.getD jj 0)
    (ws.getD (jj + 1) 0) (ds.getD jj 0) (ds.getD (jj + 1) 0) (as.getD jj 0) (as.getD (jj + 1) 0))
    (List.range p.n) p
  simp only at this
  split
  · rename_i q e hq
    rw [hq] at this
    exact this.1
  · rename_i q hq
    rw [hq] at this
    have h2 := (tag_sameEnd layer datatype
      { q with length := q.length + |(as.getD (jj + 1) 0 - as.getD jj 0) * radius| }).1
    exact this.1.trans ⟨h2.1, h2.2.1, h2.2.2.1, h2.2.2.2.1, h2.2.2.2.2.1, h2.2.2.2.2.2⟩

/-- The end point and direction after an arc, whether or not it raises. -/
theorem arc_end (t : Num K) (radius ia fa tol : K) (N : Option Nat) (maxPoints : Nat)
    (fw fd : Option K) (layer datatype : LayerArg) (p : PPath K) :
    let q := (p.arc t radius ia fa tol N maxPoints fw fd layer datatype).1
    q.x = p.x - radius * t.cos ia + radius * t.cos fa ∧
    q.y = p.y - radius * t.sin ia + radius * t.sin fa ∧
    q.direction = .num (if fa > ia then fa + t.halfpi else fa - t.halfpi) ∧
    q.w = (fw.map (· / 2)).getD p.w ∧ q.distance = fd.getD p.distance ∧ q.n = p.n := by
  unfold PPath.arc
  simp only
  split
  · exact ⟨rfl, rfl, rfl, rfl, rfl, rfl⟩
  · split
    · exact ⟨rfl, rfl, rfl, rfl, rfl, rfl⟩
    · split
      · exact forOut_sameEnd _ (fun p a => arcPiece_sameEnd _ _ _ _ _ _ _ _ _ _ _ _) _ _
      · exact ⟨rfl, rfl, rfl, rfl, rfl, rfl⟩

end Arc

section Turn

variable [Field K] [LinearOrder K] [IsStrictOrderedRing K] [FloorRing K]

theorem roundInt_intCast (m : Int) : roundInt (m : K) = m := by
  unfold roundInt
  rw [Int.floor_intCast, sub_self, if_pos (by positivity)]

/-- Cosine and sine of a direction's angle are its vector. -/
theorem Dir.vec_angle {t : Num K} (ht : Num.Laws t) (d : Dir K) :
    d.vec t = (t.cos (d.angle t), t.sin (d.angle t)) := by
  have h0 := ht.trig.zero
  have hn := ht.trig.neg t.halfpi
  have ha := ht.trig.add t.halfpi t.halfpi
  have e2 : t.halfpi + t.halfpi = 2 * t.halfpi := by ring
  rw [ht.cosHalf, ht.sinHalf, e2] at ha
  rw [ht.cosHalf, ht.sinHalf] at hn
  cases d with
  | px => simp [Dir.vec, Dir.angle, h0.1, h0.2]
  | py => simp [Dir.vec, Dir.angle, ht.cosHalf, ht.sinHalf]
  | mx => simp [Dir.vec, Dir.angle, ha.1, ha.2]
  | my => simp [Dir.vec, Dir.angle, hn.1, hn.2]
  | num a => rfl

/-- Cosine and sine at integer multiples of a quarter turn depend on the remainder by 4. -/
theorem quarter (t : Num K) (ht : Num.Laws t) (m : Int) :
    (dirOfIndex (m % 4).toNat : Dir K).vec t = (t.cos (m * t.halfpi), t.sin (m * t.halfpi)) := by
  have step : ∀ a : K, t.cos (a + t.halfpi) = - t.sin a ∧ t.sin (a + t.halfpi) = t.cos a := by
    intro a
    have := ht.trig.add a t.halfpi
    rw [ht.cosHalf, ht.sinHalf] at this
    constructor
    · rw [this.1]; ring
    · rw [this.2]; ring
  have step4 : ∀ a : K, t.cos (a + 4 * t.halfpi) = t.cos a ∧ t.sin (a + 4 * t.halfpi) = t.sin a := by
    intro a
    have e : a + 4 * t.halfpi = a + t.halfpi + t.halfpi + t.halfpi + t.halfpi := by ring
    rw [e]
    simp only [(step _).1, (step _).2, neg_neg, and_self]
  have per : ∀ (k : Nat) (a : K), t.cos (a + k * (4 * t.halfpi)) = t.cos a ∧
      t.sin (a + k * (4 * t.halfpi)) = t.sin a := by
    intro k
    induction k with
    | zero => intro a; simp
    | succ k ih =>
      intro a
      have e : a + ((k + 1 : Nat) : K) * (4 * t.halfpi) = (a + k * (4 * t.halfpi)) + 4 * t.halfpi := by
        push_cast; ring
      rw [e]
      exact ⟨(step4 _).1.trans (ih a).1, (step4 _).2.trans (ih a).2⟩
  have perI : ∀ (k : Int) (a : K), t.cos (a + k * (4 * t.halfpi)) = t.cos a ∧
      t.sin (a + k * (4 * t.halfpi)) = t.sin a := by
    intro k a
    rcases Int.eq_nat_or_neg k with ⟨n, rfl | rfl⟩
    · simpa using per n a
    · have := per n (a + ((-(n : Int) : Int) : K) * (4 * t.halfpi))
      have e : a + ((-(n : Int) : Int) : K) * (4 * t.halfpi) + n * (4 * t.halfpi) = a := by
        push_cast; ring
      rw [e] at this
      exact ⟨this.1.symm, this.2.symm⟩
  have hm : (m : K) * t.halfpi = ((m % 4 : Int) : K) * t.halfpi + ((m / 4 : Int) : K) * (4 * t.halfpi) := by
    have h1 : ((m % 4 + 4 * (m / 4) : Int) : K) = (m : K) := by rw [Int.emod_add_mul_ediv]
    push_cast at h1
    linear_combination (- t.halfpi) * h1
  rw [hm, (perI _ _).1, (perI _ _).2]
  have hlo : 0 ≤ m % 4 := Int.emod_nonneg _ (by decide)
  have hhi : m % 4 < 4 := Int.emod_lt_of_pos _ (by decide)
  have h0 := ht.trig.zero
  have s1 := step 0
  have s2 := step t.halfpi
  have s3 := step (t.halfpi + t.halfpi)
  generalize m % 4 = r at hlo hhi
  rcases (by omega : r = 0 ∨ r = 1 ∨ r = 2 ∨ r = 3) with rfl | rfl | rfl | rfl
  · simp [dirOfIndex, Dir.vec, h0.1, h0.2]
  · simp [dirOfIndex, Dir.vec, ht.cosHalf, ht.sinHalf]
  · have e : ((2 : Int) : K) * t.halfpi = t.halfpi + t.halfpi := by push_cast; ring
    rw [e, s2.1, s2.2, ht.cosHalf, ht.sinHalf]
    simp [dirOfIndex, Dir.vec]
  · have e : ((3 : Int) : K) * t.halfpi = t.halfpi + t.halfpi + t.halfpi := by push_cast; ring
    rw [e, s3.1, s3.2, s2.1, s2.2, ht.cosHalf, ht.sinHalf]
    simp [dirOfIndex, Dir.vec]

/-- Rounding a direction that is a multiple of a quarter turn keeps its vector. -/
theorem snap_vec (t : Num K) (ht : Num.Laws t) (d : Dir K) (m : Int)
    (h : d.angle t = m * t.halfpi) : (d.snap t).vec t = d.vec t := by
  unfold Dir.snap
  have : d.angle t / t.halfpi = (m : K) := by
    rw [h, mul_div_assoc, div_self ht.pos.ne', mul_one]
  rw [this, roundInt_intCast, quarter t ht, Dir.vec_angle ht d, h]

theorem Dir.named_angle (t : Num K) (d : Dir K) (h : d.isNamed = true) :
    ∃ m : Int, d.angle t = m * t.halfpi := by
  cases d with
  | px => exact ⟨0, by simp [Dir.angle]⟩
  | py => exact ⟨1, by simp [Dir.angle]⟩
  | mx => exact ⟨2, by simp [Dir.angle]⟩
  | my => exact ⟨-1, by simp [Dir.angle]⟩
  | num a => simp [Dir.isNamed] at h

/-- The numeric content of a turn: from angle `a`, an arc from `a + di` to `a + df` is a turn by
`df - di` with the centre on the side of `di`. -/
theorem turn_math (t : Num K) (ht : Num.Laws t) (r a : K) (x y : K) (b : K) :
    (⟨(x - r * t.cos (a - t.halfpi) + r * t.cos (a + (b - t.halfpi)),
       y - r * t.sin (a - t.halfpi) + r * t.sin (a + (b - t.halfpi))),
      (t.cos (a + b), t.sin (a + b))⟩ : Turtle K) =
      (⟨(x, y), (t.cos a, t.sin a)⟩ : Turtle K).left t r b ∧
    (⟨(x - r * t.cos (a + t.halfpi) + r * t.cos (a + (t.halfpi - b)),
       y - r * t.sin (a + t.halfpi) + r * t.sin (a + (t.halfpi - b))),
      (t.cos (a - b), t.sin (a - b))⟩ : Turtle K) =
      (⟨(x, y), (t.cos a, t.sin a)⟩ : Turtle K).right t r b := by
  have add := ht.trig.add
  have neg := ht.trig.neg
  have hc := ht.cosHalf
  have hs := ht.sinHalf
  have e1 : a - t.halfpi = a + -t.halfpi := by ring
  have e2 : b - t.halfpi = b + -t.halfpi := by ring
  have e3 : t.halfpi - b = t.halfpi + -b := by ring
  have e4 : a - b = a + -b := by ring
  constructor
  · simp only [Turtle.left, Turtle.around, turnVec, e1, e2, (add _ _).1, (add _ _).2, (neg _).1,
      (neg _).2, hc, hs, Turtle.mk.injEq, Prod.mk.injEq]
    refine ⟨⟨?_, ?_⟩, ?_, ?_⟩ <;> ring
  · simp only [Turtle.right, Turtle.around, turnVec, e3, e4, (add _ _).1, (add _ _).2, (neg _).1,
      (neg _).2, hc, hs, Turtle.mk.injEq, Prod.mk.injEq]
    refine ⟨⟨?_, ?_⟩, ?_, ?_⟩ <;> ring

/-- A turn by the angle 0. -/
def TurnArg.isZero : TurnArg K → Prop
  | .num a => a = 0
  | _ => False

/-- One of `l`, `ll`, `r`, `rr`. -/
def TurnArg.isNamed : TurnArg K → Bool
  | .num _ => false
  | _ => true

/-- **C46**, turns: the end point and heading after `turn` are those of the documented arc, for every
radius (also negative), every angle but 0, and every width, distance and layer argument. The direction stays one of
the four named ones exactly under the named turns. -/
theorem C46_turn (t : Num K) (ht : Num.Laws t) (r : K) (angle : TurnArg K) (hz : ¬ angle.isZero)
    (tol : K) (N : Option Nat) (maxPoints : Nat) (fw fd : Option K) (layer datatype : LayerArg)
    (p q : PPath K)
    (h : p.turn t r angle tol N maxPoints fw fd layer datatype = (q, none)) :
    turtleOf t q = (turtleOf t p).turn t r angle ∧
    q.direction.isNamed = (angle.isNamed && p.direction.isNamed) := by
  unfold PPath.turn at h
  simp only at h
  have hend := arc_end t r (p.direction.angle t + (angle.deltas t).1)
    (p.direction.angle t + (angle.deltas t).2.1) tol N maxPoints fw fd layer datatype
    { p with direction := .num (p.direction.angle t) }
  simp only at hend
  split at h
  · simp at h
  · rename_i q' hq'
    rw [hq'] at hend
    obtain ⟨hx, hy, hd, -, -, -⟩ := hend
    simp only [Prod.mk.injEq, and_true] at h
    have hv := Dir.vec_angle ht p.direction
    generalize ha : p.direction.angle t = a at *
    -- the heading before rounding, and the fact that rounding keeps it
    have key : ∀ b : K, q'.x = p.x - r * t.cos (a + (angle.deltas t).1) + r * t.cos (a + (angle.deltas t).2.1) →
        q'.direction = .num b →
        ((angle.deltas t).2.2 = true → p.direction.isNamed = true → ∃ m : Int, b = m * t.halfpi) →
        turtleOf t q = ⟨(q'.x, q'.y), (t.cos b, t.sin b)⟩ ∧
        q.direction.isNamed = ((angle.deltas t).2.2 && p.direction.isNamed) := by
      intro b _ hb hm
      subst h
      by_cases he : ((angle.deltas t).2.2 && p.direction.isNamed) = true
      · rw [if_pos he]
        rw [Bool.and_eq_true] at he
        obtain ⟨m, hm⟩ := hm he.1 he.2
        have := snap_vec t ht q'.direction m (by rw [hb]; exact hm)
        refine ⟨?_, ?_⟩
        · simp only [turtleOf, Turtle.mk.injEq, true_and]
          rw [this, hb]; rfl
        · rw [he.1, he.2]
          unfold Dir.snap dirOfIndex
          split <;> rfl
      · rw [if_neg he]
        refine ⟨by rw [turtleOf, hb]; rfl, ?_⟩
        rw [hb]
        simp only [Bool.not_eq_true] at he
        rw [he]; rfl
    have hm : ∀ k : Int, (p.direction.isNamed = true → ∃ m : Int, a + k * t.halfpi = m * t.halfpi) := by
      intro k hn
      obtain ⟨m, hm⟩ := Dir.named_angle t p.direction hn
      refine ⟨m + k, ?_⟩
      rw [← ha, hm]; push_cast; ring
    have hpos := ht.pos
    have hT : turtleOf t p = ⟨(p.x, p.y), (t.cos a, t.sin a)⟩ := by rw [turtleOf, hv]
    have left : ∀ b : K, 0 < b → (angle.deltas t).1 = - t.halfpi → (angle.deltas t).2.1 = b - t.halfpi →
        ((angle.deltas t).2.2 = true → p.direction.isNamed = true → ∃ m : Int, a + b = m * t.halfpi) →
        turtleOf t q = (turtleOf t p).left t r b ∧
        q.direction.isNamed = ((angle.deltas t).2.2 && p.direction.isNamed) := by
      intro b hb h1 h2 h3
      have hd' : q'.direction = .num (a + b) := by
        rw [hd, h1, h2, if_pos (by linarith)]
        congr 1; ring
      obtain ⟨k1, k2⟩ := key (a + b) hx hd' h3
      refine ⟨?_, k2⟩
      rw [k1, hT, hx, hy, h1, h2, ← (turn_math t ht r a p.x p.y b).1, ← sub_eq_add_neg]
    have right : ∀ b : K, 0 < b → (angle.deltas t).1 = t.halfpi → (angle.deltas t).2.1 = t.halfpi - b →
        ((angle.deltas t).2.2 = true → p.direction.isNamed = true → ∃ m : Int, a - b = m * t.halfpi) →
        turtleOf t q = (turtleOf t p).right t r b ∧
        q.direction.isNamed = ((angle.deltas t).2.2 && p.direction.isNamed) := by
      intro b hb h1 h2 h3
      have hd' : q'.direction = .num (a - b) := by
        rw [hd, h1, h2, if_neg (by intro hh; linarith)]
        congr 1; ring
      obtain ⟨k1, k2⟩ := key (a - b) hx hd' h3
      refine ⟨?_, k2⟩
      rw [k1, hT, hx, hy, h1, h2, ← (turn_math t ht r a p.x p.y b).2]
    cases angle with
    | l =>
      have := left t.halfpi hpos rfl (by simp [TurnArg.deltas])
        (fun _ hn => by have := hm 1 hn; simpa using this)
      simpa [Turtle.turn, TurnArg.isNamed, TurnArg.deltas] using this
    | ll =>
      have := left (2 * t.halfpi) (by linarith) rfl (by simp only [TurnArg.deltas]; ring)
        (fun _ hn => by have := hm 2 hn; simpa using this)
      simpa [Turtle.turn, TurnArg.isNamed, TurnArg.deltas] using this
    | r =>
      have := right t.halfpi hpos rfl (by simp [TurnArg.deltas])
        (fun _ hn => by have := hm (-1) hn; simpa [← sub_eq_add_neg] using this)
      simpa [Turtle.turn, TurnArg.isNamed, TurnArg.deltas] using this
    | rr =>
      have := right (2 * t.halfpi) (by linarith) rfl (by simp only [TurnArg.deltas]; ring)
        (fun _ hn => by have := hm (-2) hn; simpa [← sub_eq_add_neg] using this)
      simpa [Turtle.turn, TurnArg.isNamed, TurnArg.deltas] using this
    | num b =>
      have hb : b ≠ 0 := hz
      rcases lt_or_gt_of_ne hb with hlt | hgt
      · have hnot : ¬ (0 < b) := not_lt.2 hlt.le
        have := right (-b) (by linarith) (by simp [TurnArg.deltas, hlt])
          (by simp [TurnArg.deltas, hlt]) (fun he => by simp [TurnArg.deltas, hlt] at he)
        simpa [Turtle.turn, TurnArg.isNamed, TurnArg.deltas, hlt, hnot] using this
      · have hnot : ¬ (b < 0) := not_lt.2 hgt.le
        have := left b hgt (by simp [TurnArg.deltas, hnot])
          (by simp only [TurnArg.deltas, hnot, if_false]; ring)
          (fun he => by simp [TurnArg.deltas, hnot] at he)
        simpa [Turtle.turn, TurnArg.isNamed, TurnArg.deltas, hnot, hgt] using this

/-- A `segment` or `turn` call without its layers. -/
inductive Step (K : Type) where
  | seg (length : K) (direction : Option (Dir K)) (axisOffset : K) (fw fd : Option K)
  | turn (radius : K) (angle : TurnArg K) (tol : K) (N : Option Nat) (maxPoints : Nat)
      (fw fd : Option K)

/-- The call on the path. -/
def Step.call : Step K → PathCall K
  | .seg l d o fw fd => .segment l d fw fd o
  | .turn r a tol N mp fw fd => .turn r a tol N mp fw fd

/-- The same instruction to a turtle. -/
def Step.walk (t : Num K) (m : Turtle K) : Step K → Turtle K
  | .seg l none o _ _ => m.forward l o
  | .seg l (some d) o _ _ => (m.face (d.vec t)).forward l o
  | .turn r a _ _ _ _ _ => m.turn t r a

/-- No turn by 0. -/
def Step.proper : Step K → Prop
  | .seg _ _ _ _ _ => True
  | .turn _ a _ _ _ _ _ => ¬ a.isZero

/-- **C46**, sequences: after any sequence of `segment` and `turn` calls that return (with any widths,
distances, layers and numbers of points), the end point and the heading are those of a turtle that
follows the same instructions. -/
theorem C46_sequence (t : Num K) (ht : Num.Laws t) (p q : PPath K)
    (l : List (Step K × LayerArg × LayerArg)) (hl : ∀ s ∈ l, s.1.proper)
    (h : runCalls t p (l.map fun s => (s.1.call, s.2)) = (q, none)) :
    turtleOf t q = l.foldl (fun m s => s.1.walk t m) (turtleOf t p) := by
  unfold runCalls at h
  induction l generalizing p with
  | nil =>
    simp only [List.map_nil, forOut, Prod.mk.injEq, and_true] at h
    subst h; rfl
  | cons s l ih =>
    rw [List.map_cons] at h
    unfold forOut at h
    simp only at h
    rw [List.foldl_cons]
    cases hc : s.1.call.run t s.2.1 s.2.2 p with
    | mk r e =>
      rw [hc] at h
      cases e with
      | some e => simp at h
      | none =>
        rw [ih _ (fun x hx => hl x (List.mem_cons_of_mem _ hx)) h]
        congr 1
        have hprop := hl s List.mem_cons_self
        obtain ⟨s, a, b⟩ := s
        cases s with
        | seg len d o fw fd =>
          simp only [Step.call, PathCall.run] at hc
          have := segment_turtle t len d fw fd o a b p
          rw [hc] at this
          cases d with
          | none => exact this
          | some d => exact this
        | turn rad an tol N mp fw fd =>
          exact (C46_turn t ht rad an hprop tol N mp fw fd a b p r hc).1

/-- **C46**, arcs: `arc` follows the circle of the given radius on which the present end point has
angle `ia`, to angle `fa`; the heading is the tangent there, counter-clockwise if the angle grows. -/
theorem C46_arc (t : Num K) (ht : Num.Laws t) (radius ia fa tol : K) (N : Option Nat)
    (maxPoints : Nat) (fw fd : Option K) (layer datatype : LayerArg) (p q : PPath K)
    (h : p.arc t radius ia fa tol N maxPoints fw fd layer datatype = (q, none)) :
    ∃ c : Pt K, (p.x, p.y) = (c.1 + radius * t.cos ia, c.2 + radius * t.sin ia) ∧
      (q.x, q.y) = (c.1 + radius * t.cos fa, c.2 + radius * t.sin fa) ∧
      q.direction.vec t = if fa > ia then (- t.sin fa, t.cos fa) else (t.sin fa, - t.cos fa) := by
  have := arc_end t radius ia fa tol N maxPoints fw fd layer datatype p
  rw [h] at this
  obtain ⟨hx, hy, hd, -⟩ := this
  refine ⟨(p.x - radius * t.cos ia, p.y - radius * t.sin ia), by simp, ?_, ?_⟩
  · simp only at hx hy
    rw [hx, hy]
  · simp only at hd
    rw [hd]
    have h1 := ht.trig.add fa t.halfpi
    have h2 := ht.trig.add fa (-t.halfpi)
    rw [ht.cosHalf, ht.sinHalf] at h1
    rw [(ht.trig.neg _).1, (ht.trig.neg _).2, ht.cosHalf, ht.sinHalf] at h2
    by_cases hlt : fa > ia
    · rw [if_pos hlt, if_pos hlt, Dir.vec, h1.1, h1.2]
      ext <;> simp
    · rw [if_neg hlt, if_neg hlt, Dir.vec, sub_eq_add_neg, h2.1, h2.2]
      ext <;> simp

end Turn

section Axis

variable [Field K] [DecidableEq K]

/-- **C46**, axis directions: segments along the axes, without lateral offset, accumulate exactly
whatever the numpy functions do: no cosine or sine is involved. -/
theorem C46_axis (t : Num K) (p q : PPath K)
    (l : List ((K × Dir K) × (Option K × Option K) × LayerArg × LayerArg))
    (hl : ∀ s ∈ l, s.1.2.isNamed = true)
    (h : forOut (fun (p : PPath K) s =>
      p.segment t s.1.1 (some s.1.2) s.2.1.1 s.2.1.2 0 s.2.2.1 s.2.2.2) p l = (q, none)) :
    q.x = p.x + (l.map fun s => match s.1.2 with | .px => s.1.1 | .mx => -s.1.1 | _ => 0).sum ∧
    q.y = p.y + (l.map fun s => match s.1.2 with | .py => s.1.1 | .my => -s.1.1 | _ => 0).sum := by
  induction l generalizing p with
  | nil =>
    simp only [forOut, Prod.mk.injEq, and_true] at h
    subst h; simp
  | cons s l ih =>
    unfold forOut at h
    have hs := segment_turtle t s.1.1 (some s.1.2) s.2.1.1 s.2.1.2 0 s.2.2.1 s.2.2.2 p
    split at h
    · simp at h
    · rename_i r hr
      rw [hr] at hs
      obtain ⟨h1, h2⟩ := ih r (fun x hx => hl x (List.mem_cons_of_mem _ hx)) h
      simp only [turtleOf, Turtle.face, Turtle.forward, Option.getD_some, Turtle.mk.injEq,
        Prod.mk.injEq, zero_mul, add_zero, sub_zero] at hs
      have hn := hl s List.mem_cons_self
      rw [h1, h2, hs.1.1, hs.1.2]
      obtain ⟨⟨len, d⟩, rest⟩ := s
      cases d <;> simp [Dir.vec, Dir.isNamed, add_assoc] at hn ⊢

end Axis

section Zero

variable [Field K] [LinearOrder K] [IsStrictOrderedRing K] [FloorRing K]

/-- **C46**, a turn by 0: the code turns around. The heading is reversed and the end point stays. -/
theorem C46_zero_turn_reverses (t : Num K) (ht : Num.Laws t) (r tol : K) (N : Option Nat)
    (maxPoints : Nat) (fw fd : Option K) (layer datatype : LayerArg) (p q : PPath K)
    (h : p.turn t r (.num 0) tol N maxPoints fw fd layer datatype = (q, none)) :
    q.x = p.x ∧ q.y = p.y ∧
    q.direction.vec t = (-(p.direction.vec t).1, -(p.direction.vec t).2) := by
  unfold PPath.turn at h
  simp only at h
  have hend := arc_end t r (p.direction.angle t + ((TurnArg.num 0).deltas t).1)
    (p.direction.angle t + ((TurnArg.num 0).deltas t).2.1) tol N maxPoints fw fd layer datatype
    { p with direction := .num (p.direction.angle t) }
  simp only at hend
  split at h
  · simp at h
  · rename_i q' hq'
    rw [hq'] at hend
    obtain ⟨hx, hy, hd, -, -, -⟩ := hend
    simp only [TurnArg.deltas, lt_irrefl, if_false, add_zero, Bool.false_and, Bool.false_eq_true,
      sub_add_cancel, Prod.mk.injEq, and_true] at hx hy hd h
    subst h
    refine ⟨hx, hy, ?_⟩
    rw [hd, Dir.vec_angle ht p.direction]
    generalize p.direction.angle t = a
    have h1 := ht.trig.add (a + -t.halfpi) (-t.halfpi)
    have h2 := ht.trig.add a (-t.halfpi)
    rw [(ht.trig.neg _).1, (ht.trig.neg _).2, ht.cosHalf, ht.sinHalf] at h1 h2
    rw [Dir.vec, sub_eq_add_neg, h1.1, h1.2, h2.1, h2.2]
    ext <;> simp

end Zero

/-! ### Concrete cases -/

/-- A square spiral with named directions, turns, and an oblique segment. -/
def sampleSteps : List (Step ℚ × LayerArg × LayerArg) :=
  [(.seg 10 none 0 none none, .one 1, .one 0), (.turn 4 .l (1 / 100) (some 8) 199 none none, .one 1, .one 0),
   (.seg 5 none 2 none none, .list [1, 2], .one 0), (.turn 3 .rr (1 / 100) (some 8) 199 none none, .one 1, .one 0),
   (.seg 5 (some (.num 37)) 0 (some 4) none, .one 1, .one 0)]

example :
    let r := runCalls ratNum (PPath.new 2 (0, 0) 1 0) (sampleSteps.map fun s => (s.1.call, s.2))
    r.2 = none ∧ (r.1.x, r.1.y) = (26, 12) ∧ r.1.direction = .num 37 ∧ r.1.polygons.length = 5 := by
  decide +kernel

/-- Turning by 0 at the end of a path along +x: the next segment goes back. -/
example :
    let r := runCalls ratNum (PPath.new 2 (0, 0) 1 0)
      [(.segment 10 none none none 0, .one 1, .one 0),
       (.turn 4 (.num 0) (1 / 100) (some 8) 199 none none, .one 1, .one 0),
       (.segment 10 none none none 0, .one 1, .one 0)]
    r.2 = none ∧ r.1.direction = .num (-180) := by
  decide +kernel

end Gdspy
