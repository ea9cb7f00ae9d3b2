import Verif.Spec.Outline
import Verif.Model.Flex
import Mathlib.Tactic.Linarith
import Mathlib.Tactic.FieldSimp
import Mathlib.Tactic.LinearCombination
import Mathlib.Tactic.Positivity
import Mathlib.Tactic.Ring

/-!
# Corners of outlines
-/

set_option linter.unusedSectionVars false

namespace Gdspy

open Spec

variable {K : Type} [Field K] [LinearOrder K] [IsStrictOrderedRing K] [FloorRing K]

theorem lineCross_spec (p0 v0 p1 v1 : Pt K) (h : v1.2 * v0.1 - v1.1 * v0.2 ≠ 0) :
    (lineCross p0 v0 p1 v1).2.2 = padd p0 (psmul (lineCross p0 v0 p1 v1).1 v0) ∧
    (lineCross p0 v0 p1 v1).2.2 = padd p1 (psmul (lineCross p0 v0 p1 v1).2.1 v1) := by
  have h2 : (2 : K) ≠ 0 := two_ne_zero
  have key : padd p0 (psmul (lineCross p0 v0 p1 v1).1 v0) = padd p1 (psmul (lineCross p0 v0 p1 v1).2.1 v1) := by
    unfold lineCross padd psmul
    simp only
    refine Prod.ext ?_ ?_ <;> simp only <;> field_simp <;> ring
  have hh : (lineCross p0 v0 p1 v1).2.2 =
      halfway (padd p0 (psmul (lineCross p0 v0 p1 v1).1 v0)) (padd p1 (psmul (lineCross p0 v0 p1 v1).2.1 v1)) := rfl
  have hd (q : Pt K) : halfway q q = q := by
    refine Prod.ext ?_ ?_ <;> simp only [halfway] <;> ring
  rw [hh, ← key, hd]
  exact ⟨rfl, key ▸ rfl⟩

/-- The parameters of the crossing are unique. -/
theorem lineCross_unique {p0 v0 p1 v1 : Pt K} (h : v1.2 * v0.1 - v1.1 * v0.2 ≠ 0) {x y : K}
    (hxy : padd p0 (psmul x v0) = padd p1 (psmul y v1)) :
    x = (lineCross p0 v0 p1 v1).1 ∧ y = (lineCross p0 v0 p1 v1).2.1 := by
  have h1 := congrArg Prod.fst hxy
  have h2 := congrArg Prod.snd hxy
  simp only [padd, psmul] at h1 h2
  unfold lineCross
  simp only
  constructor
  · rw [eq_div_iff h]; linear_combination v1.2 * h1 - v1.1 * h2
  · rw [eq_div_iff h]; linear_combination v0.2 * h1 - v0.1 * h2

/-- A joint between two sides. -/
def jointOf (a b : Side K) (c : Pt K) (h : K) : FlexJoint K := ⟨a.2, psub a.2 a.1, b.1, psub b.2 b.1, c, h⟩

theorem dist2_normSq (a : Side K) : normSq (psub a.2 a.1) = dist2 a.1 a.2 := by
  simp only [normSq, psub, dist2]; ring

theorem dist2_pos_of {a : Side K} (h : a.1 ≠ a.2) : 0 < dist2 a.1 a.2 := by
  unfold dist2
  rcases eq_or_ne a.1.1 a.2.1 with h1 | h1
  · have h2 : a.1.2 ≠ a.2.2 := fun h2 => h (Prod.ext h1 h2)
    have := sub_ne_zero.2 h2
    positivity
  · have := sub_ne_zero.2 h1
    positivity

theorem den_turn (a b : Side K) (c : Pt K) (h : K) :
    (jointOf a b c h).v1.2 * (jointOf a b c h).v0.1 - (jointOf a b c h).v1.1 * (jointOf a b c h).v0.2 = a.turn b := by
  simp only [jointOf, psub, Side.turn, Side.vec]; ring

theorem turn_ne {a b : Side K} (ha : a.1 ≠ a.2) (hb : b.1 ≠ b.2) (h : ¬ a.Straight b) : a.turn b ≠ 0 := by
  intro h0
  apply h
  unfold Side.Straight
  rw [h0]
  have h1 := dist2_pos_of ha
  have h2 := dist2_pos_of hb
  have : 0 < 1 / 10 ^ 12 * dist2 a.1 a.2 * dist2 b.1 b.2 := by positivity
  simpa using this

theorem onLine_end (a : Side K) (x : K) : OnLine a.1 a.2 (padd a.2 (psmul x (psub a.2 a.1))) :=
  ⟨1 + x, by simp only [padd, psmul, psub]; refine Prod.ext ?_ ?_ <;> simp only <;> ring⟩

theorem onLine_start (a : Side K) (x : K) : OnLine a.1 a.2 (padd a.1 (psmul x (psub a.2 a.1))) :=
  ⟨x, by simp only [padd, psmul, psub]⟩

/-- The crossing point used for all corners but natural ones and bends. -/
def crossOf (j : FlexJoint K) : K × K × Pt K :=
  if (j.v1.2 * j.v0.1 - j.v1.1 * j.v0.2) ^ 2 < 1 / 10 ^ 12 * normSq j.v0 * normSq j.v1 then (0, 0, halfway j.p0 j.p1)
  else lineCross j.p0 j.v0 j.p1 j.v1

theorem crossOf_straight {a b : Side K} (c : Pt K) (h : K) (hs : a.Straight b) :
    crossOf (jointOf a b c h) = (0, 0, middle a.2 b.1) := by
  unfold crossOf
  rw [den_turn, if_pos (by simp only [jointOf, dist2_normSq]; exact hs)]
  rfl

theorem crossOf_turn {a b : Side K} (c : Pt K) (h : K) (hs : ¬ a.Straight b) :
    crossOf (jointOf a b c h) = lineCross a.2 (psub a.2 a.1) b.1 (psub b.2 b.1) := by
  unfold crossOf
  rw [den_turn, if_neg (by simp only [jointOf, dist2_normSq]; exact hs)]
  rfl

theorem crossOf_meet {a b : Side K} (ha : a.1 ≠ a.2) (hb : b.1 ≠ b.2) (c : Pt K) (h : K) :
    a.Meet b (crossOf (jointOf a b c h)).2.2 := by
  constructor
  · intro hs; rw [crossOf_straight c h hs]
  · intro hs
    have hne := turn_ne ha hb hs
    rw [← den_turn a b c h] at hne
    obtain ⟨h1, h2⟩ := lineCross_spec a.2 (psub a.2 a.1) b.1 (psub b.2 b.1) hne
    rw [crossOf_turn c h hs]
    exact ⟨h1 ▸ onLine_end a _, h2 ▸ onLine_start b _⟩

theorem crossOf_inner {a b : Side K} (ha : a.1 ≠ a.2) (hb : b.1 ≠ b.2) (c : Pt K) (h : K) :
    ((crossOf (jointOf a b c h)).1 ≤ 0 ∧ 0 ≤ (crossOf (jointOf a b c h)).2.1) ↔ a.Inner b := by
  unfold Side.Inner
  by_cases hs : a.Straight b
  · rw [crossOf_straight c h hs]; simp [hs]
  · have hne := turn_ne ha hb hs
    rw [← den_turn a b c h] at hne
    obtain ⟨h1, h2⟩ := lineCross_spec a.2 (psub a.2 a.1) b.1 (psub b.2 b.1) hne
    rw [crossOf_turn c h hs]
    constructor
    · rintro ⟨h3, h4⟩
      exact .inr ⟨_, _, h3, h4, h1.symm.trans h2⟩
    · rintro (h3 | ⟨x, y, hx, hy, hxy⟩)
      · exact absurd h3 hs
      · obtain ⟨rfl, rfl⟩ := lineCross_unique (p0 := a.2) (v0 := psub a.2 a.1) (p1 := b.1) (v1 := psub b.2 b.1) hne hxy
        exact ⟨hx, hy⟩

theorem miter_ok (ctx : FlexCtx K) (tol : K) (rad : Option K) {a b : Side K} (ha : a.1 ≠ a.2) (hb : b.1 ≠ b.2) (c : Pt K)
    (h w : K) : ∃ g, flexCorner ctx tol rad .miter (jointOf a b c h) = .ok g ∧ CornerOk ctx.num rad .miter a b c w g :=
  ⟨_, rfl, _, rfl, crossOf_meet ha hb c h⟩

theorem bevel_ok (ctx : FlexCtx K) (tol : K) (rad : Option K) {a b : Side K} (ha : a.1 ≠ a.2) (hb : b.1 ≠ b.2) (c : Pt K)
    (h w : K) : ∃ g, flexCorner ctx tol rad .bevel (jointOf a b c h) = .ok g ∧ CornerOk ctx.num rad .bevel a b c w g := by
  have hf : flexCorner ctx tol rad .bevel (jointOf a b c h) =
      if (crossOf (jointOf a b c h)).1 ≤ 0 ∧ 0 ≤ (crossOf (jointOf a b c h)).2.1 then
        .ok [(crossOf (jointOf a b c h)).2.2] else .ok [a.2, b.1] := rfl
  rw [hf]
  by_cases hi : a.Inner b
  · rw [if_pos ((crossOf_inner ha hb c h).2 hi)]
    exact ⟨_, rfl, fun _ => ⟨_, rfl, crossOf_meet ha hb c h⟩, fun hn => absurd hi hn⟩
  · rw [if_neg fun hc => hi ((crossOf_inner ha hb c h).1 hc)]
    exact ⟨_, rfl, fun hn => absurd hn hi, fun _ => rfl⟩

theorem sqrt_pos_of {t : Num K} (ht : Num.Polar t) {x : K} (hx : 0 < x) : 0 < t.sqrt x := by
  rcases (ht.sqrtNonneg x).lt_or_eq with h | h
  · exact h
  · have := ht.sqrtSq x hx.le
    rw [← h] at this
    simp at this
    exact absurd this hx.ne

theorem natural_ok (ctx : FlexCtx K) (ht : Num.Polar ctx.num) (tol : K) (rad : Option K) {a b : Side K} (ha : a.1 ≠ a.2)
    (hb : b.1 ≠ b.2) (c : Pt K) {w : K} (hw : 0 < w) :
    ∃ g, flexCorner ctx tol rad .natural (jointOf a b c (w / 2)) = .ok g ∧ CornerOk ctx.num rad .natural a b c w g := by
  refine ⟨_, rfl, ?_⟩
  have hda := dist2_pos_of ha
  have hdb := dist2_pos_of hb
  have hsa := sqrt_pos_of ht hda
  have hsb := sqrt_pos_of ht hdb
  have hqa := ht.sqrtSq _ hda.le
  have hqb := ht.sqrtSq _ hdb.le
  unfold naturalCorner
  simp only [CornerOk]
  have e1 : (jointOf a b c (w / 2)).v0 = psub a.2 a.1 := rfl
  have e2 : (jointOf a b c (w / 2)).v1 = psub b.2 b.1 := rfl
  have e3 : (jointOf a b c (w / 2)).p0 = a.2 := rfl
  have e4 : (jointOf a b c (w / 2)).p1 = b.1 := rfl
  have e5 : (jointOf a b c (w / 2)).halfW = w / 2 := rfl
  simp only [e1, e2, e3, e4, e5, dist2_normSq]
  generalize hα : ctx.num.sqrt (dist2 a.1 a.2) = α at *
  generalize hβ : ctx.num.sqrt (dist2 b.1 b.2) = β at *
  have hden : (psmul (w / 2 / β) (psub b.2 b.1)).2 * (psmul (w / 2 / α) (psub a.2 a.1)).1 -
      (psmul (w / 2 / β) (psub b.2 b.1)).1 * (psmul (w / 2 / α) (psub a.2 a.1)).2 =
      (w / 2) ^ 2 * a.turn b / (α * β) := by
    simp only [psmul, psub, Side.turn, Side.vec]
    field_simp
  have hst : ((w / 2) ^ 2 * a.turn b / (α * β)) ^ 2 < 1 / 10 ^ 12 * (w / 2) ^ 4 ↔ a.Straight b := by
    unfold Side.Straight
    rw [← hqa, ← hqb, div_pow, div_lt_iff₀ (by positivity)]
    have hp : 0 < (w / 2) ^ 4 := by positivity
    rw [show ((w / 2) ^ 2 * a.turn b) ^ 2 = (w / 2) ^ 4 * a.turn b ^ 2 by ring,
      show 1 / 10 ^ 12 * (w / 2) ^ 4 * (α * β) ^ 2 = (w / 2) ^ 4 * (1 / 10 ^ 12 * α ^ 2 * β ^ 2) by ring]
    exact mul_lt_mul_iff_right₀ hp
  rw [hden]
  have hmid (p q u v : Pt K) : halfway (padd p (psmul 0 u)) (padd q (psmul 0 v)) = middle p q := by
    simp [halfway, padd, psmul, middle]
  by_cases hs : a.Straight b
  · rw [if_pos (hst.2 hs)]
    refine ⟨fun _ => ?_, fun hn => absurd hs hn⟩
    simp only [lt_irrefl, false_and, if_false, zero_le_one, true_and]
    rw [if_pos (by norm_num), min_eq_right zero_le_one, max_eq_right (by norm_num), hmid]
  · rw [if_neg (fun hc => hs (hst.1 hc))]
    refine ⟨fun hn => absurd hn hs, fun _ => ?_⟩
    have hne : (w / 2) ^ 2 * a.turn b / (α * β) ≠ 0 := by
      have := turn_ne ha hb hs
      positivity
    rw [← hden] at hne
    obtain ⟨h1, h2⟩ := lineCross_spec a.2 _ b.1 _ hne
    generalize lineCross a.2 (psmul (w / 2 / α) (psub a.2 a.1)) b.1 (psmul (w / 2 / β) (psub b.2 b.1)) = r at h1 h2
    obtain ⟨u, v, p⟩ := r
    simp only at h1 h2 ⊢
    have ea (x : K) : padd a.2 (psmul x (psmul (w / 2 / α) (psub a.2 a.1))) = a.ahead ctx.num a.2 (x * (w / 2)) := by
      simp only [padd, psmul, psub, Side.ahead, Side.vec, hα]
      refine Prod.ext ?_ ?_ <;> simp only <;> ring
    have eb (x : K) : padd b.1 (psmul x (psmul (w / 2 / β) (psub b.2 b.1))) = b.ahead ctx.num b.1 (x * (w / 2)) := by
      simp only [padd, psmul, psub, Side.ahead, Side.vec, hβ]
      refine Prod.ext ?_ ?_ <;> simp only <;> ring
    rw [ea] at h1
    rw [eb] at h2
    have hw2 : 0 < w / 2 := by positivity
    refine ⟨u * (w / 2), -v * (w / 2), p, h1, by rw [h2]; congr 1; ring, ?_⟩
    have hu : u * (w / 2) ≤ w / 2 ↔ u ≤ 1 := by
      constructor
      · intro h; by_contra hc; push Not at hc; nlinarith
      · intro h; nlinarith
    have hv : -v * (w / 2) ≤ w / 2 ↔ -1 ≤ v := by
      constructor
      · intro h; by_contra hc; push Not at hc; nlinarith
      · intro h; nlinarith
    have hdup (q : Pt K) : halfway q q = q := by
      refine Prod.ext ?_ ?_ <;> simp only [halfway] <;> ring
    simp only [hu, hv]
    by_cases hin : u < 0 ∧ 0 < v
    · rw [if_pos hin, if_pos ⟨by linarith [hin.1], by linarith [hin.2]⟩]
    · rw [if_neg hin]
      by_cases hle : u ≤ 1 ∧ -1 ≤ v
      · rw [if_pos hle, if_pos hle, min_eq_right hle.1, max_eq_right hle.2, ea, eb, ← h1, ← h2, hdup]
      · rw [if_neg hle, if_neg hle, ea, eb]
        have m1 : min 1 u * (w / 2) = min (u * (w / 2)) (w / 2) := by
          rcases le_total u 1 with h | h
          · rw [min_eq_right h, min_eq_left (hu.2 h)]
          · rw [min_eq_left h, min_eq_right (by nlinarith)]; ring
        have m2 : max (-1) v * (w / 2) = -min (-v * (w / 2)) (w / 2) := by
          rcases le_total (-1) v with h | h
          · rw [max_eq_right h, min_eq_left (hv.2 h)]; ring
          · rw [max_eq_left h, min_eq_right (by nlinarith)]; ring
        rw [m1, m2]

theorem unitNormal_toLeft (t : Num K) (v : Pt K) : unitNormal t v = toLeft t v := by
  simp only [unitNormal, toLeft, mul_neg, mul_one]

theorem sideAt_zero (t : Num K) (p q : Pt K) (r : List (Pt K)) (x y : K) (z : List K) :
    sideAt t (p :: q :: r) (x :: y :: z) 0 = beside t p q x y := rfl

theorem sideAt_succ (t : Num K) (p : Pt K) (r : List (Pt K)) (x : K) (z : List K) (i : Nat) :
    sideAt t (p :: r) (x :: z) (i + 1) = sideAt t r z i := rfl

theorem offsetLegs_get (t : Num K) : ∀ (pts : List (Pt K)) (ds : List K), ds.length = pts.length →
    offsetLegs t (List.zip pts ds) = (List.range (pts.length - 1)).map (sideAt t pts ds)
  | [], [], _ => rfl
  | [p], [x], _ => rfl
  | p :: q :: r, x :: y :: z, h => by
    have ih := offsetLegs_get t (q :: r) (y :: z) (by simpa using h)
    simp only [List.zip_cons_cons] at ih ⊢
    rw [offsetLegs, ih]
    simp only [List.length_cons, Nat.add_sub_cancel, List.range_succ_eq_map, List.map_cons, List.map_map]
    refine List.cons_eq_cons.2 ⟨?_, rfl⟩
    simp only [unitNormal_toLeft, sideAt_zero, beside, padd, psmul, psub]
  | [], _ :: _, h => by simp at h
  | _ :: _, [], h => by simp at h
  | [_], _ :: _ :: _, h => by simp at h
  | _ :: _ :: _, [_], h => by simp at h

/-- The edges of the model are the sides of the specification. -/
theorem flexEdges_get (t : Num K) (s : K) : ∀ (pts : List (Pt K)) (ws : List K), ws.length = pts.length →
    flexEdges t s (List.zip pts ws) = (List.range (pts.length - 1)).map fun i =>
      let a := sideAt t pts (ws.map fun w => s * (w / 2)) i
      ⟨a.1, a.2, pts.getD (i + 1) (0, 0), ws.getD (i + 1) 0 / 2⟩
  | [], [], _ => rfl
  | [p], [x], _ => rfl
  | p :: q :: r, x :: y :: z, h => by
    have ih := flexEdges_get t s (q :: r) (y :: z) (by simpa using h)
    simp only [List.zip_cons_cons] at ih ⊢
    rw [flexEdges, ih]
    simp only [List.length_cons, Nat.add_sub_cancel, List.range_succ_eq_map, List.map_cons, List.map_map]
    refine List.cons_eq_cons.2 ⟨?_, rfl⟩
    simp only [unitNormal_toLeft, sideAt_zero, beside, padd, psmul, psub, List.getD_cons_succ, List.getD_cons_zero]
  | [], _ :: _, h => by simp at h
  | _ :: _, [], h => by simp at h
  | [_], _ :: _ :: _, h => by simp at h
  | _ :: _ :: _, [_], h => by simp at h

theorem flexJoints_map (e : Nat → FlexEdge K) (n k : Nat) :
    flexJoints ((List.range' k n).map e) = (List.range' k (n - 1)).map fun i =>
      ⟨(e i).pb, psub (e i).pb (e i).pa, (e (i + 1)).pa, psub (e (i + 1)).pb (e (i + 1)).pa, (e i).spine, (e i).halfW⟩ := by
  induction n generalizing k with
  | zero => rfl
  | succ n ih =>
    cases n with
    | zero => rfl
    | succ n =>
      have := ih (k + 1)
      simp only [List.range'_succ, List.map_cons] at this ⊢
      rw [flexJoints, this]
      simp only [Nat.add_sub_cancel, List.range'_succ, List.map_cons]

/-- The joints of one side. -/
theorem flexJoints_get (t : Num K) (s : K) (pts : List (Pt K)) (ws : List K) (h : ws.length = pts.length) :
    flexJoints (flexEdges t s (List.zip pts ws)) = (List.range (pts.length - 2)).map fun i =>
      jointOf (sideAt t pts (ws.map fun w => s * (w / 2)) i) (sideAt t pts (ws.map fun w => s * (w / 2)) (i + 1))
        (pts.getD (i + 1) (0, 0)) (ws.getD (i + 1) 0 / 2) := by
  rw [flexEdges_get t s pts ws h, List.range_eq_range', List.range_eq_range', flexJoints_map]
  rfl

theorem joinLegs_map (e : Nat → Side K) (n k : Nat) :
    joinLegs ((List.range' k (n + 1)).map e) =
      ((List.range' k n).map fun i => legJoin (e i) (e (i + 1))) ++ [(e (k + n)).2] := by
  induction n generalizing k with
  | zero => rfl
  | succ n ih =>
    have := ih (k + 1)
    simp only [List.range'_succ, List.map_cons] at this ⊢
    rw [joinLegs, this]
    simp only [List.cons_append, Nat.add_assoc, Nat.add_comm 1]

theorem legJoin_meet {a b : Side K} (ha : a.1 ≠ a.2) (hb : b.1 ≠ b.2) : a.Meet b (legJoin a b) := by
  have hden : vcross (psub b.2 b.1) (psub a.2 a.1) = -a.turn b := by
    simp only [vcross, psub, Side.turn, Side.vec]; ring
  have hlim : (-a.turn b) ^ 2 < 1 / 10 ^ 12 * normSq (psub b.2 b.1) * normSq (psub a.2 a.1) ↔ a.Straight b := by
    simp only [dist2_normSq, Side.Straight, neg_sq]
    rw [mul_assoc, mul_assoc, mul_comm (dist2 b.1 b.2)]
  unfold legJoin
  simp only [hden]
  by_cases hs : a.Straight b
  · rw [if_pos (hlim.2 hs)]
    refine ⟨fun _ => ?_, fun hn => absurd hs hn⟩
    simp only [middle, add_comm]
  · rw [if_neg fun hc => hs (hlim.1 hc)]
    refine ⟨fun hn => absurd hn hs, fun _ => ⟨onLine_end a _, ?_⟩⟩
    have hne := turn_ne ha hb hs
    have hj := den_turn a b (0, 0) 0
    rw [← hj] at hne
    obtain ⟨h1, h2⟩ := lineCross_spec a.2 (psub a.2 a.1) b.1 (psub b.2 b.1) hne
    have hu : ((psub b.2 b.1).2 * (psub a.2 b.1).1 - (psub b.2 b.1).1 * (psub a.2 b.1).2) / -a.turn b =
        (lineCross a.2 (psub a.2 a.1) b.1 (psub b.2 b.1)).1 := by
      simp only [jointOf] at hj
      simp only [lineCross, hj]
      rw [div_neg, ← neg_div]
      congr 1
      simp only [psub]
      ring
    rw [hu, ← h1, h2]
    exact onLine_start b _

theorem toLeft_unit {t : Num K} (ht : Num.Polar t) {v : Pt K} (hv : v ≠ (0, 0)) :
    (toLeft t v).1 ^ 2 + (toLeft t v).2 ^ 2 = 1 := by
  have h0 : 0 < v.1 ^ 2 + v.2 ^ 2 := by
    rcases eq_or_ne v.1 0 with h1 | h1
    · have h2 : v.2 ≠ 0 := fun h2 => hv (Prod.ext h1 h2)
      positivity
    · positivity
  have hs := sqrt_pos_of ht h0
  have hq := ht.sqrtSq _ h0.le
  simp only [toLeft]
  generalize t.sqrt (v.1 ^ 2 + v.2 ^ 2) = r at hs hq
  field_simp
  linarith

theorem vec_ne {p q : Pt K} (h : p ≠ q) : (q.1 - p.1, q.2 - p.2) ≠ ((0 : K), (0 : K)) := by
  intro h0
  simp only [Prod.mk.injEq] at h0
  exact h (Prod.ext (by linarith [h0.1]) (by linarith [h0.2]))

/-- Along the line, a side at any distances is as long as the line. -/
theorem beside_along {t : Num K} {p q : Pt K} (s0 s1 : K) :
    (beside t p q s0 s1).vec.1 * (q.1 - p.1) + (beside t p q s0 s1).vec.2 * (q.2 - p.2) = dist2 p q := by
  simp only [beside, Side.vec, toLeft, dist2]
  ring

theorem beside_ne (t : Num K) {p q : Pt K} (h : p ≠ q) (s0 s1 : K) : (beside t p q s0 s1).1 ≠ (beside t p q s0 s1).2 := by
  intro h0
  have h1 := beside_along (t := t) (p := p) (q := q) s0 s1
  have h2 := dist2_pos_of (a := (p, q)) h
  rw [← h1] at h2
  simp only [Side.vec, h0, sub_self, zero_mul, add_zero, lt_irrefl] at h2

theorem chain_getD {pts : List (Pt K)} (h : pts.IsChain (· ≠ ·)) {i : Nat} (hi : i + 1 < pts.length) :
    pts.getD i (0, 0) ≠ pts.getD (i + 1) (0, 0) := by
  have := List.isChain_iff_getElem.1 h i hi
  simpa [List.getD_eq_getElem?_getD, List.getElem?_eq_getElem hi, List.getElem?_eq_getElem (Nat.lt_of_succ_lt hi)] using this

theorem sideAt_ne (t : Num K) {pts : List (Pt K)} (h : pts.IsChain (· ≠ ·)) (ds : List K) {i : Nat} (hi : i + 1 < pts.length) :
    (sideAt t pts ds i).1 ≠ (sideAt t pts ds i).2 :=
  beside_ne t (chain_getD h hi) _ _

theorem meet_same {a b : Side K} (h : a.2 = b.1) : a.Meet b a.2 := by
  constructor
  · intro _
    rw [← h]
    refine Prod.ext ?_ ?_ <;> simp only [middle] <;> ring
  · intro _
    exact ⟨⟨1, by refine Prod.ext ?_ ?_ <;> simp only <;> ring⟩, h ▸ ⟨0, by simp⟩⟩

/-- The spine of one path is at the given distances of the points. -/
theorem offsetSpine_ok (t : Num K) {pts : List (Pt K)} (h : pts.IsChain (· ≠ ·)) {offs : List K}
    (hl : offs.length = pts.length) (h2 : 2 ≤ pts.length) :
    ∃ cs, offsetSpine t pts offs = .ok cs ∧ CentreLine t pts offs cs := by
  unfold offsetSpine
  split
  · rename_i h0
    have hz (i : Nat) : offs.getD i 0 = 0 := by
      rw [List.getD_eq_getElem?_getD]
      cases hg : offs[i]? with
      | none => rfl
      | some o => simpa using List.all_eq_true.1 h0 o (List.mem_of_getElem? hg)
    have hs (i : Nat) : sideAt t pts offs i = (pts.getD i (0, 0), pts.getD (i + 1) (0, 0)) := by
      simp only [sideAt, hz, beside, zero_mul, add_zero]
    refine ⟨pts, rfl, rfl, by rw [hs], ?_, fun i hi => ?_⟩
    · rw [hs]; congr 1; omega
    · have := meet_same (a := sideAt t pts offs i) (b := sideAt t pts offs (i + 1)) (by rw [hs, hs])
      rw [hs i] at this ⊢
      exact this
  · obtain ⟨n, hn⟩ : ∃ n, pts.length = n + 2 := ⟨pts.length - 2, by omega⟩
    rw [offsetLegs_get t pts offs hl, hn, List.range_eq_range']
    have hj := joinLegs_map (sideAt t pts offs) n 0
    have e1 : n + 2 - 1 = n + 1 := rfl
    rw [e1]
    simp only [List.range'_succ, List.map_cons] at hj ⊢
    rw [hj]
    refine ⟨_, rfl, ?_, ?_, ?_, ?_⟩
    · simp [hn]
    · rfl
    · rw [hn]
      simp [List.getD_eq_getElem?_getD]
    · intro i hi
      have h3 := legJoin_meet (sideAt_ne t h offs (show i + 1 < pts.length by omega))
        (sideAt_ne t h offs (show i + 1 + 1 < pts.length by omega))
      rw [List.getD_cons_succ]
      convert h3
      rw [List.getD_eq_getElem?_getD, List.getElem?_append_left (by simp; omega)]
      simp [show i < n by omega]

/-- Corners whose points are computed by straight lines only, and round ones and bends of the given shape. -/
def cornersMap (ctx : FlexCtx K) (tol : K) (rad : Option K) (corner : FlexCorner K) (s : K) (cs : List (Pt K)) (ws : List K)
    (i : Nat) : Py (List (Pt K)) :=
  flexCorner ctx tol rad corner
    (jointOf (sideAt ctx.num cs (ws.map fun w => s * (w / 2)) i) (sideAt ctx.num cs (ws.map fun w => s * (w / 2)) (i + 1))
      (cs.getD (i + 1) (0, 0)) (ws.getD (i + 1) 0 / 2))

theorem flexArm_get (ctx : FlexCtx K) (tol : K) (rad : Option K) (corner : FlexCorner K) (s : K) (cs : List (Pt K))
    (ws : List K) (h : ws.length = cs.length) :
    flexArm ctx tol rad corner (flexEdges ctx.num s (List.zip cs ws)) =
      ((List.range (cs.length - 2)).mapM (cornersMap ctx tol rad corner s cs ws)).map List.flatten := by
  unfold flexArm
  rw [flexJoints_get ctx.num s cs ws h, List.mapM_map]
  simp only [bind, Except.bind, Except.map]
  rfl

/-- A list that is mapped without an exception. -/
theorem mapM_range_ok {α : Type} (f : Nat → Py α) (n : Nat) {l : List α} (h : (List.range n).mapM f = .ok l) :
    l.length = n ∧ ∀ (i : Nat) (x : α), l[i]? = some x → i < n ∧ f i = .ok x := by
  have gen : ∀ (is : List Nat) (l : List α), is.mapM f = .ok l → l.length = is.length ∧
      ∀ (i : Nat) (x : α), l[i]? = some x → ∃ j, is[i]? = some j ∧ f j = .ok x := by
    intro is
    induction is with
    | nil =>
      intro l h
      cases h
      exact ⟨rfl, by simp⟩
    | cons j is ih =>
      intro l h
      rw [List.mapM_cons] at h
      cases hj : f j with
      | error e => rw [hj] at h; cases h
      | ok x =>
        rw [hj] at h
        simp only [bind, Except.bind] at h
        cases hr : is.mapM f with
        | error e => rw [hr] at h; cases h
        | ok r =>
          rw [hr] at h
          cases h
          obtain ⟨h1, h2⟩ := ih r hr
          refine ⟨by simp [h1], fun i y hy => ?_⟩
          cases i with
          | zero =>
            simp only [List.getElem?_cons_zero, Option.some.injEq] at hy
            exact ⟨j, rfl, hy ▸ hj⟩
          | succ i => exact h2 i y (by simpa using hy)
  obtain ⟨h1, h2⟩ := gen _ l h
  refine ⟨by simpa using h1, fun i x hx => ?_⟩
  obtain ⟨j, hj, hf⟩ := h2 i x hx
  rw [List.getElem?_eq_some_iff] at hj
  obtain ⟨hi, rfl⟩ := hj
  simp only [List.length_range] at hi
  exact ⟨hi, by simpa using hf⟩

theorem sqrt_sym {t : Num K} (p q : Pt K) : t.sqrt (dist2 p q) = t.sqrt (dist2 q p) := by
  congr 1
  simp only [dist2]; ring

/-- The corners of an end that is not round: from its right to its left corner. -/
theorem straightCap_begin {ctx : FlexCtx K} (tol : K) {fin : FlexEnd K} {p q : Pt K} (w : K) (b0 b1 : Option (Pt K))
    (w1 : K) (hf : fin = .flush ∨ fin = .extended ∨ ∃ a b, fin = .pair a b) :
    ∃ g, flexCap ctx tol fin (beside ctx.num p q (-1 * (w / 2)) (-1 * (w1 / 2))).1
        (beside ctx.num p q (1 * (w / 2)) (1 * (w1 / 2))).1 b0 b1 p (psub p q) w (-1) Prod.fst = .ok g ∧
      EndOk fin p (beside ctx.num p q (-1 * (w / 2)) (-1 * (w1 / 2))).1 (beside ctx.num p q (1 * (w / 2)) (1 * (w1 / 2))).1
        (Side.ahead ctx.num (q, p) (0, 0) 1) w (extensions fin).1 g := by
  have hn : normSq (p.1 - q.1, p.2 - q.2) = dist2 q p := by simp only [normSq, dist2]; ring
  have hn2 : (q.1 - p.1) ^ 2 + (q.2 - p.2) ^ 2 = dist2 q p := rfl
  rcases hf with rfl | rfl | ⟨a, b, rfl⟩
  · exact ⟨_, rfl, rfl⟩
  all_goals
    refine ⟨_, rfl, ?_⟩
    simp only [EndOk, beside, toLeft, Side.ahead, Side.vec, hn, hn2, psmul, padd, psub, extensions]
    refine congrArg₂ _ ?_ (congrArg₂ _ ?_ (congrArg₂ _ ?_ (congrArg₂ _ ?_ rfl))) <;>
      refine Prod.ext ?_ ?_ <;> simp only <;> ring

theorem straightCap_end {ctx : FlexCtx K} (tol : K) {fin : FlexEnd K} {p q : Pt K} (w : K) (b0 b1 : Option (Pt K))
    (w1 : K) (hf : fin = .flush ∨ fin = .extended ∨ ∃ a b, fin = .pair a b) :
    ∃ g, flexCap ctx tol fin (beside ctx.num q p (-1 * (w1 / 2)) (-1 * (w / 2))).2
        (beside ctx.num q p (1 * (w1 / 2)) (1 * (w / 2))).2 b0 b1 p (psub p q) w 1 Prod.snd = .ok g ∧
      EndOk fin p (beside ctx.num q p (-1 * (w1 / 2)) (-1 * (w / 2))).2 (beside ctx.num q p (1 * (w1 / 2)) (1 * (w / 2))).2
        (Side.ahead ctx.num (q, p) (0, 0) 1) w (extensions fin).2 g := by
  have hn : normSq (p.1 - q.1, p.2 - q.2) = dist2 q p := by simp only [normSq, dist2]; ring
  have hn2 : (p.1 - q.1) ^ 2 + (p.2 - q.2) ^ 2 = dist2 q p := by simp only [dist2]; ring
  rcases hf with rfl | rfl | ⟨a, b, rfl⟩
  · exact ⟨_, rfl, rfl⟩
  all_goals
    refine ⟨_, rfl, ?_⟩
    simp only [EndOk, beside, toLeft, Side.ahead, Side.vec, hn, hn2, psmul, padd, psub, extensions]
    refine congrArg₂ _ ?_ (congrArg₂ _ ?_ (congrArg₂ _ ?_ (congrArg₂ _ ?_ rfl))) <;>
      refine Prod.ext ?_ ?_ <;> simp only <;> ring

end Gdspy
