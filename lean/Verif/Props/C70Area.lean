import Verif.Props.C70
import Verif.Lemmas.Chain

/-!
# C70: the area of a path with miter corners

With a constant width and miter corners, what the outline gains on one side of a corner it loses on the other: the area is
the width times the length.
-/

set_option linter.unusedSectionVars false

namespace Gdspy

open Spec

variable {K : Type} [Field K] [LinearOrder K] [IsStrictOrderedRing K] [FloorRing K]

theorem lineLength_sum (t : Num K) (cs : List (Pt K)) : lineLength t cs =
    ((List.range (cs.length - 1)).map fun i => t.sqrt (dist2 (cs.getD i (0, 0)) (cs.getD (i + 1) (0, 0)))).sum := by
  induction cs with
  | nil => simp [lineLength]
  | cons p r ih =>
    cases r with
    | nil => simp [lineLength]
    | cons q r =>
      rw [lineLength, ih]
      have e : (p :: q :: r).length - 1 = r.length + 1 := by simp
      have e2 : (q :: r).length - 1 = r.length := by simp
      rw [e, e2, List.range_succ_eq_map, List.map_cons, List.sum_cons, List.map_map]
      rfl

/-- The distance of a point from a line, by its components. -/
theorem cross_toLeft {t : Num K} (ht : Num.Polar t) {p q : Pt K} (h : p ≠ q) (d l : K) :
    (q.1 - p.1) * (d * (toLeft t (q.1 - p.1, q.2 - p.2)).2 + l * (q.2 - p.2)) -
      (q.2 - p.2) * (d * (toLeft t (q.1 - p.1, q.2 - p.2)).1 + l * (q.1 - p.1)) = d * t.sqrt (dist2 p q) := by
  have h0 := dist2_pos_of (a := (p, q)) h
  have hs := sqrt_pos_of ht h0
  have hq := ht.sqrtSq _ h0.le
  have e : (q.1 - p.1) ^ 2 + (q.2 - p.2) ^ 2 = dist2 p q := by simp only [dist2]; ring
  simp only [toLeft, e]
  simp only at hs hq
  generalize t.sqrt (dist2 p q) = s at hs hq
  rw [← e] at hq
  field_simp
  linear_combination -d * hq

/-- The two points of a miter corner of a path of constant width. -/
theorem miter_points {t : Num K} (ht : Num.Polar t) {p c q : Pt K} (hp : p ≠ c) (hq : c ≠ q) (hturn : ClearTurn p c q)
    {h : K} {x y : Pt K}
    (hx : (beside t p c (-h) (-h)).Meet (beside t c q (-h) (-h)) x)
    (hy : (beside t p c h h).Meet (beside t c q h h) y) :
    ∃ m : Pt K, x = psub c m ∧ y = padd c m ∧
      (c.1 - p.1) * m.2 - (c.2 - p.2) * m.1 = h * t.sqrt (dist2 p c) ∧
      (q.1 - c.1) * m.2 - (q.2 - c.2) * m.1 = h * t.sqrt (dist2 c q) := by
  have hT (d : K) : (beside t p c d d).turn (beside t c q d d) =
      (c.1 - p.1) * (q.2 - c.2) - (c.2 - p.2) * (q.1 - c.1) := by
    simp only [Side.turn, beside_vec]
  have hS (d : K) : (beside t p c d d).Straight (beside t c q d d) ↔
      ((c.1 - p.1) * (q.2 - c.2) - (c.2 - p.2) * (q.1 - c.1)) ^ 2 < 1 / 10 ^ 12 * dist2 p c * dist2 c q := by
    simp only [Side.Straight, hT, beside_dist2]
  rcases hturn with hturn | ⟨h0, hd⟩
  · -- each point is at its distance from both lines
    have hns (d : K) : ¬ (beside t p c d d).Straight (beside t c q d d) := by
      rw [hS]
      exact not_lt.2 hturn
    have key (d : K) (z : Pt K) (hz : (beside t p c d d).Meet (beside t c q d d) z) :
        (c.1 - p.1) * (z.2 - c.2) - (c.2 - p.2) * (z.1 - c.1) = d * t.sqrt (dist2 p c) ∧
        (q.1 - c.1) * (z.2 - c.2) - (q.2 - c.2) * (z.1 - c.1) = d * t.sqrt (dist2 c q) := by
      obtain ⟨⟨u, hu⟩, ⟨v, hv⟩⟩ := hz.2 (hns d)
      constructor
      · rw [hu, ← cross_toLeft ht hp d 0]
        simp only [beside]
        ring
      · rw [hv, ← cross_toLeft ht hq d 0]
        simp only [beside]
        ring
    obtain ⟨x1, x2⟩ := key _ _ hx
    obtain ⟨y1, y2⟩ := key _ _ hy
    have hne : (c.1 - p.1) * (q.2 - c.2) - (c.2 - p.2) * (q.1 - c.1) ≠ 0 := by
      have := turn_ne (beside_ne t hp h h) (beside_ne t hq h h) (hns h)
      rwa [hT] at this
    refine ⟨psub y c, ?_, ?_, y1, y2⟩
    · have e1 : (c.1 - p.1) * (x.2 + y.2 - 2 * c.2) - (c.2 - p.2) * (x.1 + y.1 - 2 * c.1) = 0 := by linear_combination x1 + y1
      have e2 : (q.1 - c.1) * (x.2 + y.2 - 2 * c.2) - (q.2 - c.2) * (x.1 + y.1 - 2 * c.1) = 0 := by linear_combination x2 + y2
      have e3 : x.1 + y.1 - 2 * c.1 = 0 := by
        apply mul_left_cancel₀ hne
        linear_combination (q.1 - c.1) * e1 - (c.1 - p.1) * e2
      have e4 : x.2 + y.2 - 2 * c.2 = 0 := by
        apply mul_left_cancel₀ hne
        linear_combination (q.2 - c.2) * e1 - (c.2 - p.2) * e2
      refine Prod.ext ?_ ?_ <;> simp only [psub]
      · linear_combination e3
      · linear_combination e4
    · refine Prod.ext ?_ ?_ <;> simp only [psub, padd] <;> ring
  · -- straight on: the normals are equal
    have hs (d : K) : (beside t p c d d).Straight (beside t c q d d) := by
      rw [hS, h0]
      have h1 := dist2_pos_of (a := (p, c)) hp
      have h2 := dist2_pos_of (a := (c, q)) hq
      simp only at h1 h2
      have : 0 < 1 / 10 ^ 12 * dist2 p c * dist2 c q := by positivity
      simpa using this
    have hn : toLeft t (c.1 - p.1, c.2 - p.2) = toLeft t (q.1 - c.1, q.2 - c.2) := by
      have h1 := dist2_pos_of (a := (p, c)) hp
      have h2 := dist2_pos_of (a := (c, q)) hq
      simp only at h1 h2
      have s1 := sqrt_pos_of ht h1
      have s2 := sqrt_pos_of ht h2
      have q1 := ht.sqrtSq _ h1.le
      have q2 := ht.sqrtSq _ h2.le
      have e1 : (c.1 - p.1) ^ 2 + (c.2 - p.2) ^ 2 = dist2 p c := by simp only [dist2]; ring
      have e2 : (q.1 - c.1) ^ 2 + (q.2 - c.2) ^ 2 = dist2 c q := by simp only [dist2]; ring
      -- |a| |b| = a · b
      have hab : t.sqrt (dist2 p c) * t.sqrt (dist2 c q) = (c.1 - p.1) * (q.1 - c.1) + (c.2 - p.2) * (q.2 - c.2) := by
        refine (pow_left_inj₀ (by positivity) hd.le two_ne_zero).1 ?_
        have : (t.sqrt (dist2 p c) * t.sqrt (dist2 c q)) ^ 2 = dist2 p c * dist2 c q := by
          rw [mul_pow, q1, q2]
        rw [this, ← e1, ← e2]
        linear_combination ((c.1 - p.1) * (q.2 - c.2) - (c.2 - p.2) * (q.1 - c.1)) * h0
      have hb2 : t.sqrt (dist2 p c) ^ 2 = (c.1 - p.1) ^ 2 + (c.2 - p.2) ^ 2 := by
        rw [e1]
        exact q1
      simp only [toLeft, e1, e2]
      have k1 : (c.1 - p.1) * t.sqrt (dist2 c q) = (q.1 - c.1) * t.sqrt (dist2 p c) := by
        apply mul_left_cancel₀ s1.ne'
        linear_combination (c.1 - p.1) * hab - (q.1 - c.1) * hb2 + (c.2 - p.2) * h0
      have k2 : (c.2 - p.2) * t.sqrt (dist2 c q) = (q.2 - c.2) * t.sqrt (dist2 p c) := by
        apply mul_left_cancel₀ s1.ne'
        linear_combination (c.2 - p.2) * hab - (q.2 - c.2) * hb2 - (c.1 - p.1) * h0
      refine Prod.ext ?_ ?_
      · simp only
        rw [div_eq_div_iff s1.ne' s2.ne']
        linear_combination -k2
      · simp only
        rw [div_eq_div_iff s1.ne' s2.ne']
        exact k1
    have hmid (d : K) : middle (beside t p c d d).2 (beside t c q d d).1 =
        (c.1 + d * (toLeft t (q.1 - c.1, q.2 - c.2)).1, c.2 + d * (toLeft t (q.1 - c.1, q.2 - c.2)).2) := by
      simp only [middle, beside, hn]
      refine Prod.ext ?_ ?_ <;> simp only <;> ring
    refine ⟨psmul h (toLeft t (q.1 - c.1, q.2 - c.2)), ?_, ?_, ?_, ?_⟩
    · rw [hx.1 (hs _), hmid]
      refine Prod.ext ?_ ?_ <;> simp only [psub, psmul] <;> ring
    · rw [hy.1 (hs _), hmid]
      rfl
    · rw [← hn]
      have := cross_toLeft ht hp h 0
      simp only [psmul]
      linear_combination this
    · have := cross_toLeft ht hq h 0
      simp only [psmul]
      linear_combination this

theorem flatten_single {α β : Type} (f : α → β) (l : List α) : (l.map fun x => [f x]).flatten = l.map f := by
  induction l with
  | nil => rfl
  | cons x l ih => simp only [List.map_cons, List.flatten_cons, ih, List.cons_append, List.nil_append]

/-- The points of one end. -/
theorem end_points {fin : FlexEnd K} (hf : fin = .flush ∨ fin = .extended ∨ ∃ a b, fin = .pair a b) {c p q out : Pt K}
    {w d : K} {g : List (Pt K)} (h : EndOk fin c p q out w d g) :
    ∃ E, g = p :: E ++ [q] ∧ ∀ r, (fin = .flush → r = 0) → (fin = .extended → r = w / 2) → (∀ a b, fin = .pair a b → r = d) →
      chain (p :: E ++ [q]) = cross p q + 2 * r * (out.1 * (q.2 - p.2) - out.2 * (q.1 - p.1)) ∧
      chain (q :: E.reverse ++ [p]) = cross q p - 2 * r * (out.1 * (q.2 - p.2) - out.2 * (q.1 - p.1)) := by
  rcases hf with rfl | rfl | ⟨a, b, rfl⟩
  · refine ⟨[], h, fun r hr _ _ => ?_⟩
    rw [hr rfl]
    simp [chain]
  · refine ⟨[(p.1 + w / 2 * out.1, p.2 + w / 2 * out.2), (q.1 + w / 2 * out.1, q.2 + w / 2 * out.2)], h, fun r _ hr _ => ?_⟩
    rw [hr rfl]
    simp only [chain, cross, List.cons_append, List.nil_append, List.reverse_cons, List.reverse_nil]
    constructor <;> ring
  · refine ⟨[(p.1 + d * out.1, p.2 + d * out.2), (q.1 + d * out.1, q.2 + d * out.2)], h, fun r _ _ hr => ?_⟩
    rw [hr a b rfl]
    simp only [chain, cross, List.cons_append, List.nil_append, List.reverse_cons, List.reverse_nil]
    constructor <;> ring

/-- The unit vector along a side and the one to its left. -/
theorem ahead_cross {t : Num K} (ht : Num.Polar t) {p q : Pt K} (h : p ≠ q) :
    (Side.ahead t (p, q) (0, 0) 1).1 * (toLeft t (q.1 - p.1, q.2 - p.2)).2 -
      (Side.ahead t (p, q) (0, 0) 1).2 * (toLeft t (q.1 - p.1, q.2 - p.2)).1 = 1 := by
  have h1 := cross_toLeft ht h 1 0
  have h0 := sqrt_pos_of ht (dist2_pos_of (a := (p, q)) h)
  simp only [Side.ahead, Side.vec]
  simp only at h0
  generalize t.sqrt (dist2 p q) = s at h0 h1
  field_simp
  linear_combination h1

theorem area_of_outline {t : Num K} (ht : Num.Polar t) {rad : Option K} {fin : FlexEnd K} {cs : List (Pt K)} {w : K}
    (h2 : 2 ≤ cs.length) (hcs : cs.IsChain (· ≠ ·))
    (hturn : ∀ i, i + 2 < cs.length → ClearTurn (cs.getD i (0, 0)) (cs.getD (i + 1) (0, 0)) (cs.getD (i + 2) (0, 0)))
    (hfin : fin = .flush ∨ fin = .extended ∨ ∃ a b, fin = .pair a b) {P : Pgon K}
    (hP : OutlineOk t rad .miter fin cs (List.replicate cs.length w) P) :
    shoelace P = 2 * (w * (lineLength t cs + (reach fin w).1 + (reach fin w).2)) := by
  obtain ⟨begins, ends, rs, ls, rfl, ⟨hr1, hr2⟩, ⟨hl1, hl2⟩, hb, he⟩ := hP
  obtain ⟨n, hn⟩ : ∃ n, cs.length = n + 2 := ⟨cs.length - 2, by omega⟩
  have hside (s : K) (i : Nat) (hi : i + 1 < cs.length) :
      sideAt t cs ((List.replicate cs.length w).map fun w => s * (w / 2)) i =
        beside t (cs.getD i (0, 0)) (cs.getD (i + 1) (0, 0)) (s * (w / 2)) (s * (w / 2)) := by
    unfold sideAt
    simp only [List.map_replicate, List.getD_eq_getElem?_getD, List.getElem?_replicate]
    rw [if_pos (by omega), if_pos hi]
    rfl
  have hrep (i : Nat) (hi : i < cs.length) : (List.replicate cs.length w).getD i 0 = w := by
    simp only [List.getD_eq_getElem?_getD, List.getElem?_replicate]
    rw [if_pos hi]
    rfl
  rw [hside _ 0 (by omega), hside _ 0 (by omega), hrep _ (by omega)] at hb
  rw [hside _ _ (by omega), hside _ _ (by omega), hrep _ (by omega)] at he
  set c : Nat → Pt K := fun i => cs.getD i (0, 0) with hc
  have hne (i : Nat) (hi : i + 1 < cs.length) : c i ≠ c (i + 1) := chain_getD hcs hi
  -- the points of the corners
  have hm : ∀ i, ∃ m : Pt K, i < n → rs[i]? = some [psub (c (i + 1)) m] ∧ ls[i]? = some [padd (c (i + 1)) m] ∧
      ((c (i + 1)).1 - (c i).1) * m.2 - ((c (i + 1)).2 - (c i).2) * m.1 = w / 2 * t.sqrt (dist2 (c i) (c (i + 1))) ∧
      ((c (i + 2)).1 - (c (i + 1)).1) * m.2 - ((c (i + 2)).2 - (c (i + 1)).2) * m.1 =
        w / 2 * t.sqrt (dist2 (c (i + 1)) (c (i + 2))) := by
    intro i
    by_cases hi : i < n
    · have hri : i < rs.length := by omega
      have hli : i < ls.length := by omega
      obtain ⟨x, hx, hx'⟩ := hr2 i _ (List.getElem?_eq_getElem hri)
      obtain ⟨y, hy, hy'⟩ := hl2 i _ (List.getElem?_eq_getElem hli)
      rw [hside _ i (by omega), hside _ (i + 1) (by omega)] at hx' hy'
      rw [neg_one_mul] at hx'
      rw [one_mul] at hy'
      obtain ⟨m, h3, h4, h5, h6⟩ := miter_points ht (hne i (by omega)) (hne (i + 1) (by omega)) (hturn i (by omega)) hx' hy'
      refine ⟨m, fun _ => ⟨?_, ?_, h5, h6⟩⟩
      · rw [List.getElem?_eq_getElem hri, hx, h3]
      · rw [List.getElem?_eq_getElem hli, hy, h4]
    · exact ⟨(0, 0), fun h => absurd h hi⟩
  choose m hm using hm
  have hrs : rs.flatten = (List.range n).map fun i => psub (c (i + 1)) (m i) := by
    have : rs = (List.range n).map fun i => [psub (c (i + 1)) (m i)] := by
      refine List.ext_getElem? fun i => ?_
      by_cases hi : i < n
      · rw [(hm i hi).1]
        simp [hi]
      · rw [List.getElem?_eq_none (by omega), List.getElem?_eq_none (by simpa using hi)]
    rw [this, flatten_single]
  have hls : ls.flatten = (List.range n).map fun i => padd (c (i + 1)) (m i) := by
    have : ls = (List.range n).map fun i => [padd (c (i + 1)) (m i)] := by
      refine List.ext_getElem? fun i => ?_
      by_cases hi : i < n
      · rw [(hm i hi).2.1]
        simp [hi]
      · rw [List.getElem?_eq_none (by omega), List.getElem?_eq_none (by simpa using hi)]
    rw [this, flatten_single]
  -- all points of the two sides
  let nrm (i : Nat) : Pt K := toLeft t ((c (i + 1)).1 - (c i).1, (c (i + 1)).2 - (c i).2)
  let M : Nat → Pt K := fun i => if i = 0 then psmul (w / 2) (nrm 0) else if i = n + 1 then psmul (w / 2) (nrm n) else m (i - 1)
  have hM0 : M 0 = psmul (w / 2) (nrm 0) := rfl
  have hMn : M (n + 1) = psmul (w / 2) (nrm n) := by simp [M]
  have hMi (i : Nat) (hi : i < n) : M (i + 1) = m i := by
    simp only [M]
    rw [if_neg (by omega), if_neg (by omega)]
    rfl
  have hMa (i : Nat) (hi : i < n + 1) : ((c (i + 1)).1 - (c i).1) * (M i).2 - ((c (i + 1)).2 - (c i).2) * (M i).1 =
      w / 2 * t.sqrt (dist2 (c i) (c (i + 1))) := by
    cases i with
    | zero =>
      rw [hM0]
      have := cross_toLeft ht (hne 0 (by omega)) (w / 2) 0
      simp only [psmul, nrm]
      linear_combination this
    | succ i =>
      rw [hMi i (by omega)]
      exact (hm i (by omega)).2.2.2
  have hMb (i : Nat) (hi : i < n + 1) : ((c (i + 1)).1 - (c i).1) * (M (i + 1)).2 - ((c (i + 1)).2 - (c i).2) * (M (i + 1)).1 =
      w / 2 * t.sqrt (dist2 (c i) (c (i + 1))) := by
    rcases Nat.lt_or_ge i n with h3 | h3
    · rw [hMi i h3]
      exact (hm i h3).2.2.1
    · obtain rfl : i = n := by omega
      rw [hMn]
      have := cross_toLeft ht (hne i (by omega)) (w / 2) 0
      simp only [psmul, nrm]
      linear_combination this
  let R : Nat → Pt K := fun i => psub (c i) (M i)
  let L : Nat → Pt K := fun i => padd (c i) (M i)
  have hsplit (f : Nat → Pt K) : (List.range (n + 1 + 1)).map f = f 0 :: (List.range n).map (fun i => f (i + 1)) ++ [f (n + 1)] := by
    rw [List.range_succ, List.map_append, List.range_succ_eq_map, List.map_cons, List.map_map]
    rfl
  have hR : (List.range (n + 1 + 1)).map R = R 0 :: rs.flatten ++ [R (n + 1)] := by
    rw [hsplit, hrs]
    congr 2
    refine List.map_congr_left fun i hi => ?_
    simp only [R, hMi i (List.mem_range.1 hi)]
  have hL : (List.range (n + 1 + 1)).map L = L 0 :: ls.flatten ++ [L (n + 1)] := by
    rw [hsplit, hls]
    congr 2
    refine List.map_congr_left fun i hi => ?_
    simp only [L, hMi i (List.mem_range.1 hi)]
  have hstrip := chain_strip R L (n + 1)
  rw [hR, hL] at hstrip
  have hsum : ((List.range (n + 1)).map fun i => cross (R i) (R (i + 1)) + cross (R (i + 1)) (L (i + 1)) +
      cross (L (i + 1)) (L i) + cross (L i) (R i)).sum = 2 * (w * lineLength t cs) := by
    rw [lineLength_sum, hn, ← List.sum_map_mul_left, ← List.sum_map_mul_left]
    refine congrArg List.sum (List.map_congr_left fun i hi => ?_)
    have h3 := hMa i (List.mem_range.1 hi)
    have h4 := hMb i (List.mem_range.1 hi)
    simp only [R, L, cross, psub, padd]
    linear_combination 2 * h3 + 2 * h4
  rw [hsum] at hstrip
  -- the two ends
  have hR0 : (beside t (c 0) (c 1) (-1 * (w / 2)) (-1 * (w / 2))).1 = R 0 := by
    refine Prod.ext ?_ ?_ <;> simp only [beside, R, hM0, psub, psmul, nrm] <;> ring
  have hL0 : (beside t (c 0) (c 1) (1 * (w / 2)) (1 * (w / 2))).1 = L 0 := by
    refine Prod.ext ?_ ?_ <;> simp only [beside, L, hM0, padd, psmul, nrm] <;> ring
  have hRn : (beside t (c n) (c (n + 1)) (-1 * (w / 2)) (-1 * (w / 2))).2 = R (n + 1) := by
    refine Prod.ext ?_ ?_ <;> simp only [beside, R, hMn, psub, psmul, nrm] <;> ring
  have hLn : (beside t (c n) (c (n + 1)) (1 * (w / 2)) (1 * (w / 2))).2 = L (n + 1) := by
    refine Prod.ext ?_ ?_ <;> simp only [beside, L, hMn, padd, psmul, nrm] <;> ring
  have e1 : cs.length - 1 = n + 1 := by omega
  have e2 : cs.length - 1 - 1 = n := by omega
  rw [e1] at he
  have hb' : EndOk fin (c 0) (R 0) (L 0) (Side.ahead t (c 1, c 0) (0, 0) 1) w (extensions fin).1 begins := by
    rw [← hR0, ← hL0]; exact hb
  have he' : EndOk fin (c (n + 1)) (R (n + 1)) (L (n + 1)) (Side.ahead t (c n, c (n + 1)) (0, 0) 1) w (extensions fin).2
      ends := by
    rw [← hRn, ← hLn]; exact he
  obtain ⟨E0, rfl, hE0⟩ := end_points hfin hb'
  obtain ⟨E1, rfl, hE1⟩ := end_points hfin he'
  have hE0' := (hE0 (reach fin w).1 (by rintro rfl; rfl) (by rintro rfl; rfl) (by rintro a b rfl; rfl)).2
  have hE1' := (hE1 (reach fin w).2 (by rintro rfl; rfl) (by rintro rfl; rfl) (by rintro a b rfl; rfl)).1
  have hu0 : (Side.ahead t (c 1, c 0) (0, 0) 1).1 * ((L 0).2 - (R 0).2) - (Side.ahead t (c 1, c 0) (0, 0) 1).2 * ((L 0).1 - (R 0).1) =
      -w := by
    have h3 := ahead_cross ht (hne 0 (by omega))
    have h4 : Side.ahead t (c 1, c 0) (0, 0) 1 = pneg (Side.ahead t (c 0, c (0 + 1)) (0, 0) 1) := by
      have : dist2 (c 1) (c 0) = dist2 (c 0) (c 1) := by simp only [dist2]; ring
      refine Prod.ext ?_ ?_ <;> simp only [Side.ahead, Side.vec, pneg, this, Nat.zero_add] <;> ring
    rw [h4]
    generalize Side.ahead t (c 0, c (0 + 1)) (0, 0) 1 = u at h3
    simp only [L, R, hM0, padd, psub, psmul, nrm, pneg]
    linear_combination -w * h3
  have hun : (Side.ahead t (c n, c (n + 1)) (0, 0) 1).1 * ((L (n + 1)).2 - (R (n + 1)).2) -
      (Side.ahead t (c n, c (n + 1)) (0, 0) 1).2 * ((L (n + 1)).1 - (R (n + 1)).1) = w := by
    have h3 := ahead_cross ht (hne n (by omega))
    generalize Side.ahead t (c n, c (n + 1)) (0, 0) 1 = u at h3
    simp only [L, R, hMn, padd, psub, psmul, nrm]
    linear_combination w * h3
  rw [hu0] at hE0'
  rw [hun] at hE1'
  -- around
  have hform : (R 0 :: E0 ++ [L 0]).reverse ++ rs.flatten ++ (R (n + 1) :: E1 ++ [L (n + 1)]) ++ ls.flatten.reverse =
      L 0 :: (E0.reverse ++ R 0 :: (rs.flatten ++ R (n + 1) :: (E1 ++ L (n + 1) :: ls.flatten.reverse))) := by
    simp
  rw [hform, shoelace_chain]
  have hc1 : (L 0 :: (E0.reverse ++ R 0 :: (rs.flatten ++ R (n + 1) :: (E1 ++ L (n + 1) :: ls.flatten.reverse)))) ++ [L 0] =
      (L 0 :: E0.reverse) ++ R 0 :: (rs.flatten ++ R (n + 1) :: (E1 ++ L (n + 1) :: (ls.flatten.reverse ++ [L 0]))) := by
    simp
  have hc2 := chain_join (R 0 :: rs.flatten) (E1 ++ L (n + 1) :: (ls.flatten.reverse ++ [L 0])) (R (n + 1))
  have hc3 := chain_join (R (n + 1) :: E1) (ls.flatten.reverse ++ [L 0]) (L (n + 1))
  have hc4 : L (n + 1) :: (ls.flatten.reverse ++ [L 0]) = (L 0 :: ls.flatten ++ [L (n + 1)]).reverse := by simp
  have hc5 := chain_reverse (L 0 :: ls.flatten ++ [L (n + 1)])
  rw [← hc4] at hc5
  simp only [List.cons_append] at hc2 hc3 hc5 hE0' hE1' hstrip
  rw [hc1, chain_join]
  simp only [List.cons_append]
  rw [hc2, hc3, hc5, hE0', hE1']
  linear_combination hstrip

/-- The area of a path with miter corners. -/
theorem C70_area {ctx : FlexCtx K} (ht : Num.Polar ctx.num) (tol : K) (rad : Option K) {fin : FlexEnd K} {cs : List (Pt K)}
    {w : K} (hw : 0 < w) (h2 : 2 ≤ cs.length) (hcs : cs.IsChain (· ≠ ·))
    (hturn : ∀ i, i + 2 < cs.length → ClearTurn (cs.getD i (0, 0)) (cs.getD (i + 1) (0, 0)) (cs.getD (i + 2) (0, 0)))
    (hfin : fin = .flush ∨ fin = .extended ∨ ∃ a b, fin = .pair a b) :
    ∃ P, flexOutline ctx tol rad .miter fin cs (List.replicate cs.length w) = .ok P ∧
      shoelace P = 2 * (w * (lineLength ctx.num cs + (reach fin w).1 + (reach fin w).2)) := by
  obtain ⟨P, hP, ho⟩ := C70_straight ht tol rad (corner := .miter) (fin := fin) (cs := cs) (ws := List.replicate cs.length w)
    (by simp) h2 hcs (fun v hv => by rw [List.eq_of_mem_replicate hv]; exact hw) (.inr (.inl rfl)) hfin
  exact ⟨P, hP, area_of_outline ht h2 hcs hturn hfin ho⟩

end Gdspy
