import Verif.Props.C65Moves
import Verif.Props.C66

/-!
C65, fourth part: how well the arcs of a `Path` follow their circles.
-/

set_option linter.unusedSectionVars false

namespace Gdspy

open Spec Real

theorem zip_const {α β γ : Type} (f : α → β → γ) (b : β) : ∀ (l : List α), List.zipWith f l (l.map fun _ => b) = l.map fun a => f a b
  | [] => rfl
  | a :: l => congrArg (f a b :: ·) (zip_const f b l)

theorem linspace_const (r a b : ℝ) (n : Nat) : linspace r r n = (linspace a b n).map fun _ => r := by
  unfold linspace
  rw [List.map_map]
  refine List.map_congr_left fun i _ => ?_
  simp

/-- One polygon of an arc of constant width. -/
theorem arcPoly_const (cx cy radius w d a0 a1 : ℝ) (hw : w ≠ 0) (n m ii : Nat) (hm : 2 ≤ m) :
    (arcPoly realNum cx cy radius n m ii w w d d a0 a1).1 =
      (linspace a0 a1 (m - m / 2)).map (ovalAt (cx, cy) (radius + lane n ii * d + w, radius + lane n ii * d + w)) ++
      (linspace a1 a0 (m / 2)).map (ovalAt (cx, cy) (radius + lane n ii * d - w, radius + lane n ii * d - w)) := by
  have hp : ∀ r : ℝ, (fun a => polarPt realNum cx cy a r) = ovalAt (cx, cy) (r, r) := by
    intro r
    funext a
    show (cos a * r + cx, sin a * r + cy) = (cx + r * cos a, cy + r * sin a)
    rw [mul_comm (cos a), mul_comm (sin a), add_comm cx, add_comm cy]
  have hl : radius + (ii : ℝ) * d - ((n : ℝ) - 1) * d / 2 = radius + lane n ii * d := by
    unfold lane
    ring
  unfold arcPoly
  simp only [if_neg hw, hl, Nat.add_zero]
  rw [if_neg (by omega), linspace_const (radius + lane n ii * d + w) a0 a1, linspace_const (radius + lane n ii * d - w) a1 a0,
    zip_const, zip_const, hp, hp, List.take_of_length_le]
  simp only [List.length_append, List.length_map, linspace_length]
  omega

/-- The polygons of an arc in one piece. -/
theorem arc_one_piece {radius ia fa tol : ℝ} {mp : Nat} {layer datatype : LayerArg} {p q : PPath ℝ}
    (h : p.arc realNum radius ia fa tol none mp none none layer datatype = (q, none)) (hw : p.w ≠ 0) (hn : 0 < p.n)
    (hone : q.polygons.length = p.polygons.length + p.n) :
    ∃ N, arcPoints realNum radius ia fa tol none p.distance p.distance p.w p.w p.n = .ok N ∧
      q.polygons = p.polygons ++ (List.range p.n).map fun ii =>
        (arcPoly realNum (p.x - radius * cos ia) (p.y - radius * sin ia) radius p.n N ii p.w p.w p.distance p.distance ia fa).1 := by
  unfold PPath.arc at h
  simp only [Option.map_none, Option.getD_none] at h
  split at h
  · simp at h
  · rename_i N hN
    refine ⟨N, hN, ?_⟩
    split at h
    · simp at h
    · rename_i hk
      rw [if_pos (Or.inl hw)] at h
      generalize pieceCount N mp = k at hk h
      let g : Nat → List (Pgon ℝ) := fun jj => (List.range p.n).map fun ii =>
        (arcPoly realNum (p.x - radius * realNum.cos ia) (p.y - radius * realNum.sin ia) radius p.n (N / k) ii
          ((linspace p.w p.w (k + 1)).getD jj 0)
          ((linspace p.w p.w (k + 1)).getD (jj + 1) 0) ((linspace p.distance p.distance (k + 1)).getD jj 0)
          ((linspace p.distance p.distance (k + 1)).getD (jj + 1) 0) ((linspace ia fa (k + 1)).getD jj 0)
          ((linspace ia fa (k + 1)).getD (jj + 1) 0)).1
      have hg := forOut_polys (PPath.arcPiece realNum (p.x - radius * realNum.cos ia) (p.y - radius * realNum.sin ia) radius (N / k)
        (linspace p.w p.w (k + 1)) (linspace p.distance p.distance (k + 1)) (linspace ia fa (k + 1)) layer datatype) g p.n (by
        intro s jj s' hs hss
        unfold PPath.arcPiece at hss
        simp only at hss
        split at hss
        · simp at hss
        · rename_i r hr
          have hr' := forOut_append _ _ _ _ hr
          have ht := tag_keeps layer datatype
            { r with length := r.length + |((linspace ia fa (k + 1)).getD (jj + 1) 0 - (linspace ia fa (k + 1)).getD jj 0) * radius| }
          rw [hss] at ht
          subst hr'
          rw [hs] at ht
          exact ⟨ht.2, ht.1⟩) (List.range k) _ q (by rfl) h
      simp only at hg
      have hlen : ((List.range k).map g).flatten.length = k * p.n := by
        rw [List.length_flatten, List.map_map]
        have : (List.length ∘ g) = fun _ => p.n := by
          funext jj
          simp [g]
        rw [this]
        simp
      have hk1 : k = 1 := by
        rw [hg, List.length_append, hlen] at hone
        have : k * p.n = 1 * p.n := by omega
        exact Nat.eq_of_mul_eq_mul_right hn this
      subst hk1
      rw [hg]
      congr 1
      simp only [List.range_one, List.map_cons, List.map_nil, List.flatten_cons, List.flatten_nil, List.append_nil, g]
      refine List.map_congr_left fun ii _ => ?_
      have e : ia + (fa - ia) / (2 - 1) = fa := by ring
      simp [linspace, List.range_succ, e]
      rfl

theorem Spec.Follows.mono {c r : Pt ℝ} {a0 a1 d e : ℝ} {l : List (Pt ℝ)} (h : Follows c r a0 a1 d l) (hde : d ≤ e) :
    Follows c r a0 a1 e l := by
  refine ⟨h.1, fun a h0 h1 => ?_⟩
  obtain ⟨i, x, y, hx, hy, hn⟩ := h.2 a h0 h1
  exact ⟨i, x, y, hx, hy, NearSegment.mono hn hde⟩

/-- **C65**, tolerance of arcs of constant width in one piece: every polygon has at least 6 vertices, and neither of its
sides is farther from its circle than 25/16 of the tolerance. -/
theorem C65_arc_tolerance {radius ia fa tol : ℝ} {mp : Nat} {layer datatype : LayerArg} {p q : PPath ℝ}
    (h : p.arc realNum radius ia fa tol none mp none none layer datatype = (q, none)) (hw : 0 < widthOf p) (hd : 0 ≤ p.distance)
    (hn : 0 < p.n) (hone : q.polygons.length = p.polygons.length + p.n) (hne : ia ≠ fa) (hturn : |fa - ia| < 2 * π) :
    let c : Pt ℝ := (p.x - radius * cos ia, p.y - radius * sin ia)
    let r := fun ii => radius + lane p.n ii * p.distance - widthOf p / 2
    let R := fun ii => radius + lane p.n ii * p.distance + widthOf p / 2
    ∃ arcs : List (Pgon ℝ), q.polygons = p.polygons ++ arcs ∧ ∀ ii P, arcs[ii]? = some P → 0 ≤ r ii →
      6 ≤ P.length ∧ ∃ l l', P = l ++ l' ∧ l.length = l'.length ∧
      (ia < fa → Follows c (R ii, R ii) ia fa (25 / 16 * tol) l ∧ Follows c (r ii, r ii) ia fa (25 / 16 * tol) l'.reverse) ∧
      (fa < ia → Follows c (R ii, R ii) fa ia (25 / 16 * tol) l.reverse ∧ Follows c (r ii, r ii) fa ia (25 / 16 * tol) l') := by
  intro c r R
  have hw' : 0 < p.w := by
    unfold widthOf at hw
    linarith
  obtain ⟨N, hN, hq⟩ := arc_one_piece h hw'.ne' hn hone
  refine ⟨_, hq, fun ii P hP hr => ?_⟩
  have hii : ii < p.n := by
    by_contra hx
    rw [List.getElem?_eq_none (by simpa using hx)] at hP
    cases hP
  rw [List.getElem?_map, List.getElem?_range hii] at hP
  simp only [Option.map_some, Option.some.injEq] at hP
  have hwe : widthOf p / 2 = p.w := by
    unfold widthOf
    ring
  unfold arcPoints at hN
  obtain ⟨s, hs, hN'⟩ := bind_ok_inv hN
  clear hN
  simp only [max_self] at hs
  have hii' : (ii : ℝ) + 1 ≤ p.n := by exact_mod_cast hii
  have hlane : R ii ≤ radius + p.distance * ((p.n : ℝ) - 1) / 2 + p.w := by
    simp only [R, hwe, lane]
    nlinarith
  set R0 := radius + p.distance * ((p.n : ℝ) - 1) / 2 + p.w with hR0
  have hRr : R ii = r ii + 2 * p.w := by
    simp only [R, r, hwe]
    ring
  have hR : 0 < R0 := by linarith
  obtain ⟨htol, -, a, ha0, hapi, hcos, hsv⟩ := arcSteps_real hR hs
  have hθ : 0 < |fa - ia| := abs_pos.2 (sub_ne_zero.2 (Ne.symm hne))
  set θ := |fa - ia| with hθd
  have hxnn : (0 : ℝ) ≤ θ / 2 / a + 1 / 2 := by positivity
  obtain ⟨t1, t2, t3⟩ := truncInt_bounds hxnn
  rw [← hsv] at t1 t2 t3
  have hxa : θ / 2 < ((s : ℝ) + 1 / 2) * a := by
    have : θ / 2 / a < s + 1 / 2 := by linarith
    rwa [div_lt_iff₀ ha0] at this
  have hN : (max 6 (2 + 2 * s)).toNat = N := Except.ok.inj hN'
  obtain ⟨M, hM⟩ : ∃ M, M = (max 3 (1 + s)).toNat := ⟨_, rfl⟩
  have hM3 : 3 ≤ M := by omega
  have hMs : (1 + s : ℤ) ≤ M := by omega
  have hNM : N = 2 * M := by omega
  have hMs' : (1 : ℝ) + s ≤ M := by exact_mod_cast hMs
  have hM3' : (3 : ℝ) ≤ M := by exact_mod_cast hM3
  have hs3 : (s : ℝ) ≤ 2 ∨ (3 : ℝ) ≤ s := by
    rcases le_or_gt s 2 with h' | h'
    · left; exact_mod_cast h'
    · right
      have : (3 : ℤ) ≤ s := h'
      exact_mod_cast this
  have hst : θ / ((M : ℝ) - 1) < π := by
    rw [div_lt_iff₀ (by linarith)]
    nlinarith [pi_pos]
  have hpos : 0 ≤ θ / ((M : ℝ) - 1) / 2 :=
    div_nonneg (div_nonneg hθ.le (by linarith)) (by norm_num)
  have hch := chord_tolerance (θ / ((M : ℝ) - 1) / 2) a (5 / 4) ha0 hapi hpos (by linarith) (by norm_num) (by
    rw [div_right_comm, div_le_iff₀ (by linarith)]
    rcases hs3 with h' | h'
    · nlinarith
    · nlinarith)
  have hb : ∀ ρ, ρ ≤ R0 → ρ * (1 - cos (θ / ((M : ℝ) - 1) / 2)) ≤ 25 / 16 * tol := by
    intro ρ hρ
    calc ρ * (1 - cos (θ / ((M : ℝ) - 1) / 2)) ≤ R0 * (1 - cos (θ / ((M : ℝ) - 1) / 2)) :=
          mul_le_mul_of_nonneg_right hρ (by linarith [cos_le_one (θ / ((M : ℝ) - 1) / 2)])
      _ ≤ R0 * ((5 / 4) ^ 2 * (1 - cos a)) := mul_le_mul_of_nonneg_left hch hR.le
      _ = 25 / 16 * tol := by rw [← hcos]; ring
  have hR0' : 0 ≤ R ii := by linarith
  have hrR : r ii ≤ R0 := by linarith
  have hN2 : N / 2 = M := by omega
  have hN2' : N - N / 2 = M := by omega
  rw [arcPoly_const _ _ _ _ _ _ _ hw'.ne' _ _ _ (by omega), hN2', hN2] at hP
  have e1 : radius + lane p.n ii * p.distance + p.w = R ii := by simp only [R, hwe]
  have e2 : radius + lane p.n ii * p.distance - p.w = r ii := by simp only [r, hwe]
  rw [e1, e2] at hP
  have key : ∀ ρ, 0 ≤ ρ → ρ ≤ R0 → ∀ a0 a1, a0 < a1 → a1 - a0 = θ →
      Follows c (ρ, ρ) a0 a1 (25 / 16 * tol) ((linspace a0 a1 M).map (ovalAt c (ρ, ρ))) := by
    intro ρ h0 h1 a0 a1 hlt hd
    have := linspace_follows c (ρ, ρ) h0 h0 ρ le_rfl le_rfl a0 a1 hlt M (by omega) (by rw [hd]; exact hst)
    rw [hd] at this
    exact this.mono (hb ρ h1)
  refine ⟨?_, _, _, hP.symm, by simp [linspace_length], fun hlt => ⟨?_, ?_⟩, fun hlt => ⟨?_, ?_⟩⟩
  · rw [← hP]
    simp only [List.length_append, List.length_map, linspace_length]
    omega
  · exact key _ hR0' hlane _ _ hlt (by rw [hθd, abs_of_pos (by linarith)])
  · rw [← List.map_reverse, ← linspace_flip _ _ _ (by omega)]
    exact key _ hr hrR _ _ hlt (by rw [hθd, abs_of_pos (by linarith)])
  · rw [← List.map_reverse, ← linspace_flip _ _ _ (by omega)]
    exact key _ hR0' hlane _ _ hlt (by rw [hθd, abs_of_neg (by linarith)]; ring)
  · exact key _ hr hrR _ _ hlt (by rw [hθd, abs_of_neg (by linarith)]; ring)

/-- The number of points of an arc of a quarter of a turn, with the outer radius 1 and the tolerance 1/2. -/
theorem arcPoints_sample : arcPoints realNum (3 / 4) 0 (π / 2) (1 / 2) none 0 0 (1 / 4) (1 / 4) 1 = .ok 6 := by
  have hpi := pi_pos
  have e : |π / 2 - 0| = π / 2 := by rw [sub_zero, abs_of_pos (by linarith)]
  unfold arcPoints
  show (arcSteps realNum |π / 2 - 0| (1 / 2) (3 / 4 + max 0 0 * (((1 : ℕ) : ℝ) - 1) / 2 + max (1 / 4) (1 / 4)) >>= _) = _
  rw [show (3 / 4 + max 0 0 * (((1 : ℕ) : ℝ) - 1) / 2 + max (1 / 4) (1 / 4) : ℝ) = 1 by norm_num, e, arcSteps_sample,
    truncInt_sample _ 1 (by norm_num) (by field_simp; norm_num) (by field_simp; norm_num)]
  rfl

/-- The hypotheses of C65_arc_tolerance. -/
example : ∃ q, (PPath.new (1 / 2 : ℝ) (0, 0) 1 0).arc realNum (3 / 4) 0 (π / 2) (1 / 2) none 199 none none (.one 1) (.one 0) =
    (q, none) ∧ q.polygons.length = 1 ∧ (0 : ℝ) ≠ π / 2 ∧ |π / 2 - 0| < 2 * π ∧ widthOf (PPath.new (1 / 2 : ℝ) (0, 0) 1 0) = 1 / 2 ∧
      (0 : ℝ) ≤ 3 / 4 + lane 1 0 * 0 - 1 / 2 / 2 := by
  have hpi := pi_pos
  have e : |π / 2 - 0| = π / 2 := by rw [sub_zero, abs_of_pos (by linarith)]
  have hp : ((1 / 2 : ℝ) / 2) = 1 / 4 := by norm_num
  have hl : ∀ a b : ℝ, (linspace a b 2).getD 0 0 = a := by intro a b; simp [linspace, List.range_succ]
  have hl1 : ∀ a : ℝ, (linspace a a 2).getD 1 0 = a := by intro a; simp [linspace, List.range_succ]
  have hpoly : ∀ a0 a1 : ℝ, (arcPoly realNum (0 - 3 / 4 * realNum.cos 0) (0 - 3 / 4 * realNum.sin 0) (3 / 4) 1 6 0 (1 / 4) (1 / 4) 0 0
      a0 a1).2 = none := by
    intro a0 a1
    unfold arcPoly
    simp only
    rw [if_neg (by norm_num)]
  have : ((PPath.new (1 / 2 : ℝ) (0, 0) 1 0).arc realNum (3 / 4) 0 (π / 2) (1 / 2) none 199 none none (.one 1) (.one 0)).2 = none ∧
      ((PPath.new (1 / 2 : ℝ) (0, 0) 1 0).arc realNum (3 / 4) 0 (π / 2) (1 / 2) none 199 none none (.one 1) (.one 0)).1.polygons.length
        = 1 := by
    unfold PPath.arc PPath.new
    simp only [Option.map_none, Option.getD_none, hp, arcPoints_sample]
    rw [show pieceCount 6 199 = 1 from rfl]
    simp only [one_ne_zero, if_false]
    rw [if_pos (by norm_num)]
    simp only [List.range_one, forOut, PPath.arcPiece, hl, hl1, Nat.div_one, zero_add]
    have h2 := hpoly 0 ((linspace 0 (π / 2) 2).getD 1 0)
    rw [← Prod.eta (arcPoly _ _ _ _ _ _ _ _ _ _ _ _ _), h2]
    simp [PPath.tag, LayerArg.expand]
  exact ⟨_, by rw [← Prod.eta ((PPath.new (1 / 2 : ℝ) (0, 0) 1 0).arc _ _ _ _ _ _ _ _ _ _ _), this.1], this.2, by linarith, by linarith,
    by unfold widthOf PPath.new; norm_num, by norm_num⟩

end Gdspy
