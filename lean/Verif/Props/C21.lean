import Verif.Lemmas.Samples
import Verif.Props.C13

/-!
# C21: rounding to the grid
-/

namespace Gdspy

open Spec

/-- **C21.** There is one rounding rule (monotone, never more than half a step off, fixing
integers) such that every polygon, path, label and reference within the 32-bit range is read back
with each coordinate `x` replaced by `d * r (x * m)`; everything else (order and number of vertices,
layers, text, transformation, properties) is unchanged. -/
theorem C21_grid_rounding {div : ℚ → ℚ → ℚ} {trig : ℚ → ℚ × ℚ} {a : ReadArgs} {m d : ℚ}
    (ha : PlainArgs a) :
    ∃ r : ℚ → ℤ, Rounding r ∧
      (∀ s : PolygonSet, (∀ p ∈ s.polys, p.points ≠ [] ∧ Word p.layer ∧ Word p.datatype ∧
          ∀ q ∈ p.points, OnMap2 m q) → GoodProps s.properties →
        ReadsAs div trig a d (s.toGds m) (s.polys.map fun p =>
          .polygon ⟨[{ p with points := p.points.map (snap2 r m d) }], s.properties⟩)) ∧
      (∀ b : Label, (∃ t, b.text = some t ∧ GoodText t) → GoodAnchor b.anchor →
        GoodReal b.rotation → GoodReal b.magnification → Word b.layer → Word b.texttype →
        GoodProps b.properties → OnMap2 m b.position →
        ReadsAs div trig a d (b.toGds m) [.label { b with position := snap2 r m d b.position }]) ∧
      (∀ f : Ref, f.array = none → GoodText f.target.str → GoodReal f.rotation →
        GoodReal f.magnification → GoodProps f.properties → OnMap2 m f.origin →
        ReadsAs div trig a d (f.toGds trig m)
          [.ref { f with origin := snap2 r m d f.origin, target := .name f.target.str }]) ∧
      (∀ p : GdsPath, (∀ s ∈ p.subs, s.spine ≠ [] ∧ Word s.layer ∧ Word s.datatype ∧
          (∀ q ∈ s.spine, OnMap2 m q) ∧ OnMap m s.width ∧ (1 / 2 < s.width * m) ∧
          (s.ends = .flush ∨ s.ends = .round ∨ s.ends = .extended)) →
        GoodProps p.properties →
        ReadsAs div trig a d (p.toGds m) (p.subs.map fun s => .path ⟨p.widthTransform,
          [{ s with spine := s.spine.map (snap2 r m d), width := d * r (s.width * m) }],
          p.properties⟩)) := by
  refine ⟨pyRound, pyRound_rounding, ?_, ?_, ?_, ?_⟩
  · intro s hs hp
    rw [List.map_eq_flatMap]
    refine ReadsAs.writeAll fun p hp' => ?_
    obtain ⟨h0, h1, h2, h3⟩ := hs p hp'
    have := writePoly_snaps (div := div) (trig := trig) (a := a) (f := d) s.properties p h0 h1 h2 h3 hp
    rw [mapped_none ha.2.1, mapped_none ha.2.2.1] at this
    exact this
  · rintro b ⟨t, ht, hg⟩ h1 h2 h3 h4 h5 h6 h7
    have := label_snaps (div := div) (trig := trig) (a := a) (f := d) b t ht hg h7 h1 h2 h3
      ⟨h4, h5⟩ h6
    unfold Label.imported at this
    rw [mapped_none ha.2.1, mapped_none ha.2.2.2] at this
    exact this
  · intro f h0 h1 h2 h3 h4 h5
    have := ref_snaps (div := div) (trig := trig) (a := a) (f := d) f h1 h5 h2 h3 h4 h0
    unfold Ref.imported at this
    rw [ha.1] at this
    exact this
  · intro p hs hp
    rw [List.map_eq_flatMap]
    refine ReadsAs.writeAll fun s hs' => ?_
    obtain ⟨h0, h1, h2, h3, h4, h5, h6⟩ := hs s hs'
    have := writeSubPath_snaps (div := div) (trig := trig) (a := a) (f := d)
      (if p.widthTransform then 1 else -1) p.properties s h0 h1 h2 h3 (by split <;> simp) h4
      (by rcases h6 with h | h | h <;> rw [h] <;> simp) hp
    have hpos : 0 < pyRound (s.width * m) := by
      have hn := (abs_le.1 (pyRound_near (s.width * m))).2
      have : (0 : ℚ) < pyRound (s.width * m) := by linarith
      exact_mod_cast this
    have hposq : (0 : ℚ) ≤ pyRound (s.width * m) := by exact_mod_cast hpos.le
    have e1 : endsBack m d s.ends = s.ends := by
      rcases h6 with h | h | h <;> rw [h] <;> rfl
    have e2 : (!decide ((if p.widthTransform then 1 else -1) * pyRound (s.width * m) < 0))
        = p.widthTransform := by
      cases p.widthTransform <;> simp <;> omega
    rw [e1, e2, abs_of_nonneg hposq, mapped_none ha.2.1, mapped_none ha.2.2.1] at this
    exact this

/-- Coordinates that are not on the grid but in range. -/
example : PlainArgs (Sample.args .skip) ∧ OnMap2 1024 (1 / 3, -5 / 7) := by
  refine ⟨Sample.args_plain _, ?_, ?_⟩ <;> norm_num [OnMap, abs_le]

/-- **C21.** With any such rule every coordinate is moved by at most half a grid step, two
coordinates never change order, and grid coordinates stay. -/
theorem C21_rounding_error {r : ℚ → ℤ} (hr : Rounding r) {m d : ℚ} (hd : 0 < d) (hm : d * m = 1)
    (p q : ℚ × ℚ) :
    |(snap2 r m d p).1 - p.1| ≤ d / 2 ∧ |(snap2 r m d p).2 - p.2| ≤ d / 2 ∧
    (p.1 ≤ q.1 → (snap2 r m d p).1 ≤ (snap2 r m d q).1) ∧
    (p.2 ≤ q.2 → (snap2 r m d p).2 ≤ (snap2 r m d q).2) ∧
    (∀ i j : ℤ, snap2 r m d (d * i, d * j) = (d * i, d * j)) := by
  have hm0 : 0 < m := by
    rcases lt_trichotomy m 0 with h | h | h
    · nlinarith
    · rw [h] at hm; norm_num at hm
    · exact h
  have near : ∀ x : ℚ, |d * r (x * m) - x| ≤ d / 2 := by
    intro x
    have h := hr.near (x * m)
    have e : d * (r (x * m) : ℚ) - x = -(d * (x * m - r (x * m))) := by
      have : d * (x * m) = x := by rw [mul_comm x, ← mul_assoc, hm, one_mul]
      rw [mul_sub, this]; ring
    rw [e, abs_neg, abs_mul, abs_of_pos hd]
    nlinarith
  have mono : ∀ x y : ℚ, x ≤ y → d * (r (x * m) : ℚ) ≤ d * r (y * m) := by
    intro x y h
    have := hr.monotone _ _ (mul_le_mul_of_nonneg_right h hm0.le)
    have : (r (x * m) : ℚ) ≤ r (y * m) := by exact_mod_cast this
    exact mul_le_mul_of_nonneg_left this hd.le
  have fix : ∀ i : ℤ, d * (r (d * i * m) : ℚ) = d * i := by
    intro i
    have : d * (i : ℚ) * m = i := by rw [mul_right_comm, hm, one_mul]
    rw [this, hr.fixes]
  refine ⟨near _, near _, mono _ _, mono _ _, fun i j => ?_⟩
  unfold snap2
  rw [fix, fix]

example : Rounding (fun x => pyRound x) ∧ (0 : ℚ) < 1 / 1000 ∧ (1 / 1000 : ℚ) * 1000 = 1 :=
  ⟨pyRound_rounding, by norm_num, by norm_num⟩

/-! ### RobustPath truncates -/

theorem robust_eq {m : ℚ} (hm : m ≠ 0) (sign : Int) (props : Properties) (s : SubPath) :
    writeRobustSubPath m sign props s
      = writeSubPath m sign props { s with spine := s.spine.map fun p =>
          ((pyTrunc (p.1 * m) : ℚ) / m, (pyTrunc (p.2 * m) : ℚ) / m) } := by
  have h : ∀ n : ℤ, pyRound ((n : ℚ) / m * m) = n := by
    intro n
    rw [div_mul_cancel₀ _ hm, pyRound_int]
  have e : truncPoints m s.spine = gridPoints m (s.spine.map fun p =>
      ((pyTrunc (p.1 * m) : ℚ) / m, (pyTrunc (p.2 * m) : ℚ) / m)) := by
    unfold truncPoints gridPoints
    rw [List.flatMap_map]
    congr 1
    funext p
    rw [h, h]
  unfold writeRobustSubPath writeSubPath writeRobustSpine writeSpine
  simp only [List.length_map, e]

theorem pyTrunc_abs (x : ℚ) : |(pyTrunc x : ℚ)| ≤ |x| := by
  unfold pyTrunc
  split
  · rename_i h
    have h1 : 0 ≤ ⌊x⌋ := Int.floor_nonneg.2 h
    have h1 : (0 : ℚ) ≤ (⌊x⌋ : ℚ) := by exact_mod_cast h1
    rw [abs_of_nonneg h1, abs_of_nonneg h]
    exact Int.floor_le x
  · rename_i h
    push Not at h
    have h1 : ⌈x⌉ ≤ 0 := Int.ceil_le.2 (by simpa using h.le)
    have h1 : (⌈x⌉ : ℚ) ≤ 0 := by exact_mod_cast h1
    rw [abs_of_nonpos h1, abs_of_neg h]
    linarith [Int.le_ceil x]

/-- **C21, disagreement.** A `RobustPath` stored as GDSII path is not rounded: each coordinate of its
spine is read back as the grid coordinate next to it *in the direction of zero*. -/
theorem C21_robust_path_truncates {div : ℚ → ℚ → ℚ} {trig : ℚ → ℚ × ℚ} {a : ReadArgs} {m d : ℚ}
    (hm : d * m = 1) (ha : PlainArgs a) (s : SubPath) (props : Properties)
    (h0 : s.spine ≠ []) (hl : Word s.layer) (hd' : Word s.datatype)
    (hg : ∀ q ∈ s.spine, OnMap2 m q) (hw : OnMap m s.width) (hw' : 1 / 2 < s.width * m)
    (he : s.ends = .flush) (hp : GoodProps props) :
    ∃ (t : ℚ → ℤ) (w : ℚ),
      (∀ x, 0 ≤ x → (t x : ℚ) ≤ x ∧ x < t x + 1) ∧ (∀ x, x ≤ 0 → x ≤ (t x : ℚ) ∧ t x - 1 < x) ∧
      ReadsAs div trig a d (writeRobustSubPath m 1 props s)
        [.path ⟨true, [{ s with spine := s.spine.map (snap2 t m d), width := w }], props⟩] := by
  have hm0 : m ≠ 0 := by rintro rfl; norm_num at hm
  refine ⟨pyTrunc, d * pyRound (s.width * m), ?_, ?_, ?_⟩
  · intro x hx
    unfold pyTrunc
    rw [if_pos hx]
    exact ⟨Int.floor_le x, Int.lt_floor_add_one x⟩
  · intro x hx
    unfold pyTrunc
    rcases hx.lt_or_eq with h | rfl
    · rw [if_neg (by linarith)]
      exact ⟨Int.le_ceil x, by linarith [Int.ceil_lt_add_one x]⟩
    · simp
  · have hr : ∀ x : ℚ, OnMap m x → OnMap m ((pyTrunc (x * m) : ℚ) / m) := by
      intro x hx
      unfold OnMap at hx ⊢
      rw [div_mul_cancel₀ _ hm0]
      exact (pyTrunc_abs _).trans hx
    have := writeSubPath_snaps (div := div) (trig := trig) (a := a) (f := d) (m := m) 1 props
      { s with spine := s.spine.map fun p =>
          ((pyTrunc (p.1 * m) : ℚ) / m, (pyTrunc (p.2 * m) : ℚ) / m) } (by simpa using h0) hl hd'
      (by
        intro q hq
        obtain ⟨p, hp', rfl⟩ := List.mem_map.1 hq
        exact ⟨hr _ (hg p hp').1, hr _ (hg p hp').2⟩) (Or.inl rfl) hw
      (by rw [he]; simp) hp
    rw [robust_eq hm0]
    have hpos : 0 < pyRound (s.width * m) := by
      have hn := (abs_le.1 (pyRound_near (s.width * m))).2
      have : (0 : ℚ) < pyRound (s.width * m) := by linarith
      exact_mod_cast this
    have hposq : (0 : ℚ) ≤ pyRound (s.width * m) := by exact_mod_cast hpos.le
    simp only [one_mul, he, endsBack, abs_of_nonneg hposq, mapped_none ha.2.1,
      mapped_none ha.2.2.1] at this
    have e1 : (!decide (pyRound (s.width * m) < 0)) = true := by simp; omega
    rw [e1, List.map_map] at this
    have e2 : (snap2 pyRound m d ∘ fun p : ℚ × ℚ =>
        ((pyTrunc (p.1 * m) : ℚ) / m, (pyTrunc (p.2 * m) : ℚ) / m)) = snap2 pyTrunc m d := by
      funext p
      simp only [Function.comp, snap2, div_mul_cancel₀ _ hm0, pyRound_int]
    rw [e2] at this
    rw [← he] at this
    exact this

/-- So the error can come as close to a full grid step as one likes. -/
theorem C21_robust_path_error_witness {t : ℚ → ℤ} (ht : ∀ x, 0 ≤ x → (t x : ℚ) ≤ x ∧ x < t x + 1)
    {m d : ℚ} (hd : 0 < d) (hm : d * m = 1) (ε : ℚ) (he : 0 < ε) (he1 : ε ≤ 1) :
    ∃ x, |(snap2 t m d (x, 0)).1 - x| = d * (1 - ε) := by
  refine ⟨d * (1 - ε), ?_⟩
  have e : d * (1 - ε) * m = 1 - ε := by rw [mul_right_comm, hm, one_mul]
  obtain ⟨h1, h2⟩ := ht (1 - ε) (by linarith)
  have h3 : t (1 - ε) = 0 := by
    have a1 : (t (1 - ε) : ℚ) < 1 := by linarith
    have a2 : (-1 : ℚ) < t (1 - ε) := by linarith
    have a1 : t (1 - ε) < 1 := by exact_mod_cast a1
    have a2 : -1 < t (1 - ε) := by exact_mod_cast a2
    omega
  simp only [snap2]
  rw [e, h3]
  simp only [Int.cast_zero, mul_zero, zero_sub, abs_neg]
  rw [abs_of_nonneg]
  exact mul_nonneg hd.le (by linarith)

example : (0 : ℚ) < 1 / 100 ∧ (1 / 100 : ℚ) ≤ 1 ∧ (1 / 1024 : ℚ) * 1024 = 1 := by norm_num

end Gdspy
