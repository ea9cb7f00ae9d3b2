import Verif.Lemmas.ReadsAs
import Verif.Spec.Snap

/-!
Elements off the grid: what is read is the rounded element.
-/

namespace Gdspy

open Spec

theorem pyRound_near (x : ℚ) : |x - pyRound x| ≤ 1 / 2 := by
  unfold pyRound
  have h1 := Int.floor_le x
  have h2 := Int.lt_floor_add_one x
  rw [abs_le]
  split_ifs <;> push_cast <;> constructor <;> linarith

theorem pyRound_mono (x y : ℚ) (h : x ≤ y) : pyRound x ≤ pyRound y := by
  by_contra hc
  push Not at hc
  have hx := pyRound_near x
  have hy := pyRound_near y
  rw [abs_le] at hx hy
  have hc' : (pyRound y : ℚ) + 1 ≤ pyRound x := by exact_mod_cast hc
  have : x = y := by linarith [hx.1, hx.2, hy.1, hy.2]
  subst this
  exact absurd hc (lt_irrefl _)

theorem pyRound_int (n : ℤ) : pyRound (n : ℚ) = n := by
  apply pyRound_eq
  simp

theorem pyRound_rounding : Rounding pyRound := ⟨pyRound_mono, pyRound_near, pyRound_int⟩

theorem onMap_i32 {m x : ℚ} (h : OnMap m x) : I32 (pyRound (x * m)) := by
  unfold OnMap at h
  rw [abs_le] at h
  have h1 := pyRound_mono _ _ h.1
  have h2 := pyRound_mono _ _ h.2
  have e1 : pyRound (-2147483647) = -2147483647 := by exact_mod_cast pyRound_int (-2147483647)
  have e2 : pyRound 2147483647 = 2147483647 := by exact_mod_cast pyRound_int 2147483647
  rw [e1] at h1
  rw [e2] at h2
  unfold I32
  omega

theorem gridPoints_i32 {m : ℚ} {pts : List (ℚ × ℚ)} (h : ∀ p ∈ pts, OnMap2 m p) :
    ∀ n ∈ gridPoints m pts, I32 n := by
  intro n hn
  unfold gridPoints at hn
  obtain ⟨p, hp, hn⟩ := List.mem_flatMap.1 hn
  simp only [List.mem_cons, List.not_mem_nil, or_false] at hn
  rcases hn with rfl | rfl
  · exact onMap_i32 (h p hp).1
  · exact onMap_i32 (h p hp).2

theorem pairs_gridPoints (m f : ℚ) (pts : List (ℚ × ℚ)) :
    pairs ((gridPoints m pts).map fun n : Int => f * (n : ℚ)) = pts.map (snap2 pyRound m f) := by
  unfold gridPoints
  induction pts with
  | nil => rfl
  | cons p pts ih =>
    rw [List.flatMap_cons, List.map_append, List.map_cons, List.map_cons, List.map_nil,
      List.map_cons, ← ih]
    rfl

section
variable {div : ℚ → ℚ → ℚ} {trig : ℚ → ℚ × ℚ} {a : ReadArgs}

theorem writePoly_snaps {m f : ℚ} (props : Properties) (p : Poly) (h0 : p.points ≠ [])
    (hl : Word p.layer) (hd : Word p.datatype) (hg : ∀ q ∈ p.points, OnMap2 m q)
    (hp : GoodProps props) :
    ReadsAs div trig a f (writePoly m props p)
      [.polygon ⟨[⟨p.points.map (snap2 pyRound m f), mapped a.layers p.layer,
        mapped a.datatypes p.datatype⟩], props⟩] := by
  obtain ⟨chunks, hne, hc, he⟩ := writePoly_emits m props p h0 hl hd (gridPoints_i32 hg) hp
  refine ReadsAs.of_run he _ fun st name hst hf => ?_
  have hlen := gridPoints_length m p.points
  have hpos : 0 < p.points.length := List.length_pos_of_ne_nil h0
  have hne' : gridPoints m p.points ≠ [] := by
    intro hc
    have := congrArg List.length hc
    rw [List.length_nil] at this
    omega
  have := run_poly (div := div) (trig := trig) (a := a) st name hst p.layer p.datatype
    (gridPoints m p.points) (by omega) hne' chunks hne hc props hp
  rw [pairs_gridPoints, hf] at this
  rw [hf]
  exact this

theorem writeSubPath_snaps {m f : ℚ} (sign : Int) (props : Properties) (s : SubPath)
    (h0 : s.spine ≠ []) (hl : Word s.layer) (hd : Word s.datatype)
    (hg : ∀ q ∈ s.spine, OnMap2 m q) (hs : sign = 1 ∨ sign = -1) (hw : OnMap m s.width)
    (he : ∀ x y, s.ends = .ext x y → OnMap m x ∧ OnMap m y) (hp : GoodProps props) :
    ReadsAs div trig a f (writeSubPath m sign props s)
      [.path ⟨!decide (sign * pyRound (s.width * m) < 0),
        [⟨f * |(pyRound (s.width * m) : ℚ)|, endsBack m f s.ends, mapped a.layers s.layer,
        mapped a.datatypes s.datatype, s.spine.map (snap2 pyRound m f)⟩], props⟩] := by
  have hw' : I32 (sign * pyRound (s.width * m)) := by
    have h1 : -2147483647 ≤ pyRound (s.width * m) ∧ pyRound (s.width * m) ≤ 2147483647 := by
      unfold OnMap at hw
      rw [abs_le] at hw
      have h1 := pyRound_mono _ _ hw.1
      have h2 := pyRound_mono _ _ hw.2
      have e1 : pyRound (-2147483647) = -2147483647 := by exact_mod_cast pyRound_int (-2147483647)
      have e2 : pyRound 2147483647 = 2147483647 := by exact_mod_cast pyRound_int 2147483647
      rw [e1] at h1
      rw [e2] at h2
      exact ⟨h1, h2⟩
    unfold I32
    rcases hs with rfl | rfl <;> omega
  obtain ⟨chunks, hne, hc, hem⟩ := writeSubPath_emits m sign props s h0 hl hd (gridPoints_i32 hg)
    hw' (fun x y hxy => ⟨onMap_i32 (he x y hxy).1, onMap_i32 (he x y hxy).2⟩) hp
  refine ReadsAs.of_run hem _ fun st name hst hf => ?_
  have hlen := gridPoints_length m s.spine
  have := run_path (div := div) (trig := trig) (a := a) m st name hst s.layer s.datatype s.ends
    (sign * pyRound (s.width * m)) (gridPoints m s.spine) (by omega) chunks hne hc
    props hp
  have e2 : |((sign * pyRound (s.width * m) : Int) : ℚ)| = |(pyRound (s.width * m) : ℚ)| := by
    rcases hs with rfl | rfl <;> simp
  rw [pairs_gridPoints, e2, hf] at this
  rw [hf]
  exact this

theorem label_snaps {m f : ℚ} (b : Label) (text : Str) (ht : b.text = some text)
    (hg : GoodText text) (hpos : OnMap2 m b.position) (ha : GoodAnchor b.anchor)
    (hr : GoodReal b.rotation) (hm : GoodReal b.magnification)
    (hw : Word b.layer ∧ Word b.texttype) (hp : GoodProps b.properties) :
    ReadsAs div trig a f (b.toGds m)
      [.label (({ b with position := snap2 pyRound m f b.position } : Label).imported a)] := by
  refine ReadsAs.of_run (writeLabel_emits m b text ht hg (onMap_i32 hpos.1) (onMap_i32 hpos.2)
    ha hr hm hw.1 hw.2 hp) _ fun st name hst hf => ?_
  have := run_label (div := div) (trig := trig) (a := a) st name hst b.layer b.texttype b.anchor
    ha b.rotation b.magnification b.xReflection (pyRound (b.position.1 * m))
    (pyRound (b.position.2 * m)) text b.properties hp
  rw [hf, ← ht] at this
  rw [hf]
  exact this

theorem ref_snaps {m f : ℚ} (r : Ref) (htg : GoodText r.target.str) (ho : OnMap2 m r.origin)
    (hr : GoodReal r.rotation) (hm : GoodReal r.magnification) (hp : GoodProps r.properties)
    (har : r.array = none) :
    ReadsAs div trig a f (r.toGds trig m)
      [.ref (({ r with origin := snap2 pyRound m f r.origin } : Ref).imported a)] := by
  have hfit : RefFits trig m r := ⟨onMap_i32 ho.1, onMap_i32 ho.2, by simp [har]⟩
  have hem := writeRef_emits trig m r htg hfit hr hm hp
  refine ReadsAs.of_run hem _ fun st name hst hf => ?_
  have := run_ref (div := div) (trig := trig) (a := a) st name hst r.target.str
    r.rotation r.magnification r.xReflection (pyRound (r.origin.1 * m))
    (pyRound (r.origin.2 * m)) r.properties hp
  rw [hf] at this
  rw [hf]
  simp only [refXYRecords, har, Ref.imported, Option.isSome_none]
  exact this

theorem array_snaps {m f : ℚ} (r : Ref) (htg : GoodText r.target.str) (ho : OnMap2 m r.origin)
    (hr : GoodReal r.rotation) (hm : GoodReal r.magnification) (hp : GoodProps r.properties)
    (columns rows : ℤ) (sp : ℚ × ℚ) (har : r.array = some (columns, rows, sp))
    (hcw : Word columns) (hrw : Word rows) (hc0 : columns ≠ 0) (hr0 : rows ≠ 0)
    (h1 : OnMap2 m (cornersOf (trigOf trig r.rotation) r.xReflection r.origin columns rows sp).1)
    (h2 : OnMap2 m (cornersOf (trigOf trig r.rotation) r.xReflection r.origin columns rows sp).2) :
    ReadsAs div trig a f (r.toGds trig m)
      [.ref (({ r with
        origin := snap2 pyRound m f r.origin
        array := some (columns, rows, arraySpacing trig (some r.xReflection) r.rotation columns rows
          (snap2 pyRound m f r.origin).1 (snap2 pyRound m f r.origin).2
          (snap2 pyRound m f (cornersOf (trigOf trig r.rotation) r.xReflection r.origin columns
            rows sp).1).1
          (snap2 pyRound m f (cornersOf (trigOf trig r.rotation) r.xReflection r.origin columns
            rows sp).1).2
          (snap2 pyRound m f (cornersOf (trigOf trig r.rotation) r.xReflection r.origin columns
            rows sp).2).1
          (snap2 pyRound m f (cornersOf (trigOf trig r.rotation) r.xReflection r.origin columns
            rows sp).2).2) } : Ref).imported a)] := by
  have e := arrayCorners_eq (trig := trig) r columns rows sp
  have hfit : RefFits trig m r := by
    refine ⟨onMap_i32 ho.1, onMap_i32 ho.2, ?_⟩
    intro columns' rows' sp' h'
    rw [har] at h'
    cases h'
    rw [e]
    exact ⟨hcw, hrw, onMap_i32 h1.1, onMap_i32 h1.2, onMap_i32 h2.1, onMap_i32 h2.2⟩
  have hem := writeRef_emits trig m r htg hfit hr hm hp
  refine ReadsAs.of_run hem _ fun st name hst hf => ?_
  have := run_array (div := div) (trig := trig) (a := a) st name hst r.target.str
    r.rotation r.magnification r.xReflection columns rows (pyRound (r.origin.1 * m))
    (pyRound (r.origin.2 * m))
    (pyRound ((arrayCorners trig r columns rows sp).1.1 * m))
    (pyRound ((arrayCorners trig r columns rows sp).1.2 * m))
    (pyRound ((arrayCorners trig r columns rows sp).2.1 * m))
    (pyRound ((arrayCorners trig r columns rows sp).2.2 * m)) hc0 hr0 r.properties hp
  rw [hf, e] at this
  rw [hf]
  simp only [refXYRecords, har, Ref.imported, Option.isSome_some, e]
  exact this

/-- A rounded coordinate is at most half a grid step away. -/
theorem snap_near {m d x : ℚ} (hd : 0 < d) (hm : d * m = 1) : |d * pyRound (x * m) - x| ≤ d / 2 := by
  have h := pyRound_near (x * m)
  have e : d * (pyRound (x * m) : ℚ) - x = -(d * (x * m - pyRound (x * m))) := by
    have : d * (x * m) = x := by rw [mul_comm x, ← mul_assoc, hm, one_mul]
    rw [mul_sub, this]; ring
  rw [e, abs_neg, abs_mul, abs_of_pos hd]
  nlinarith

theorem abs_div_int_le {u e : ℚ} {n : ℤ} (hn : n ≠ 0) (h : |u| ≤ e) : |u / n| ≤ e / |(n : ℚ)| := by
  rw [abs_div]
  have : (0 : ℚ) < |(n : ℚ)| := abs_pos.2 (by exact_mod_cast hn)
  exact div_le_div_of_nonneg_right h this.le

/-- Spacing recovered from rounded corners. -/
theorem arraySpacing_near {m d : ℚ} (hd : 0 < d) (hm : d * m = 1) (xr : Bool) (rot : Option ℚ)
    (columns rows : Int) (o sp : ℚ × ℚ) (hc : columns ≠ 0) (hr : rows ≠ 0)
    (ht : (trigOf trig rot).1 ^ 2 + (trigOf trig rot).2 ^ 2 = 1) :
    let c := cornersOf (trigOf trig rot) xr o columns rows sp
    let s := arraySpacing trig (some xr) rot columns rows
      (snap2 pyRound m d o).1 (snap2 pyRound m d o).2
      (snap2 pyRound m d c.1).1 (snap2 pyRound m d c.1).2
      (snap2 pyRound m d c.2).1 (snap2 pyRound m d c.2).2
    |s.1 - sp.1| ≤ d * (|(trigOf trig rot).1| + |(trigOf trig rot).2|) / |(columns : ℚ)| ∧
    |s.2 - sp.2| ≤ d * (|(trigOf trig rot).1| + |(trigOf trig rot).2|) / |(rows : ℚ)| := by
  intro c s
  have hs := arraySpacing_corners (trig := trig) xr rot columns rows o sp hc hr
  rw [ht, scale2_one] at hs
  have hc' : (columns : ℚ) ≠ 0 := by exact_mod_cast hc
  have hr' : (rows : ℚ) ≠ 0 := by exact_mod_cast hr
  have n0 := snap_near (x := o.1) hd hm
  have n1 := snap_near (x := o.2) hd hm
  have n2 := snap_near (x := c.1.1) hd hm
  have n3 := snap_near (x := c.1.2) hd hm
  have n4 := snap_near (x := c.2.1) hd hm
  have n5 := snap_near (x := c.2.2) hd hm
  have key : ∀ (A B C D p q : ℚ), |A| ≤ d / 2 → |B| ≤ d / 2 → |C| ≤ d / 2 → |D| ≤ d / 2 →
      |(A - B) * p + (C - D) * q| ≤ d * (|p| + |q|) := by
    intro A B C D p q hA hB hC hD
    have h1 : |(A - B) * p| ≤ d * |p| := by
      rw [abs_mul]
      exact mul_le_mul_of_nonneg_right ((abs_sub _ _).trans (by linarith)) (abs_nonneg _)
    have h2 : |(C - D) * q| ≤ d * |q| := by
      rw [abs_mul]
      exact mul_le_mul_of_nonneg_right ((abs_sub _ _).trans (by linarith)) (abs_nonneg _)
    calc _ ≤ _ := abs_add_le _ _
      _ ≤ d * |p| + d * |q| := add_le_add h1 h2
      _ = _ := by ring
  have hs1 := congrArg Prod.fst hs
  have hs2 := congrArg Prod.snd hs
  rw [← hs1, ← hs2]
  have k1 := key _ _ _ _ (trigOf trig rot).1 (trigOf trig rot).2 n2 n0 n3 n1
  have k2 := key _ _ _ _ (trigOf trig rot).1 (trigOf trig rot).2 n5 n1 n4 n0
  have k3 := key _ _ _ _ (trigOf trig rot).1 (-(trigOf trig rot).2) n5 n1 n4 n0
  rw [abs_neg] at k3
  constructor
  · refine le_trans (le_of_eq ?_) (abs_div_int_le hc k1)
    congr 1
    simp only [s, arraySpacing, snap2, c]
    cases rot <;> simp only [trigOf, sub_div, add_div] <;> ring
  · refine le_trans (le_of_eq ?_) (abs_div_int_le hr k3)
    cases xr
    · congr 1
      simp only [s, arraySpacing, snap2, c]
      cases rot <;> simp [trigOf, sub_div, add_div] <;> ring
    · rw [← abs_neg]
      congr 1
      simp only [s, arraySpacing, snap2, c]
      cases rot <;> simp [trigOf, sub_div, add_div] <;> ring

end

end Gdspy
