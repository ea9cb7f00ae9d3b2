import Verif.Props.C72

/-!
# C72: offsets and widths continue from section to section

The current offset and width of a path are those at the end of its last section as drawn, also after transformations, so that
a new section that goes on in the same direction begins where the last one ends.
-/

set_option linter.unusedSectionVars false

namespace Gdspy

open Spec

variable {K : Type} [Field K] [LinearOrder K]

/-- The current offset of each path is that at the end of its last section as drawn: magnified with the section, and to the
other side if the section has been reflected. The same for its width, except in GDSII paths whose width does not transform. -/
def Spec.UpToDate (r : Robust K) : Prop :=
  ∀ (i : Nat) (p : List (Sub K)) (s : Sub K) (w o : K), r.paths[i]? = some p → p.getLast? = some s → r.widths[i]? = some w → r.offsets[i]? = some o →
    ∃ (A : Aff K) (k e : K), s.tr = A.mat ∧ Similar A k e ∧ o = e * k * s.off 1 ∧
      ((r.widthTransform || !r.gdsiiPath) = true → w = e * k * s.wid 1)

/-- Transformations other than those by negative factors. -/
def Spec.PositiveScale : RobustOp K → Prop
  | .scale s _ => 0 < s
  | .transform _ _ sc _ _ => ∀ s, sc = some s → 0 < s
  | _ => True

variable [IsStrictOrderedRing K]

theorem mat_of_identity {m : Mat K} (h : ∀ p, m.app p = p) : m = (Aff.id : Aff K).mat := by
  have h0 := h (0, 0)
  have h1 := h (1, 0)
  have h2 := h (0, 1)
  unfold Mat.app at h0 h1 h2
  simp only [mul_zero, add_zero, zero_add, mul_one, Prod.mk.injEq] at h0 h1 h2
  obtain ⟨a1, a2⟩ := h0
  obtain ⟨b1, b2⟩ := h1
  obtain ⟨c1, c2⟩ := h2
  rw [a1, add_zero] at b1 c1
  rw [a2, add_zero] at b2 c2
  cases m
  simp only at a1 a2 b1 b2 c1 c2
  subst a1 a2 b1 b2 c1 c2
  rfl

theorem extended_upToDate {r g : Robust K} {c : K → Pt K} {d : K → K → Pt K} {w o : RArg K} (h : Extended r g c d w o)
    (hg : RobustAligned g) : UpToDate g := by
  intro i p s w' o' hp hs hw ho
  have hin : i < r.n := by
    rw [← h.n, ← hg.paths]
    exact (List.getElem?_eq_some_iff.1 hp).1
  obtain ⟨q, _, _, wl, ol, s', e1, _, _, _, _, e6, e7, e8, _, _, e11, e12, _, _, _, e16⟩ := h.rows i hin
  rw [hp, Option.some.injEq] at e6
  rw [e6, List.getLast?_concat, Option.some.injEq] at hs
  subst hs
  rw [hw, Option.some.injEq] at e7
  rw [ho, Option.some.injEq] at e8
  refine ⟨.id, 1, 1, mat_of_identity e16, .id, ?_, fun _ => ?_⟩
  · rw [e8, e12]; ring
  · rw [e7, e11]; ring

/-- A transformation keeps offsets and widths up to date when it changes them as it changes the drawing. -/
theorem moved_upToDate {A : Aff K} {k e : K} (hA : Similar A k e) {r g : Robust K} (h : MovedBy A r g)
    (hf : (g.widthTransform || !g.gdsiiPath) = (r.widthTransform || !r.gdsiiPath))
    (ho : g.offsets = r.offsets.map fun x => e * k * x)
    (hw : (r.widthTransform || !r.gdsiiPath) = true → g.widths = r.widths.map fun x => e * k * x)
    (hl : g.widths.length = r.widths.length) (hr : UpToDate r) : UpToDate g := by
  intro i p s w o hp hs hw' ho'
  rw [h.paths, List.getElem?_map] at hp
  obtain ⟨q, hq, rfl⟩ := Option.map_eq_some_iff.1 hp
  rw [List.getLast?_map] at hs
  obtain ⟨s0, hs0, rfl⟩ := Option.map_eq_some_iff.1 hs
  rw [ho, List.getElem?_map] at ho'
  obtain ⟨o0, ho0, rfl⟩ := Option.map_eq_some_iff.1 ho'
  have hi : i < r.widths.length := by
    rw [← hl]
    exact (List.getElem?_eq_some_iff.1 hw').1
  obtain ⟨B, k', e', h1, h2, h3, h4⟩ := hr i q s0 _ o0 hq hs0 (List.getElem?_eq_getElem hi) ho0
  refine ⟨A.comp B, k * k', e * e', ?_, hA.comp h2, ?_, ?_⟩
  · show A.mat.mul s0.tr = _
    rw [h1]
    unfold Mat.mul Aff.mat Aff.comp
    rfl
  · show e * k * o0 = e * e' * (k * k') * s0.off 1
    rw [h3]; ring
  · intro ht
    rw [hf] at ht
    have := hw ht
    rw [this, List.getElem?_map, List.getElem?_eq_getElem hi] at hw'
    simp only [Option.map_some, Option.some.injEq] at hw'
    rw [← hw', h4 ht]
    show _ = e * e' * (k * k') * s0.wid 1
    ring

theorem map_one_mul (l : List K) : l = l.map fun x => 1 * 1 * x := by simp

theorem shift_upToDate (d : Option (Pt K)) {r : Robust K} (hr : UpToDate r) : UpToDate (r.shift d) := by
  refine moved_upToDate (A := Aff.opt d .shift) (k := 1) (e := 1) ?_ (movedBy_shift d r) ?_ ?_ (fun _ => ?_) ?_ hr
  · cases d with
    | none => exact .id
    | some v => exact .shift v
  all_goals (cases d <;> first | rfl | exact map_one_mul _)

theorem mirror_upToDate (x : Bool) {r : Robust K} (hr : UpToDate r) : UpToDate (r.mirror x) := by
  cases x with
  | false => exact hr
  | true =>
    refine moved_upToDate (k := 1) (e := -1) .reflect (movedBy_mirror true r) rfl ?_ (fun _ => ?_) ?_ hr
    · show r.offsets.map (· * -1) = _
      congr 1
      funext x
      ring
    · show r.widths.map (· * -1) = _
      congr 1
      funext x
      ring
    · show (r.widths.map (· * -1)).length = _
      rw [List.length_map]

theorem scaleLists_facts (s : K) (r : Robust K) : (r.scaleLists s).offsets = r.offsets.map (fun x => 1 * s * x) ∧
    ((r.widthTransform || !r.gdsiiPath) = true → (r.scaleLists s).widths = r.widths.map fun x => 1 * s * x) ∧
    (r.scaleLists s).widths.length = r.widths.length := by
  unfold Robust.scaleLists
  refine ⟨?_, ?_, ?_⟩
  · simp only
    congr 1
    funext x
    ring
  · intro h
    simp only [h, if_true]
    congr 1
    funext x
    ring
  · simp only
    split <;> simp only [List.length_map]

theorem magnify_upToDate (m : Option K) (hm : ∀ s, m = some s → 0 < s) {r : Robust K} (hr : UpToDate r) :
    UpToDate (r.magnify m) := by
  cases m with
  | none => exact hr
  | some s =>
    obtain ⟨f1, f2, f3⟩ := scaleLists_facts s { r with x := (r.x.1 * s, r.x.2 * s) }
    exact moved_upToDate (k := s) (e := 1) (.scale (hm s rfl)) (movedBy_magnify (some s) r) rfl f1 f2 f3 hr

theorem spin_upToDate {t : Num K} (hl : Num.Laws t) (a : Option K) {r : Robust K} (hr : UpToDate r) :
    UpToDate (r.spin t a) := by
  cases a with
  | none => exact hr
  | some a =>
    exact moved_upToDate (k := 1) (e := 1) (.rotate (hl.trig.pyth a)) (movedBy_spin t (some a) r) rfl (map_one_mul _)
      (fun _ => map_one_mul _) rfl hr

variable [FloorRing K]

theorem robust_run_upToDate {ctx : FlexCtx K} (hl : Num.Laws ctx.num) {r g : Robust K} {op : RobustOp K}
    (h : r.run ctx op = (g, none)) (ha : RobustAligned r) (hs : PositiveScale op) (hr : UpToDate r) : UpToDate g := by
  have hg := robust_run_aligned h ha
  cases op with
  | segment p w o rel => exact extended_upToDate (C72_segment h) hg
  | arc rad ia fa w o => exact extended_upToDate (C72_arc ctx.num h) hg
  | turn rad a w o =>
    obtain ⟨ia, fa, h⟩ := turn_some_arc (t := ctx.num) h
    exact extended_upToDate (C72_arc ctx.num h) hg
  | parametric c d w o rel => exact extended_upToDate (C72_parametric h) hg
  | bezier p w o rel => exact extended_upToDate (C72_bezier h) hg
  | smooth hb p c w o rel =>
    exact (smooth_keep (P := fun r => RobustAligned r ∧ UpToDate r) (fun r g p hr h =>
      ⟨robust_bezier_aligned h hr.1, extended_upToDate (C72_bezier h) (robust_bezier_aligned h hr.1)⟩) h ⟨ha, hr⟩).2
  | translate dx dy =>
    simp only [Robust.run, Prod.mk.injEq, and_true] at h
    subst h
    exact moved_upToDate (k := 1) (e := 1) (.shift _) (movedBy_translate dx dy r) rfl (map_one_mul _) (fun _ => map_one_mul _)
      rfl hr
  | rotate a c =>
    simp only [Robust.run, Prod.mk.injEq, and_true] at h
    subst h
    refine moved_upToDate (k := 1) (e := 1) ?_ (movedBy_rotate ctx.num a c r) rfl (map_one_mul _)
      (fun _ => map_one_mul _) rfl hr
    have := ((Similar.shift c).comp (Similar.rotate (hl.trig.pyth a))).comp (Similar.shift (-c.1, -c.2))
    simpa using this
  | scale s c =>
    simp only [Robust.run, Prod.mk.injEq, and_true] at h
    subst h
    obtain ⟨f1, f2, f3⟩ := scaleLists_facts s
      { r with cache := none, x := (r.x.1 * s + c.1 * (1 - s), r.x.2 * s + c.2 * (1 - s)) }
    refine moved_upToDate (k := s) (e := 1) ?_ (movedBy_scale s c r) rfl f1 f2 f3 hr
    have := ((Similar.shift c).comp (Similar.scale hs)).comp (Similar.shift (-c.1, -c.2))
    simpa using this
  | transform tr ro sc x a =>
    simp only [Robust.run, Prod.mk.injEq, and_true] at h
    subst h
    exact shift_upToDate tr (spin_upToDate hl ro (magnify_upToDate sc hs (mirror_upToDate x (shift_upToDate a
      (r := { r with cache := none }) hr))))
  | polygons =>
    have : (r.run ctx .polygons).1.bare = r.bare := C60_robust_query ctx (op := .polygons) rfl r
    rw [h] at this
    have e : g = { r with cache := g.cache } := by
      cases g; cases r
      simp only [Robust.bare, Robust.mk.injEq, and_true] at this ⊢
      exact this
    rw [e]
    exact hr
  | polygonset =>
    have : (r.run ctx .polygonset).1.bare = r.bare := C60_robust_query ctx (op := .polygonset) rfl r
    rw [h] at this
    have e : g = { r with cache := g.cache } := by
      cases g; cases r
      simp only [Robust.bare, Robust.mk.injEq, and_true] at this ⊢
      exact this
    rw [e]
    exact hr
  | area =>
    have : (r.run ctx .area).1.bare = r.bare := C60_robust_query ctx (op := .area) rfl r
    rw [h] at this
    have e : g = { r with cache := g.cache } := by
      cases g; cases r
      simp only [Robust.bare, Robust.mk.injEq, and_true] at this ⊢
      exact this
    rw [e]
    exact hr

/-- **C72.** After any sequence of calls that return, with positive factors of scaling, the current offset and width of each
path are those at the end of its last section as drawn. -/
theorem C72_up_to_date {ctx : FlexCtx K} (hl : Num.Laws ctx.num) (ops : List (RobustOp K)) {r g : Robust K}
    (ha : RobustAligned r) (hr : UpToDate r) (hs : ∀ op ∈ ops, PositiveScale op)
    (h : forOut (Robust.run ctx) r ops = (g, none)) : UpToDate g := by
  induction ops generalizing r with
  | nil =>
    simp only [forOut, Prod.mk.injEq, and_true] at h
    subst h
    exact hr
  | cons op ops ih =>
    rw [forOut] at h
    cases hop : r.run ctx op with
    | mk m e =>
      rw [hop] at h
      cases e with
      | some e => cases h
      | none =>
        exact ih (robust_run_aligned hop ha) (robust_run_upToDate hl hop ha (hs op List.mem_cons_self) hr)
          (fun op' h' => hs op' (List.mem_cons_of_mem _ h')) h

omit [FloorRing K] in
/-- The normal of a direction multiplied by a positive number. -/
theorem rightNormal_multiple {t : Num K} (ht : Num.Polar t) {k : K} (hk : 0 < k) (v : Pt K) :
    rightNormal t (psmul k v) = rightNormal t v := by
  have hn : normSq ((psmul k v).2 * 1, (psmul k v).1 * -1) = k ^ 2 * normSq (v.2 * 1, v.1 * -1) := by
    unfold normSq psmul
    simp only
    ring
  have hnn : 0 ≤ normSq ((v.2 * 1, v.1 * -1) : Pt K) := by
    unfold normSq
    positivity
  have hs : t.sqrt (k ^ 2 * normSq (v.2 * 1, v.1 * -1)) = k * t.sqrt (normSq (v.2 * 1, v.1 * -1)) := by
    have h1 := ht.sqrtSq _ (mul_nonneg (sq_nonneg k) hnn)
    have h2 := ht.sqrtSq _ hnn
    have h3 := ht.sqrtNonneg (k ^ 2 * normSq (v.2 * 1, v.1 * -1))
    have h4 := ht.sqrtNonneg (normSq ((v.2 * 1, v.1 * -1) : Pt K))
    have : t.sqrt (k ^ 2 * normSq (v.2 * 1, v.1 * -1)) ^ 2 = (k * t.sqrt (normSq (v.2 * 1, v.1 * -1))) ^ 2 := by
      rw [h1, mul_pow, h2]
    exact (pow_left_inj₀ h3 (mul_nonneg hk.le h4) two_ne_zero).1 this
  unfold rightNormal
  simp only
  rw [hn, hs]
  unfold psmul
  have hk' := hk.ne'
  refine Prod.ext ?_ ?_
  · show k * v.2 * 1 / _ = _
    rw [mul_assoc, mul_div_mul_left _ _ hk']
  · show k * v.1 * -1 / _ = _
    rw [mul_assoc, mul_div_mul_left _ _ hk']

omit [FloorRing K] in
/-- The normal of the image of a direction. -/
theorem rightNormal_image {t : Num K} (ht : Num.Polar t) {A : Aff K} {k e : K} (hA : Similar A k e) (v : Pt K) :
    psmul (e * k) (rightNormal t (A.lin v)) = A.lin (rightNormal t v) := by
  have hn : ∀ v : Pt K, normSq (v.2 * 1, v.1 * -1) = normSq v := by
    intro v
    unfold normSq
    simp only
    ring
  have hr := hA.root ht v
  unfold rightNormal
  simp only
  rw [hn, hn, hr]
  have hk := hA.ne
  unfold psmul Aff.lin
  simp only
  rw [hA.d, hA.b]
  have he := hA.sign_sq
  by_cases h0 : t.sqrt (normSq v) = 0
  · rw [h0]; simp
  · refine Prod.ext ?_ ?_ <;> simp only <;> field_simp
    · linear_combination (A.a * v.2) * he
    · linear_combination (A.c * v.2) * he

/-- **C72.** A section that begins with the current offset, in the direction (as drawn) in which the section before it
ends, begins where that one ends. It also begins with the width of that one, if it begins with the current width. -/
theorem C72_meets {t : Num K} (hnum : Num.Polar t) {r g : Robust K} (hg : RobustAligned g) (hb : Unbroken r) (hr : UpToDate r)
    {c : K → Pt K} {d : K → K → Pt K} {w o : RArg K} (h : Extended r g c d w o) (hc : c 0 = r.x) {i : Nat}
    {q : List (Sub K)} {s s' : Sub K} (hp : g.paths[i]? = some (q ++ [s, s'])) {A : Aff K} (hA : s.tr = A.mat)
    {m : K} (hm : 0 < m) (hd : ∀ e, d 0 e = psmul m (A.lin (s.dx 1 s.h)))
    (ho : ∀ now ol, r.offsets[i]? = some now → offsetLaw now i o = some ol → ol 0 = now) :
    s'.call t 0 0 = s.call t 1 0 ∧
    ((r.widthTransform || !r.gdsiiPath) = true →
      (∀ now wl, r.widths[i]? = some now → widthLaw now i w = some wl → wl 0 = now) →
      ∃ k e, Similar A k e ∧ s'.wid 0 = e * k * s.wid 1) := by
  have hin : i < r.n := by
    rw [← h.n, ← hg.paths]
    exact (List.getElem?_eq_some_iff.1 hp).1
  obtain ⟨p, now, noff, wl, ol, z, e1, e2, e3, e4, e5, e6, _, _, e9, e10, e11, e12, _, _, _, e16⟩ := h.rows i hin
  rw [hp, Option.some.injEq, show q ++ [s, s'] = (q ++ [s]) ++ [s'] by simp] at e6
  obtain ⟨rfl, e7⟩ := List.append_inj' e6 rfl
  obtain rfl : s' = z := List.head_eq_of_cons_eq e7
  have hlast : (q ++ [s]).getLast? = some s := List.getLast?_concat
  obtain ⟨B, k, e, b1, b2, b3, b4⟩ := hr i _ s now noff e1 hlast e2 e3
  have hBA : B = A := by
    rw [hA] at b1
    unfold Aff.mat at b1
    simp only [Mat.mk.injEq] at b1
    obtain ⟨c1, c2, c3, c4, c5, c6⟩ := b1
    cases A; cases B
    simp only at c1 c2 c3 c4 c5 c6
    subst c1 c2 c3 c4 c5 c6
    rfl
  subst hBA
  have htip := hb.tip _ (List.mem_of_getElem? e1) s hlast
  refine ⟨?_, fun ht hwl => ⟨k, e, b2, ?_⟩⟩
  · unfold Sub.call Sub.raw Sub.mid
    simp only [if_true]
    rw [e16, e9, e10, e12, hd, hc, ho _ _ e3 e5, rightNormal_multiple hnum hm, b3, hA, mat_app, app_padd, lin_psmul,
      ← rightNormal_image hnum b2, psmul_psmul]
    unfold lineOf at htip
    rw [hA, mat_app] at htip
    rw [htip]
    congr 2
    ring
  · rw [e11, ← b4 ht]
    by_cases hgp : r.gdsiiPath = true
    · rw [if_pos hgp, Option.some.injEq] at e4
      rw [← e4]
    · rw [if_neg hgp] at e4
      exact hwl _ _ e2 e4

end Gdspy
