import Verif.Lemmas.Hier

/-!
Lemmas about bounding boxes of lists of points.
-/

set_option linter.unusedSectionVars false

namespace Gdspy

open Spec

variable {K : Type}

section Order

variable [LinearOrder K]

theorem boxFold_spec (l : List (Pt K)) : ∀ (b : Pt K × Pt K) (pre : List (Pt K)), IsBBox pre b →
    IsBBox (pre ++ l)
      (l.foldl (fun b q => ((min b.1.1 q.1, min b.1.2 q.2), (max b.2.1 q.1, max b.2.2 q.2))) b) := by
  induction l with
  | nil => intro b pre h; simpa using h
  | cons q l ih =>
    intro b pre h
    rw [List.foldl_cons]
    have e : pre ++ q :: l = (pre ++ [q]) ++ l := by simp
    rw [e]
    refine ih _ _ ?_
    obtain ⟨h1, h2, h3, h4, h5⟩ := h
    refine ⟨?_, ?_, ?_, ?_, ?_⟩
    · intro p hp
      rcases List.mem_append.1 hp with hp | hp
      · obtain ⟨a1, a2, a3, a4⟩ := h1 p hp
        exact ⟨(min_le_left _ _).trans a1, (min_le_left _ _).trans a2, a3.trans (le_max_left _ _),
          a4.trans (le_max_left _ _)⟩
      · rw [List.mem_singleton] at hp
        subst hp
        exact ⟨min_le_right _ _, min_le_right _ _, le_max_right _ _, le_max_right _ _⟩
    · rcases min_choice b.1.1 q.1 with hm | hm <;> simp only [hm]
      · obtain ⟨p, hp, he⟩ := h2; exact ⟨p, List.mem_append_left _ hp, he⟩
      · exact ⟨q, by simp, rfl⟩
    · rcases min_choice b.1.2 q.2 with hm | hm <;> simp only [hm]
      · obtain ⟨p, hp, he⟩ := h3; exact ⟨p, List.mem_append_left _ hp, he⟩
      · exact ⟨q, by simp, rfl⟩
    · rcases max_choice b.2.1 q.1 with hm | hm <;> simp only [hm]
      · obtain ⟨p, hp, he⟩ := h4; exact ⟨p, List.mem_append_left _ hp, he⟩
      · exact ⟨q, by simp, rfl⟩
    · rcases max_choice b.2.2 q.2 with hm | hm <;> simp only [hm]
      · obtain ⟨p, hp, he⟩ := h5; exact ⟨p, List.mem_append_left _ hp, he⟩
      · exact ⟨q, by simp, rfl⟩

theorem boxOf_some {pts : List (Pt K)} {b : Pt K × Pt K} (h : boxOf pts = some b) : IsBBox pts b := by
  cases pts with
  | nil => simp [boxOf] at h
  | cons p l =>
    rw [boxOf, Option.some.injEq] at h
    rw [← h]
    refine boxFold_spec l (p, p) [p] ?_
    simp [IsBBox]

theorem boxOf_none {pts : List (Pt K)} : boxOf pts = none ↔ pts = [] := by
  cases pts <;> simp [boxOf]

theorem IsBBox_unique {pts : List (Pt K)} {b b' : Pt K × Pt K} (h : IsBBox pts b) (h' : IsBBox pts b') :
    b = b' := by
  obtain ⟨a1, ⟨p2, m2, e2⟩, ⟨p3, m3, e3⟩, ⟨p4, m4, e4⟩, ⟨p5, m5, e5⟩⟩ := h
  obtain ⟨b1, ⟨q2, n2, f2⟩, ⟨q3, n3, f3⟩, ⟨q4, n4, f4⟩, ⟨q5, n5, f5⟩⟩ := h'
  refine Prod.ext (Prod.ext ?_ ?_) (Prod.ext ?_ ?_)
  · exact le_antisymm (f2 ▸ (a1 q2 n2).1) (e2 ▸ (b1 p2 m2).1)
  · exact le_antisymm (f3 ▸ (a1 q3 n3).2.1) (e3 ▸ (b1 p3 m3).2.1)
  · exact le_antisymm (e4 ▸ (b1 p4 m4).2.2.1) (f4 ▸ (a1 q4 n4).2.2.1)
  · exact le_antisymm (e5 ▸ (b1 p5 m5).2.2.2) (f5 ▸ (a1 q5 n5).2.2.2)

/-- Every point of `X` lies between points of `Y`, in both coordinates. -/
def Dom (X Y : List (Pt K)) : Prop :=
  ∀ p ∈ X, (∃ q ∈ Y, q.1 ≤ p.1) ∧ (∃ q ∈ Y, p.1 ≤ q.1) ∧ (∃ q ∈ Y, q.2 ≤ p.2) ∧ (∃ q ∈ Y, p.2 ≤ q.2)

theorem Dom.refl (X : List (Pt K)) : Dom X X :=
  fun p hp => ⟨⟨p, hp, le_refl _⟩, ⟨p, hp, le_refl _⟩, ⟨p, hp, le_refl _⟩, ⟨p, hp, le_refl _⟩⟩

theorem Dom.mono {X Y Z : List (Pt K)} (h : Dom X Y) (hs : ∀ p ∈ Y, p ∈ Z) : Dom X Z := by
  intro p hp
  obtain ⟨⟨a, ha, ea⟩, ⟨b, hb, eb⟩, ⟨c, hc, ec⟩, ⟨d, hd, ed⟩⟩ := h p hp
  exact ⟨⟨a, hs a ha, ea⟩, ⟨b, hs b hb, eb⟩, ⟨c, hs c hc, ec⟩, ⟨d, hs d hd, ed⟩⟩

theorem Dom.trans {X Y Z : List (Pt K)} (h : Dom X Y) (h' : Dom Y Z) : Dom X Z := by
  intro p hp
  obtain ⟨⟨a, ha, ea⟩, ⟨b, hb, eb⟩, ⟨c, hc, ec⟩, ⟨d, hd, ed⟩⟩ := h p hp
  obtain ⟨⟨a', ha', ea'⟩, -, -, -⟩ := h' a ha
  obtain ⟨-, ⟨b', hb', eb'⟩, -, -⟩ := h' b hb
  obtain ⟨-, -, ⟨c', hc', ec'⟩, -⟩ := h' c hc
  obtain ⟨-, -, -, ⟨d', hd', ed'⟩⟩ := h' d hd
  exact ⟨⟨a', ha', ea'.trans ea⟩, ⟨b', hb', eb.trans eb'⟩, ⟨c', hc', ec'.trans ec⟩,
    ⟨d', hd', ed.trans ed'⟩⟩

theorem Dom.append {X Y X' Y' : List (Pt K)} (h : Dom X Y) (h' : Dom X' Y') : Dom (X ++ X') (Y ++ Y') := by
  intro p hp
  rcases List.mem_append.1 hp with hp | hp
  · exact (h.mono fun q hq => List.mem_append_left _ hq) p hp
  · exact (h'.mono fun q hq => List.mem_append_right _ hq) p hp

theorem Dom.flatMap {α : Type} (l : List α) {f g : α → List (Pt K)} (h : ∀ a ∈ l, Dom (f a) (g a)) :
    Dom (l.flatMap f) (l.flatMap g) := by
  intro p hp
  obtain ⟨a, ha, hp⟩ := List.mem_flatMap.1 hp
  exact ((h a ha).mono fun q hq => List.mem_flatMap.2 ⟨a, ha, hq⟩) p hp

/-- Two lists of points with the same extent. -/
def SameExtent (X Y : List (Pt K)) : Prop := Dom X Y ∧ Dom Y X

theorem SameExtent.refl (X : List (Pt K)) : SameExtent X X := ⟨Dom.refl X, Dom.refl X⟩

theorem SameExtent.trans {X Y Z : List (Pt K)} (h : SameExtent X Y) (h' : SameExtent Y Z) :
    SameExtent X Z := ⟨h.1.trans h'.1, h'.2.trans h.2⟩

theorem SameExtent.append {X Y X' Y' : List (Pt K)} (h : SameExtent X Y) (h' : SameExtent X' Y') :
    SameExtent (X ++ X') (Y ++ Y') := ⟨h.1.append h'.1, h.2.append h'.2⟩

theorem SameExtent.flatMap {α : Type} (l : List α) {f g : α → List (Pt K)}
    (h : ∀ a ∈ l, SameExtent (f a) (g a)) : SameExtent (l.flatMap f) (l.flatMap g) :=
  ⟨Dom.flatMap l fun a ha => (h a ha).1, Dom.flatMap l fun a ha => (h a ha).2⟩

theorem SameExtent.nil_iff {X Y : List (Pt K)} (h : SameExtent X Y) : X = [] ↔ Y = [] := by
  constructor
  · rintro rfl
    cases Y with
    | nil => rfl
    | cons p Y =>
      obtain ⟨⟨q, hq, -⟩, -⟩ := h.2 p List.mem_cons_self
      simp at hq
  · rintro rfl
    cases X with
    | nil => rfl
    | cons p X =>
      obtain ⟨⟨q, hq, -⟩, -⟩ := h.1 p List.mem_cons_self
      simp at hq

theorem SameExtent.isBBox {X Y : List (Pt K)} (h : SameExtent X Y) {b : Pt K × Pt K} (hb : IsBBox X b) :
    IsBBox Y b := by
  obtain ⟨h1, ⟨p2, m2, e2⟩, ⟨p3, m3, e3⟩, ⟨p4, m4, e4⟩, ⟨p5, m5, e5⟩⟩ := hb
  have hin : ∀ p ∈ Y, b.1.1 ≤ p.1 ∧ b.1.2 ≤ p.2 ∧ p.1 ≤ b.2.1 ∧ p.2 ≤ b.2.2 := by
    intro p hp
    obtain ⟨⟨a, ha, ea⟩, ⟨b', hb', eb⟩, ⟨c, hc, ec⟩, ⟨d, hd, ed⟩⟩ := h.2 p hp
    exact ⟨(h1 a ha).1.trans ea, (h1 c hc).2.1.trans ec, eb.trans (h1 b' hb').2.2.1,
      ed.trans (h1 d hd).2.2.2⟩
  refine ⟨hin, ?_, ?_, ?_, ?_⟩
  · obtain ⟨⟨a, ha, ea⟩, -, -, -⟩ := h.1 p2 m2
    exact ⟨a, ha, le_antisymm (e2 ▸ ea) (hin a ha).1⟩
  · obtain ⟨-, -, ⟨a, ha, ea⟩, -⟩ := h.1 p3 m3
    exact ⟨a, ha, le_antisymm (e3 ▸ ea) (hin a ha).2.1⟩
  · obtain ⟨-, ⟨a, ha, ea⟩, -, -⟩ := h.1 p4 m4
    exact ⟨a, ha, le_antisymm (hin a ha).2.2.1 (e4 ▸ ea)⟩
  · obtain ⟨-, -, -, ⟨a, ha, ea⟩⟩ := h.1 p5 m5
    exact ⟨a, ha, le_antisymm (hin a ha).2.2.2 (e5 ▸ ea)⟩

theorem IsBBox_extent {X : List (Pt K)} {b : Pt K × Pt K} (h : IsBBox X b) : SameExtent (boxPts b) X := by
  obtain ⟨h1, ⟨p2, m2, e2⟩, ⟨p3, m3, e3⟩, ⟨p4, m4, e4⟩, ⟨p5, m5, e5⟩⟩ := h
  constructor
  · intro p hp
    have : p = b.1 ∨ p = b.2 := by simpa [boxPts] using hp
    rcases this with rfl | rfl
    · exact ⟨⟨p2, m2, e2.le⟩, ⟨p2, m2, e2.ge⟩, ⟨p3, m3, e3.le⟩, ⟨p3, m3, e3.ge⟩⟩
    · exact ⟨⟨p4, m4, e4.le⟩, ⟨p4, m4, e4.ge⟩, ⟨p5, m5, e5.le⟩, ⟨p5, m5, e5.ge⟩⟩
  · intro p hp
    obtain ⟨a1, a2, a3, a4⟩ := h1 p hp
    exact ⟨⟨b.1, by simp [boxPts], a1⟩, ⟨b.2, by simp [boxPts], a3⟩, ⟨b.1, by simp [boxPts], a2⟩,
      ⟨b.2, by simp [boxPts], a4⟩⟩

theorem boxOf_extent (X : List (Pt K)) : SameExtent (((boxOf X).map boxPts).getD []) X := by
  cases h : boxOf X with
  | none =>
    rw [boxOf_none] at h
    subst h
    exact SameExtent.refl _
  | some b => exact IsBBox_extent (boxOf_some h)

end Order

section Field

variable [Field K] [LinearOrder K] [IsStrictOrderedRing K]

/-- An affine map that maps axes to axes: each coordinate of the image depends on one coordinate. -/
def Monomial (A : Aff K) : Prop := (A.b = 0 ∧ A.c = 0) ∨ (A.a = 0 ∧ A.d = 0)

omit [LinearOrder K] [IsStrictOrderedRing K] in
theorem Monomial.comp {A B : Aff K} (hA : Monomial A) (hB : Monomial B) : Monomial (A.comp B) := by
  rcases hA with ⟨a1, a2⟩ | ⟨a1, a2⟩ <;> rcases hB with ⟨b1, b2⟩ | ⟨b1, b2⟩
  · left; simp [Aff.comp, a1, a2, b1, b2]
  · right; simp [Aff.comp, a1, a2, b1, b2]
  · right; simp [Aff.comp, a1, a2, b1, b2]
  · left; simp [Aff.comp, a1, a2, b1, b2]

theorem affine_between {ι : Type} {Y : List ι} {f : ι → K} {p : ι} (m e : K)
    (h1 : ∃ q ∈ Y, f q ≤ f p) (h2 : ∃ q ∈ Y, f p ≤ f q) :
    (∃ q ∈ Y, m * f q + e ≤ m * f p + e) ∧ ∃ q ∈ Y, m * f p + e ≤ m * f q + e := by
  obtain ⟨q1, m1, e1⟩ := h1
  obtain ⟨q2, m2, e2⟩ := h2
  rcases le_total 0 m with hm | hm
  · exact ⟨⟨q1, m1, by nlinarith⟩, ⟨q2, m2, by nlinarith⟩⟩
  · exact ⟨⟨q2, m2, by nlinarith⟩, ⟨q1, m1, by nlinarith⟩⟩

theorem Dom.map {X Y : List (Pt K)} (h : Dom X Y) {A : Aff K} (hA : Monomial A) :
    Dom (X.map A.app) (Y.map A.app) := by
  intro p hp
  obtain ⟨p, hp', rfl⟩ := List.mem_map.1 hp
  obtain ⟨h1, h2, h3, h4⟩ := h p hp'
  have conv : ∀ {φ : Pt K → Prop}, (∃ q ∈ Y, φ (A.app q)) → ∃ q ∈ Y.map A.app, φ q := by
    rintro φ ⟨q, hq, hh⟩
    exact ⟨A.app q, List.mem_map.2 ⟨q, hq, rfl⟩, hh⟩
  rcases hA with ⟨hb, hc⟩ | ⟨ha, hd⟩
  · obtain ⟨x1, x2⟩ := affine_between (f := fun q : Pt K => q.1) A.a A.e h1 h2
    obtain ⟨y1, y2⟩ := affine_between (f := fun q : Pt K => q.2) A.d A.f h3 h4
    refine ⟨conv (φ := fun q => q.1 ≤ _) ?_, conv (φ := fun q => _ ≤ q.1) ?_,
      conv (φ := fun q => q.2 ≤ _) ?_, conv (φ := fun q => _ ≤ q.2) ?_⟩ <;>
      simp only [Aff.app, hb, hc, zero_mul, add_zero, zero_add] <;> assumption
  · obtain ⟨x1, x2⟩ := affine_between (f := fun q : Pt K => q.2) A.b A.e h3 h4
    obtain ⟨y1, y2⟩ := affine_between (f := fun q : Pt K => q.1) A.c A.f h1 h2
    refine ⟨conv (φ := fun q => q.1 ≤ _) ?_, conv (φ := fun q => _ ≤ q.1) ?_,
      conv (φ := fun q => q.2 ≤ _) ?_, conv (φ := fun q => _ ≤ q.2) ?_⟩ <;>
      simp only [Aff.app, ha, hd, zero_mul, add_zero, zero_add] <;> assumption

theorem SameExtent.map {X Y : List (Pt K)} (h : SameExtent X Y) {A : Aff K} (hA : Monomial A) :
    SameExtent (X.map A.app) (Y.map A.app) := ⟨h.1.map hA, h.2.map hA⟩

end Field

section Placements

variable [Field K]

theorem mono_opt {α : Type} (o : Option α) {f : α → Aff K} (h : ∀ a ∈ o, Monomial (f a)) :
    Monomial (Aff.opt o f) := by
  cases o with
  | none => left; simp [Aff.opt, Aff.id]
  | some a => exact h a rfl

theorem mono_shift (v : Pt K) : Monomial (Aff.shift v) := by left; simp [Aff.shift]
theorem mono_scale (m : K) : Monomial (Aff.scale m) := by left; simp [Aff.scale]

theorem mono_mirror (r : RefData K) : Monomial (Aff.mirror r) := by
  unfold Aff.mirror
  split <;> left <;> simp [Aff.reflect, Aff.id]

/-- The placements of a reference at a cardinal rotation map axes to axes. -/
theorem placements_mono {t : Trig K} (ht : ∀ a, t.cardinal a = true → t.cos a = 0 ∨ t.sin a = 0)
    {r : RefData K} (hr : r.rotation.all t.cardinal = true) : ∀ A ∈ placements t r, Monomial A := by
  have hp : Monomial (Aff.place t r) := by
    refine (mono_opt _ fun v _ => mono_shift v).comp (mono_opt _ ?_)
    intro a ha
    rw [Option.mem_def] at ha
    rw [ha, Option.all_some] at hr
    rcases ht a hr with h | h
    · right; simp [Aff.rotate, h]
    · left; simp [Aff.rotate, h]
  intro A hA
  unfold placements at hA
  cases ha : r.array with
  | none =>
    rw [ha] at hA
    simp only [List.mem_singleton] at hA
    subst hA
    exact (hp.comp (mono_mirror r)).comp (mono_opt _ fun m _ => mono_scale m)
  | some q =>
    obtain ⟨cols, rows, s⟩ := q
    rw [ha] at hA
    simp only [List.mem_flatMap, List.mem_map] at hA
    obtain ⟨i, -, j, -, rfl⟩ := hA
    exact (hp.comp (mono_mirror r)).comp ((mono_shift _).comp (mono_opt _ fun m _ => mono_scale m))

end Placements

end Gdspy
