import Verif.Spec.Placed
import Verif.Model.HierFl
import Verif.Props.C86

/-!
# C87: rounding errors do not move flattened polygons off the grid
-/

namespace Gdspy
open Spec

section
variable {P : Type} {fl : ℚ → ℚ} {g : ℚ} {t : Trig ℚ}

/-! ### Errors -/

/-- `x` is `n` units up to `e` units. -/
def Ap (g e x : ℚ) (n : ℤ) : Prop := |x - n * g| ≤ |g| * e

theorem Ap.mono {e e' x : ℚ} {n : ℤ} (h : Ap g e x n) (he : e ≤ e') : Ap g e' x n :=
  h.trans (mul_le_mul_of_nonneg_left he (abs_nonneg _))

theorem Ap.add {e e' x y : ℚ} {n m : ℤ} (h : Ap g e x n) (h' : Ap g e' y m) : Ap g (e + e') (x + y) (n + m) := by
  unfold Ap at *
  have e1 : x + y - ((n + m : ℤ) : ℚ) * g = (x - n * g) + (y - m * g) := by push_cast; ring
  rw [e1, mul_add]
  exact (abs_add_le _ _).trans (add_le_add h h')

theorem Ap.abs_le {e x : ℚ} {n : ℤ} (h : Ap g e x n) : |x| ≤ |g| * (|(n : ℚ)| + e) := by
  have : |x| ≤ |x - n * g| + |n * g| := by
    have := abs_add_le (x - n * g) (n * g)
    rwa [sub_add_cancel] at this
  rw [abs_mul] at this
  unfold Ap at h
  linarith

theorem Ap.round (hfl : Nearest fl) {e x : ℚ} {n : ℤ} (h : Ap g e x n) (hn : |n| ≤ 2 ^ 35) (he : e ≤ 1) :
    Ap g (e + 1 / 2 ^ 17) (fl x) n := by
  have h1 := nearest_error hfl x
  have h2 := h.abs_le
  have hn' : |(n : ℚ)| ≤ 2 ^ 35 := by exact_mod_cast hn
  have h3 : |g| * (|(n : ℚ)| + e) ≤ |g| * (2 ^ 35 + 1) :=
    mul_le_mul_of_nonneg_left (by linarith) (abs_nonneg _)
  have h4 : |fl x - x| ≤ |g| * (1 / 2 ^ 17) := by
    refine h1.trans ?_
    have : |x| ≤ |g| * (2 ^ 35 + 1) := h2.trans h3
    have : |x| / 2 ^ 53 ≤ |g| * (2 ^ 35 + 1) / 2 ^ 53 := by gcongr
    refine this.trans ?_
    rw [mul_div_assoc]
    exact mul_le_mul_of_nonneg_left (by norm_num) (abs_nonneg _)
  unfold Ap at *
  have := abs_sub_le (fl x) x (n * g)
  linarith

theorem Ap.mul {e x c : ℚ} {n c0 : ℤ} (h : Ap g e x n) (hn : |n| ≤ 2 ^ 33) (he : e ≤ 1)
    (hc : |c - c0| ≤ 1 / 2 ^ 49) : Ap g (e * |(c0 : ℚ)| + 1 / 2 ^ 15) (x * c) (n * c0) := by
  have hn' : |(n : ℚ)| ≤ 2 ^ 33 := by exact_mod_cast hn
  unfold Ap at *
  have e1 : x * c - ((n * c0 : ℤ) : ℚ) * g = (x - n * g) * c0 + (x - n * g) * (c - c0) + n * g * (c - c0) := by
    push_cast
    ring
  rw [e1]
  have h1 : |(x - n * g) * c0| ≤ |g| * (e * |(c0 : ℚ)|) := by
    rw [abs_mul, ← mul_assoc]
    exact mul_le_mul_of_nonneg_right h (abs_nonneg _)
  have hg := abs_nonneg g
  have h0 : |x - n * g| ≤ |g| * 1 := h.trans (mul_le_mul_of_nonneg_left he hg)
  have h2 : |(x - n * g) * (c - c0)| ≤ |g| * 1 * (1 / 2 ^ 49) := by
    rw [abs_mul]
    exact mul_le_mul h0 hc (abs_nonneg _) (by positivity)
  have h3 : |n * g * (c - c0)| ≤ 2 ^ 33 * |g| * (1 / 2 ^ 49) := by
    rw [abs_mul, abs_mul]
    exact mul_le_mul (mul_le_mul_of_nonneg_right hn' hg) hc (abs_nonneg _) (by positivity)
  have h4 := abs_add_le ((x - n * g) * c0 + (x - n * g) * (c - c0)) (n * g * (c - c0))
  have h5 := abs_add_le ((x - n * g) * c0) ((x - n * g) * (c - c0))
  have h6 : |g| * 1 * (1 / 2 ^ 49) + 2 ^ 33 * |g| * (1 / 2 ^ 49) ≤ |g| * (1 / 2 ^ 15) := by
    have : |g| * 1 * (1 / 2 ^ 49) + 2 ^ 33 * |g| * (1 / 2 ^ 49) = |g| * ((1 + 2 ^ 33) / 2 ^ 49) := by ring
    rw [this]
    exact mul_le_mul_of_nonneg_left (by norm_num) hg
  rw [mul_add]
  exact h4.trans ((add_le_add (h5.trans (add_le_add h1 h2)) h3).trans (by rw [add_assoc]; gcongr))

theorem gridNear_ap {x : ℚ} {n : ℤ} (h : GridNear g x n) (hn : |n| ≤ 2 ^ 31) : Ap g (1 / 2 ^ 19) x n := by
  have hn' : |(n : ℚ)| ≤ 2 ^ 31 := by exact_mod_cast hn
  refine h.trans ?_
  rw [abs_mul, mul_comm, mul_div_assoc]
  refine mul_le_mul_of_nonneg_left ?_ (abs_nonneg _)
  rw [div_le_iff₀ (by positivity)]
  refine hn'.trans ?_
  norm_num

/-! ### Steps -/

def Ap2 (g e : ℚ) (p : ℚ × ℚ) (n : ℤ × ℤ) : Prop := Ap g e p.1 n.1 ∧ Ap g e p.2 n.2

theorem Ap2.mono {e e' : ℚ} {p : ℚ × ℚ} {n : ℤ × ℤ} (h : Ap2 g e p n) (he : e ≤ e') : Ap2 g e' p n :=
  ⟨h.1.mono he, h.2.mono he⟩

def WithinBox (B : ℤ) (p : ℤ × ℤ) : Prop := |p.1| ≤ B ∧ |p.2| ≤ B

theorem WithinBox.mono {B B' : ℤ} {p : ℤ × ℤ} (h : WithinBox B p) (hB : B ≤ B') : WithinBox B' p :=
  ⟨h.1.trans hB, h.2.trans hB⟩

theorem addPtFl_ap (hfl : Nearest fl) {e e' : ℚ} {p q : ℚ × ℚ} {n m : ℤ × ℤ} (h : Ap2 g e p n) (h' : Ap2 g e' q m)
    (he : e + e' ≤ 1) (hn : WithinBox (2 ^ 35) (n.1 + m.1, n.2 + m.2)) :
    Ap2 g (e + e' + 1 / 2 ^ 17) (addPtFl fl p q) (n.1 + m.1, n.2 + m.2) :=
  ⟨(h.1.add h'.1).round hfl hn.1 he, (h.2.add h'.2).round hfl hn.2 he⟩

theorem xreflPtFl_ap (hfl : Nearest fl) {e : ℚ} {p : ℚ × ℚ} {n : ℤ × ℤ} (h : Ap2 g e p n)
    (he : e ≤ 1) (hn : WithinBox (2 ^ 35) n) : Ap2 g (e + 1 / 2 ^ 17) (xreflPtFl fl p) (n.1, -n.2) := by
  refine ⟨Ap.round hfl ?_ hn.1 he, Ap.round hfl ?_ (by simpa using hn.2) he⟩
  · rw [mul_one]
    exact h.1
  · have := h.2
    unfold Ap at *
    have e1 : p.2 * -1 - ((-n.2 : ℤ) : ℚ) * g = -(p.2 - n.2 * g) := by push_cast; ring
    rw [e1, abs_neg]
    exact this

/-- Cosine and sine of quarter turns. -/
theorem turn_eq (q : ℕ) (p : ℤ × ℤ) :
    quarterTurn q p = (p.1 * (quarterTurn q (1, 0)).1 + p.2 * -(quarterTurn q (1, 0)).2,
      p.2 * (quarterTurn q (1, 0)).1 + p.1 * (quarterTurn q (1, 0)).2) := by
  induction q with
  | zero => simp [quarterTurn]
  | succ q ih =>
    rw [quarterTurn, ih]
    simp only [quarterTurn]
    refine Prod.ext ?_ ?_ <;> simp only <;> ring

theorem turn_unit (q : ℕ) : |(quarterTurn q (1, 0)).1| + |(quarterTurn q (1, 0)).2| = 1 := by
  induction q with
  | zero => simp [quarterTurn]
  | succ q ih => rw [quarterTurn, abs_neg, add_comm]; exact ih

theorem turn_below {B : ℤ} (q : ℕ) {p : ℤ × ℤ} : WithinBox B (quarterTurn q p) ↔ WithinBox B p := by
  induction q with
  | zero => rfl
  | succ q ih =>
    rw [← ih, quarterTurn]
    unfold WithinBox
    rw [abs_neg, and_comm]

theorem rotPtFl_ap (hfl : Nearest fl) {e a : ℚ} {q : ℕ} (hq : Quarter t a q) {p : ℚ × ℚ} {n : ℤ × ℤ}
    (h : Ap2 g e p n) (he : e ≤ 1 / 2) (hn : WithinBox (2 ^ 33) n) :
    Ap2 g (e + 11 / 2 ^ 17) (rotPtFl fl (t.cos a) (t.sin a) p) (quarterTurn q n) := by
  obtain ⟨hc, hs⟩ := hq
  have hu := turn_unit q
  have hb : WithinBox (2 ^ 33) (quarterTurn q n) := (turn_below q).2 hn
  rw [turn_eq] at hb ⊢
  set C := (quarterTurn q (1, 0)).1
  set S := (quarterTurn q (1, 0)).2
  have hC : |C| ≤ 1 := by have := abs_nonneg S; linarith
  have hS : |S| ≤ 1 := by have := abs_nonneg C; linarith
  have hCq : |(C : ℚ)| ≤ 1 := by exact_mod_cast hC
  have hSq : |(S : ℚ)| ≤ 1 := by exact_mod_cast hS
  have huq : |(C : ℚ)| + |(S : ℚ)| = 1 := by exact_mod_cast hu
  have hc' : |t.cos a - C| ≤ 1 / 2 ^ 49 := hc.trans (by norm_num)
  have hsn : ∀ z : ℤ, |z| ≤ 1 → ∀ s : ℚ, |s - z| ≤ 1 / 2 ^ 50 → |fl s - z| ≤ 1 / 2 ^ 49 := by
    intro z hz s hs
    have hz' : |(z : ℚ)| ≤ 1 := by exact_mod_cast hz
    have h1 := nearest_error hfl s
    have h2 := abs_sub_le (fl s) s z
    have h3 : |s| ≤ 2 := by
      have := abs_add_le (s - z) z
      rw [sub_add_cancel] at this
      norm_num at hs
      linarith
    norm_num at *
    linarith
  have hs1 : |fl (t.sin a * (-1)) - ((-S : ℤ) : ℚ)| ≤ 1 / 2 ^ 49 := by
    apply hsn _ (by rwa [abs_neg])
    push_cast
    have e1 : t.sin a * -1 - -(S : ℚ) = -(t.sin a - S) := by ring
    rw [e1, abs_neg]
    exact hs
  have hs2 : |fl (t.sin a * 1) - (S : ℚ)| ≤ 1 / 2 ^ 49 := by
    apply hsn _ hS
    rw [mul_one]
    exact hs
  have big : ∀ z : ℤ, |z| ≤ 2 ^ 33 → |z| ≤ 2 ^ 35 := fun z hz => hz.trans (by norm_num)
  have prod : ∀ x z : ℤ, |x| ≤ 2 ^ 33 → |z| ≤ 1 → |x * z| ≤ 2 ^ 35 := by
    intro x z hx hz
    rw [abs_mul]
    have := mul_le_mul hx hz (abs_nonneg _) (by norm_num)
    linarith
  have small : ∀ z : ℚ, |z| ≤ 1 → e * |z| ≤ 1 / 2 := by
    intro z hz
    have := mul_le_mul he hz (abs_nonneg _) (by norm_num)
    linarith
  have hneg : |(((-S : ℤ)) : ℚ)| = |(S : ℚ)| := by push_cast; exact abs_neg _
  have sum : e * |(C : ℚ)| + e * |(S : ℚ)| = e := by rw [← mul_add, huq, mul_one]
  constructor
  · have a1 := (h.1.mul hn.1 (by linarith) hc').round hfl (prod _ _ hn.1 hC)
      (by have := small C hCq; norm_num; linarith)
    have a2 := (h.2.mul hn.2 (by linarith) hs1).round hfl (prod _ _ hn.2 (by rwa [abs_neg]))
      (by rw [hneg]; have := small S hSq; norm_num; linarith)
    rw [hneg] at a2
    refine ((a1.add a2).round hfl (big _ hb.1) (by norm_num; linarith)).mono ?_
    norm_num
    linarith
  · have a1 := (h.2.mul hn.2 (by linarith) hc').round hfl (prod _ _ hn.2 hC)
      (by have := small C hCq; norm_num; linarith)
    have a2 := (h.1.mul hn.1 (by linarith) hs2).round hfl (prod _ _ hn.1 hS)
      (by have := small S hSq; norm_num; linarith)
    refine ((a1.add a2).round hfl (big _ hb.2) (by norm_num; linarith)).mono ?_
    norm_num
    linarith

/-- The steps after the place in the array. -/
def tailFl (fl : ℚ → ℚ) (t : Trig ℚ) (r : RefData ℚ) (p : Pt ℚ) : Pt ℚ :=
  let p := if r.xrefl = some true then xreflPtFl fl p else p
  let p := onSome r.rotation (fun a => rotPtFl fl (t.cos a) (t.sin a)) p
  onSome r.origin (fun o q => addPtFl fl q o) p

theorem tailFl_ap (hfl : Nearest fl) {i : GridRef} {r : RefData ℚ} (hi : i.Is g t r)
    (ho : ∀ o, i.origin = some o → Bounded o) {e : ℚ} {p : ℚ × ℚ} {s n : ℤ × ℤ}
    (h : Ap2 g e p (n.1 + s.1, n.2 + s.2)) (he : e ≤ 1 / 3) (hn : WithinBox (2 ^ 33) (n.1 + s.1, n.2 + s.2)) :
    Ap2 g (e + 14 / 2 ^ 17) (tailFl fl t r p) (i.place s n) := by
  unfold tailFl GridRef.place
  set m : ℤ × ℤ := (n.1 + s.1, n.2 + s.2)
  have big : ∀ {m : ℤ × ℤ}, WithinBox (2 ^ 33) m → WithinBox (2 ^ 35) m := fun h => h.mono (by norm_num)
  have s1 : Ap2 g (e + 1 / 2 ^ 17) (if r.xrefl = some true then xreflPtFl fl p else p)
      (if i.xrefl then (m.1, -m.2) else m) ∧ WithinBox (2 ^ 33) (if i.xrefl then (m.1, -m.2) else m) := by
    by_cases hx : i.xrefl = true
    · rw [if_pos (hi.xrefl.2 hx), if_pos hx]
      exact ⟨xreflPtFl_ap hfl h (by linarith) (big hn), hn.1, by simpa using hn.2⟩
    · rw [if_neg (fun h => hx (hi.xrefl.1 h)), if_neg hx]
      exact ⟨h.mono (by norm_num), hn⟩
  obtain ⟨s1, b1⟩ := s1
  set p1 := if r.xrefl = some true then xreflPtFl fl p else p
  set m1 := if i.xrefl then (m.1, -m.2) else m
  have s2 : Ap2 g (e + 12 / 2 ^ 17) (onSome r.rotation (fun a => rotPtFl fl (t.cos a) (t.sin a)) p1)
      (quarterTurn (i.quarters.getD 0) m1) := by
    have hr := hi.rotation
    cases h1 : r.rotation with
    | none =>
      cases h2 : i.quarters with
      | none => exact s1.mono (by norm_num)
      | some q => rw [h1, h2] at hr; exact hr.elim
    | some a =>
      cases h2 : i.quarters with
      | none => rw [h1, h2] at hr; exact hr.elim
      | some q =>
        rw [h1, h2] at hr
        refine (rotPtFl_ap hfl hr s1 (by norm_num; linarith) b1).mono ?_
        norm_num
        linarith
  have b2 : WithinBox (2 ^ 33) (quarterTurn (i.quarters.getD 0) m1) := (turn_below _).2 b1
  set p2 := onSome r.rotation (fun a => rotPtFl fl (t.cos a) (t.sin a)) p1
  set m2 := quarterTurn (i.quarters.getD 0) m1
  have hr := hi.origin
  cases h1 : r.origin with
  | none =>
    cases h2 : i.origin with
    | none =>
      simp only [onSome, Option.getD_none, add_zero]
      exact s2.mono (by norm_num)
    | some q => rw [h1, h2] at hr; exact hr.elim
  | some o =>
    cases h2 : i.origin with
    | none => rw [h1, h2] at hr; exact hr.elim
    | some q =>
      rw [h1, h2] at hr
      have hq := ho q h2
      refine (addPtFl_ap hfl s2 (show Ap2 g (1 / 2 ^ 19) o q from ⟨gridNear_ap hr.1 hq.1, gridNear_ap hr.2 hq.2⟩) (by norm_num; linarith) ?_).mono ?_
      · exact ⟨(abs_add_le _ _).trans (by have := b2.1; have := hq.1; linarith),
          (abs_add_le _ _).trans (by have := b2.2; have := hq.2; linarith)⟩
      · norm_num
        linarith

/-- The place in the array is not far away, because both the cell and the array fit. -/
theorem place_below {i : GridRef} (ho : ∀ o, i.origin = some o → Bounded o) {s n : ℤ × ℤ}
    (h : Bounded (i.place s n)) : WithinBox (2 ^ 32) (n.1 + s.1, n.2 + s.2) := by
  have h1 : Bounded (i.origin.getD (0, 0)) := by
    cases h2 : i.origin with
    | none => exact ⟨by norm_num, by norm_num⟩
    | some o => exact ho o h2
  unfold GridRef.place at h
  set m : ℤ × ℤ := (n.1 + s.1, n.2 + s.2)
  set m1 := if i.xrefl then (m.1, -m.2) else m with hm1
  set o := i.origin.getD (0, 0)
  have h2 : WithinBox (2 ^ 32) m1 := by
    rw [← turn_below (i.quarters.getD 0)]
    obtain ⟨a1, a2⟩ := h
    obtain ⟨c1, c2⟩ := h1
    simp only [abs_le] at *
    constructor <;> rw [abs_le] <;> constructor <;> linarith
  by_cases hx : i.xrefl = true
  · rw [hm1, if_pos hx] at h2
    exact ⟨h2.1, by simpa using h2.2⟩
  · rw [hm1, if_neg hx] at h2
    exact h2

theorem refPtFl_ap (hfl : Nearest fl) {i : GridRef} {r : RefData ℚ} (hi : i.Is g t r)
    (ho : ∀ o, i.origin = some o → Bounded o) {e : ℚ} {p : ℚ × ℚ} {n : ℤ × ℤ}
    (h : Ap2 g e p n) (he : e ≤ 1 / 4) (hp : Bounded (i.place (0, 0) n)) :
    Ap2 g (e + 1 / 2 ^ 12) (refPtFl fl t r p) (i.place (0, 0) n) := by
  have e1 : refPtFl fl t r p = tailFl fl t r p := by
    unfold refPtFl tailFl
    rw [hi.magnification]
    rfl
  rw [e1]
  refine (tailFl_ap hfl hi ho (by simpa using h) (by linarith) ((place_below ho hp).mono (by norm_num))).mono ?_
  norm_num

theorem near_mul {x : ℚ} {n : ℤ} (h : GridNear g x n) (k : ℕ) (hn : |n * k| ≤ 2 ^ 33) : Ap g (1 / 2 ^ 17) (x * k) (n * k) := by
  have hn' : |(n : ℚ) * k| ≤ 2 ^ 33 := by exact_mod_cast hn
  unfold Ap
  unfold GridNear at h
  have e1 : x * k - ((n * (k : ℤ) : ℤ) : ℚ) * g = (x - n * g) * k := by push_cast; ring
  rw [e1, abs_mul]
  have hk : (0 : ℚ) ≤ |(k : ℚ)| := abs_nonneg _
  refine (mul_le_mul_of_nonneg_right h hk).trans ?_
  have e2 : |n * g| / 2 ^ 50 * |(k : ℚ)| = |g| * (|(n : ℚ) * k| / 2 ^ 50) := by rw [abs_mul, abs_mul]; ring
  rw [e2]
  refine mul_le_mul_of_nonneg_left ?_ (abs_nonneg _)
  rw [div_le_iff₀ (by positivity)]
  refine hn'.trans ?_
  norm_num

theorem arrPtFl_ap (hfl : Nearest fl) {i : GridRef} {r : RefData ℚ} (hi : i.Is g t r)
    (ho : ∀ o, i.origin = some o → Bounded o) {e : ℚ} {p : ℚ × ℚ} {n : ℤ × ℤ} {sp : ℚ × ℚ} {sn : ℤ × ℤ}
    (hs : GridNear2 g sp sn) (ii jj : ℕ)
    (h : Ap2 g e p n) (he : e ≤ 1 / 4) (hn : Bounded n)
    (hp : Bounded (i.place (sn.1 * ii, sn.2 * jj) n)) :
    Ap2 g (e + 1 / 2 ^ 12) (arrPtFl fl t r (fl (sp.1 * ii), fl (sp.2 * jj)) p) (i.place (sn.1 * ii, sn.2 * jj) n) := by
  have e1 : arrPtFl fl t r (fl (sp.1 * ii), fl (sp.2 * jj)) p
      = tailFl fl t r (addPtFl fl p (fl (sp.1 * ii), fl (sp.2 * jj))) := by
    unfold arrPtFl tailFl
    rw [hi.magnification]
  have hb := place_below ho hp
  have small : WithinBox (2 ^ 33) (sn.1 * ii, sn.2 * jj) := by
    obtain ⟨a1, a2⟩ := hb
    obtain ⟨c1, c2⟩ := hn
    simp only [abs_le] at *
    constructor <;> rw [abs_le] <;> constructor <;> linarith
  have a1 : Ap2 g (2 / 2 ^ 17) (fl (sp.1 * ii), fl (sp.2 * jj)) (sn.1 * ii, sn.2 * jj) :=
    ⟨((near_mul hs.1 ii small.1).round hfl (small.1.trans (by norm_num)) (by norm_num)).mono (by norm_num),
      ((near_mul hs.2 jj small.2).round hfl (small.2.trans (by norm_num)) (by norm_num)).mono (by norm_num)⟩
  have a2 := addPtFl_ap hfl h a1 (by norm_num; linarith) (hb.mono (by norm_num))
  rw [e1]
  refine (tailFl_ap hfl hi ho a2 (by norm_num; linarith) (hb.mono (by norm_num))).mono ?_
  norm_num
  linarith

/-! ### Hierarchies -/

theorem forall2_flatMap_mem {α β γ δ : Type} {R : α → β → Prop} {S : γ → δ → Prop} {f : α → List γ} {h : β → List δ}
    {l : List α} {l' : List β} (hl : List.Forall₂ R l l')
    (hf : ∀ a, ∀ b ∈ l', R a b → List.Forall₂ S (f a) (h b)) : List.Forall₂ S (l.flatMap f) (l'.flatMap h) := by
  induction hl with
  | nil => exact .nil
  | cons hab _ ih =>
    rw [List.flatMap_cons, List.flatMap_cons]
    exact List.rel_append (hf _ _ List.mem_cons_self hab) (ih fun a b hb => hf a b (List.mem_cons_of_mem _ hb))

theorem forall2_map_mem {α β γ δ : Type} {R : α → β → Prop} {S : γ → δ → Prop} {f : α → γ} {h : β → δ}
    {l : List α} {l' : List β} (hl : List.Forall₂ R l l')
    (hf : ∀ a, ∀ b ∈ l', R a b → S (f a) (h b)) : List.Forall₂ S (l.map f) (l'.map h) := by
  induction hl with
  | nil => exact .nil
  | cons hab _ ih =>
    exact .cons (hf _ _ List.mem_cons_self hab) (ih fun a b hb => hf a b (List.mem_cons_of_mem _ hb))

theorem forall2_imp_mem {α β : Type} {R S : α → β → Prop} {l : List α} {l' : List β} (hl : List.Forall₂ R l l')
    (hf : ∀ a, ∀ b ∈ l', R a b → S a b) : List.Forall₂ S l l' := by
  have := forall2_map_mem (f := id) (h := id) hl hf
  rwa [List.map_id, List.map_id] at this

def ApPoly (g e : ℚ) (a : (Int × Int) × Pgon ℚ) (b : (Int × Int) × List (ℤ × ℤ)) : Prop :=
  a.1 = b.1 ∧ List.Forall₂ (Ap2 g e) a.2 b.2

theorem taggedFl_map (f : Pt ℚ → Pt ℚ) (s : PolySet ℚ) :
    (s.mapPts f).tagged = s.tagged.map fun a => (a.1, a.2.map f) := by
  unfold PolySet.tagged PolySet.mapPts
  simp only
  rw [List.zip_map_right]
  rfl

theorem latticeFl_rel {sp : ℚ × ℚ} {sn : ℤ × ℤ} (cols rows : ℕ) :
    List.Forall₂ (fun a b => ∃ ii jj : ℕ, a = (fl (sp.1 * ii), fl (sp.2 * jj)) ∧ b = (sn.1 * (ii : ℤ), sn.2 * (jj : ℤ)))
      (latticeFl fl cols rows sp)
      ((List.range cols).flatMap fun (a : ℕ) => (List.range rows).map fun (b : ℕ) => (sn.1 * (a : ℤ), sn.2 * (b : ℤ))) := by
  unfold latticeFl
  refine forall2_flatMap_mem (List.forall₂_same.2 fun _ _ => rfl) ?_
  rintro a _ - (rfl : a = _)
  refine forall2_map_mem (List.forall₂_same.2 fun _ _ => rfl) ?_
  rintro b _ - (rfl : b = _)
  exact ⟨a, b, rfl, rfl⟩

mutual
theorem cell_ap (hfl : Nearest fl) (i : GridCell) (c : HCell ℚ P) (h : i.Is g t c) (hf : i.Fits) (hd : i.depth ≤ 1000) :
    List.Forall₂ (ApPoly g (1 / 2 ^ 19 + i.depth / 2 ^ 12)) ((c.polysetsFl fl t).flatMap PolySet.tagged) i.flat := by
  match i, c, h, hf, hd with
  | .mk ipolys irefs, .mk _ polys _ _ refs, h, hf, hd =>
    rw [GridCell.Is] at h
    rw [GridCell.Fits] at hf
    rw [HCell.polysetsFl, GridCell.flat, List.flatMap_append]
    refine List.rel_append ?_ ?_
    · refine forall2_imp_mem h.2.2.1 ?_
      rintro a b hb ⟨h1, h2⟩
      refine ⟨h1, forall2_imp_mem h2 ?_⟩
      intro p n hn hpn
      have hB := hf.1 b (by rw [GridCell.flat]; exact List.mem_append_left _ hb) n hn
      have hpos : (0 : ℚ) ≤ (GridCell.depth (.mk ipolys irefs) : ℚ) / 2 ^ 12 := by positivity
      exact ⟨(gridNear_ap hpn.1 hB.1).mono (by linarith), (gridNear_ap hpn.2 hB.2).mono (by linarith)⟩
    · rw [GridCell.depth] at hd ⊢
      exact refs_ap hfl irefs refs h.2.2.2 hf.2 (fun t ht p hp => hf.1 t (by
        rw [GridCell.flat]; exact List.mem_append_right _ ht) p hp) hd

theorem refs_ap (hfl : Nearest fl) (i : GridRefs) (c : HRefs ℚ P) (h : i.Is g t c) (hf : i.Fits)
    (hb : ∀ t ∈ i.flat, ∀ p ∈ t.2, Bounded p) (hd : i.depth ≤ 1000) :
    List.Forall₂ (ApPoly g (1 / 2 ^ 19 + i.depth / 2 ^ 12)) ((c.polysetsFl fl t).flatMap PolySet.tagged) i.flat := by
  match i, c, h, hf, hb, hd with
  | i, .name _ _ rest, h, hf, hb, hd =>
    rw [GridRefs.Is] at h
    rw [HRefs.polysetsFl]
    exact refs_ap hfl i rest h hf hb hd
  | .nil, .nil, _, _, _, _ =>
    rw [HRefs.polysetsFl, GridRefs.flat]
    exact .nil
  | .nil, .cell _ _ _, h, _, _, _ => rw [GridRefs.Is] at h; exact h.elim
  | .cons _ _ _, .nil, h, _, _, _ => rw [GridRefs.Is] at h; exact h.elim
  | .cons i c rest, .cell r c' rest', h, hf, hb, hd =>
    rw [GridRefs.Is] at h
    rw [GridRefs.Fits] at hf
    rw [GridRefs.flat] at hb
    rw [GridRefs.depth] at hd
    obtain ⟨hi, hc, hr⟩ := h
    obtain ⟨ho, fc, fr⟩ := hf
    have hdc : c.depth + 1 ≤ 1000 := (le_max_left _ _).trans hd
    have ih := cell_ap hfl c c' hc fc (by omega)
    have ih2 := refs_ap hfl rest rest' hr fr (fun t ht p hp => hb t (List.mem_append_right _ ht) p hp)
      ((le_max_right _ _).trans hd)
    have hcb : ∀ t ∈ c.flat, ∀ p ∈ t.2, Bounded p := by
      cases c with
      | mk _ _ => rw [GridCell.Fits] at fc; exact fc.1
    have d1 : (1 : ℚ) / 2 ^ 19 + c.depth / 2 ^ 12 + 1 / 2 ^ 12 ≤ 1 / 2 ^ 19 + (GridRefs.depth (.cons i c rest) : ℚ) / 2 ^ 12 := by
      have : ((c.depth + 1 : ℕ) : ℚ) ≤ (GridRefs.depth (.cons i c rest) : ℚ) := by
        rw [GridRefs.depth]
        exact_mod_cast le_max_left _ _
      push_cast at this
      have := div_le_div_of_nonneg_right this (show (0 : ℚ) ≤ 2 ^ 12 by positivity)
      rw [add_div] at this
      linarith
    have d2 : (1 : ℚ) / 2 ^ 19 + rest.depth / 2 ^ 12 ≤ 1 / 2 ^ 19 + (GridRefs.depth (.cons i c rest) : ℚ) / 2 ^ 12 := by
      have : (rest.depth : ℚ) ≤ (GridRefs.depth (.cons i c rest) : ℚ) := by
        rw [GridRefs.depth]
        exact_mod_cast le_max_right _ _
      have := div_le_div_of_nonneg_right this (show (0 : ℚ) ≤ 2 ^ 12 by positivity)
      linarith
    have e1 : (1 : ℚ) / 2 ^ 19 + c.depth / 2 ^ 12 ≤ 1 / 4 := by
      have : (c.depth : ℚ) ≤ 999 := by exact_mod_cast (by omega : c.depth ≤ 999)
      have := div_le_div_of_nonneg_right this (show (0 : ℚ) ≤ 2 ^ 12 by positivity)
      norm_num at this ⊢
      linarith
    rw [HRefs.polysetsFl, GridRefs.flat, List.flatMap_append]
    refine List.rel_append ?_ (ih2.imp ?_)
    · have hcopy : ∀ s ∈ i.copies, ∀ b ∈ c.flat, ∀ p ∈ b.2, Bounded (i.place s p) := by
        intro s hs b hb' p hp
        refine hb (b.1, b.2.map (i.place s)) (List.mem_append_left _ (List.mem_flatMap.2 ⟨s, hs, ?_⟩)) _
          (List.mem_map_of_mem hp)
        exact List.mem_map.2 ⟨b, hb', rfl⟩
      have ha := hi.array
      cases h1 : r.array with
      | none =>
        cases h2 : i.array with
        | some _ => rw [h1, h2] at ha; exact ha.elim
        | none =>
          have e : i.copies = [(0, 0)] := by unfold GridRef.copies; rw [h2]
          rw [e] at hcopy
          simp only [e, List.flatMap_cons, List.flatMap_nil, List.append_nil, List.flatMap_map, taggedFl_map]
          rw [← List.map_flatMap]
          refine forall2_map_mem ih ?_
          rintro a b hb' ⟨k1, k2⟩
          refine ⟨k1, forall2_map_mem k2 ?_⟩
          intro p n hn hpn
          exact (refPtFl_ap hfl hi ho hpn e1 (hcopy _ List.mem_cons_self b hb' n hn)).mono d1
      | some a =>
        obtain ⟨cols, rows, sp⟩ := a
        cases h2 : i.array with
        | none => rw [h1, h2] at ha; exact ha.elim
        | some b =>
          obtain ⟨cols', rows', sn⟩ := b
          rw [h1, h2] at ha
          obtain ⟨q1, q2, q3⟩ := ha
          simp only at q1 q2 q3
          subst q1 q2
          have e : i.copies = (List.range cols).flatMap fun (a : ℕ) => (List.range rows).map fun (b : ℕ) =>
              (sn.1 * (a : ℤ), sn.2 * (b : ℤ)) := by unfold GridRef.copies; rw [h2]
          rw [e] at hcopy
          rw [e]
          simp only
          rw [List.flatMap_assoc]
          refine forall2_flatMap_mem (latticeFl_rel (fl := fl) (sp := sp) (sn := sn) cols rows) ?_
          rintro a s hs ⟨ii, jj, rfl, rfl⟩
          rw [List.flatMap_map]
          simp only [taggedFl_map]
          rw [← List.map_flatMap]
          refine forall2_map_mem ih ?_
          rintro a b hb' ⟨k1, k2⟩
          refine ⟨k1, forall2_map_mem k2 ?_⟩
          intro p n hn hpn
          exact (arrPtFl_ap hfl hi ho q3 ii jj hpn e1 (hcb b hb' n hn) (hcopy _ hs b hb' n hn)).mono d1
    · rintro a b ⟨k1, k2⟩
      exact ⟨k1, k2.imp fun p n h => h.mono d2⟩
end

/-- Less than a third of a unit away from a number: stored as this number. -/
theorem grid_ap (hfl : Nearest fl) {unit precision : ℚ} (hu : unit ≠ 0) (hp : precision ≠ 0) {e x : ℚ} {n : ℤ}
    (hn : |n| ≤ 2 ^ 31) (he : e ≤ 1 / 3) (h : Ap (precision / unit) e x n) :
    gridFl fl (fl (unit / precision)) x = n := by
  obtain ⟨t1, h1, e1⟩ := nearest_factor hfl (unit / precision)
  obtain ⟨t2, h2, e2⟩ := nearest_factor hfl (x * fl (unit / precision))
  have h3 := factor_mul h1 h2
  have hn' : |(n : ℚ)| ≤ 2 ^ 31 := by exact_mod_cast hn
  unfold gridFl
  apply pyRound_eq
  have e3 : fl (x * fl (unit / precision)) - n
      = (x - n * (precision / unit)) * (unit / precision) * (t1 * t2) + n * (t1 * t2 - 1) := by
    rw [e2, e1]
    field_simp
    ring
  rw [e3]
  have h4 : |(x - n * (precision / unit)) * (unit / precision)| ≤ 1 / 3 := by
    rw [abs_mul]
    refine (mul_le_mul_of_nonneg_right h (abs_nonneg _)).trans ?_
    have : |precision / unit| * e * |unit / precision| = e * |precision / unit * (unit / precision)| := by
      rw [abs_mul]; ring
    rw [this, show precision / unit * (unit / precision) = 1 by field_simp, abs_one, mul_one]
    exact he
  have h5 : |t1 * t2| ≤ 1 + 1 / 2 ^ 51 := by
    have := abs_add_le (t1 * t2 - 1) 1
    rw [sub_add_cancel, abs_one] at this
    have : |t1 * t2 - 1| ≤ 1 / 2 ^ 51 := h3.trans (by norm_num)
    linarith
  have h6 : |(x - n * (precision / unit)) * (unit / precision) * (t1 * t2)| ≤ 1 / 3 * (1 + 1 / 2 ^ 51) := by
    rw [abs_mul]
    exact mul_le_mul h4 h5 (abs_nonneg _) (by norm_num)
  have h7 : |(n : ℚ) * (t1 * t2 - 1)| ≤ 2 ^ 31 * (1 / 2 ^ 51) := by
    rw [abs_mul]
    refine mul_le_mul hn' (h3.trans ?_) (abs_nonneg _) (by norm_num)
    norm_num
  refine (abs_add_le _ _).trans_lt ?_
  refine (add_le_add h6 h7).trans_lt ?_
  norm_num

/-- The integers that `to_gds` stores for a polygon. -/
def storedPts (fl : ℚ → ℚ) (unit precision : ℚ) (l : Pgon ℚ) : List (ℤ × ℤ) :=
  l.map fun p => (gridFl fl (fl (unit / precision)) p.1, gridFl fl (fl (unit / precision)) p.2)

theorem cell_bounded {i : GridCell} (h : i.Fits) : ∀ t ∈ i.flat, ∀ p ∈ t.2, Bounded p := by
  cases i with
  | mk _ _ => rw [GridCell.Fits] at h; exact h.1

/-- **C87.** The polygons of the flattened cell, with their layers, are stored where exact
arithmetic puts them, for every hierarchy of up to 1000 levels. -/
theorem C87_flatten (hfl : Nearest fl) {unit precision : ℚ} (hu : unit ≠ 0) (hp : precision ≠ 0)
    {i : GridCell} {c : HCell ℚ P} (h : i.Is (precision / unit) t c) (hf : i.Fits) (hd : i.depth ≤ 1000) :
    ((c.polysetsFl fl t).flatMap PolySet.tagged).map (fun a => (a.1, storedPts fl unit precision a.2)) = i.flat := by
  have h1 := cell_ap hfl i c h hf hd
  have he : (1 : ℚ) / 2 ^ 19 + i.depth / 2 ^ 12 ≤ 1 / 3 := by
    have : (i.depth : ℚ) ≤ 1000 := by exact_mod_cast hd
    have := div_le_div_of_nonneg_right this (show (0 : ℚ) ≤ 2 ^ 12 by positivity)
    norm_num at this ⊢
    linarith
  have h2 : List.Forall₂ Eq (((c.polysetsFl fl t).flatMap PolySet.tagged).map
      (fun a => (a.1, storedPts fl unit precision a.2))) (i.flat.map id) := by
    refine forall2_map_mem h1 ?_
    rintro a b hb ⟨k1, k2⟩
    refine Prod.ext k1 ?_
    have h3 : List.Forall₂ Eq (storedPts fl unit precision a.2) (b.2.map id) := by
      refine forall2_map_mem k2 ?_
      intro p n hn hpn
      have hB := cell_bounded hf b hb n hn
      exact Prod.ext (grid_ap hfl hu hp hB.1 he hpn.1) (grid_ap hfl hu hp hB.2 he hpn.2)
    rw [List.forall₂_eq_eq_eq, List.map_id] at h3
    exact h3
  rw [List.forall₂_eq_eq_eq, List.map_id] at h2
  exact h2

theorem tagged_snd_of {s : PolySet ℚ} (h : s.layers.length = s.polygons.length ∧ s.datatypes.length = s.polygons.length) :
    s.tagged.map Prod.snd = s.polygons := by
  unfold PolySet.tagged
  rw [List.map_snd_zip]
  simp [h.1, h.2]

mutual
theorem cell_flat_eq (ops : PathOps ℚ P) (i : GridCell) (c : HCell ℚ P) (h : i.Is g t c) :
    c.flatPolysFl fl ops t = ((c.polysetsFl fl t).flatMap PolySet.tagged).map Prod.snd := by
  match i, c, h with
  | .mk _ irefs, .mk _ polys paths _ refs, h =>
    rw [GridCell.Is] at h
    obtain ⟨rfl, h2, -, h4⟩ := h
    rw [HCell.flatPolysFl, HCell.polysetsFl, refs_flat_eq ops irefs refs h4, List.flatMap_nil, List.append_nil,
      List.flatMap_append, List.map_append]
    refine congrArg (· ++ _) ?_
    rw [List.map_flatMap]
    exact List.flatMap_congr fun s hs => (tagged_snd_of (h2 s hs)).symm

theorem refs_flat_eq (ops : PathOps ℚ P) (i : GridRefs) (c : HRefs ℚ P) (h : i.Is g t c) :
    c.flatPolysFl fl ops t = ((c.polysetsFl fl t).flatMap PolySet.tagged).map Prod.snd := by
  match i, c, h with
  | i, .name _ _ rest, h =>
    rw [GridRefs.Is] at h
    rw [HRefs.polysetsFl, HRefs.flatPolysFl]
    exact refs_flat_eq ops i rest h
  | .nil, .nil, _ => rfl
  | .nil, .cell _ _ _, h => rw [GridRefs.Is] at h; exact h.elim
  | .cons _ _ _, .nil, h => rw [GridRefs.Is] at h; exact h.elim
  | .cons i c rest, .cell r c' rest', h =>
    rw [GridRefs.Is] at h
    rw [HRefs.polysetsFl, HRefs.flatPolysFl, refs_flat_eq ops rest rest' h.2.2, cell_flat_eq ops c c' h.2.1,
      List.flatMap_append, List.map_append]
    refine congrArg (· ++ _) ?_
    unfold transformPolysFl
    cases r.array with
    | none =>
      simp only [List.flatMap_map, taggedFl_map]
      rw [← List.map_flatMap, List.map_map, List.map_map]
      rfl
    | some a =>
      obtain ⟨cols, rows, sp⟩ := a
      simp only [List.flatMap_assoc, List.flatMap_map, taggedFl_map, List.map_flatMap, List.map_map]
      rfl
end

/-- **C87.** The same for the polygons that `get_polygons()` returns. -/
theorem C87_get_polygons (hfl : Nearest fl) {unit precision : ℚ} (hu : unit ≠ 0) (hp : precision ≠ 0)
    (ops : PathOps ℚ P) {i : GridCell} {c : HCell ℚ P} (h : i.Is (precision / unit) t c) (hf : i.Fits)
    (hd : i.depth ≤ 1000) :
    (c.flatPolysFl fl ops t).map (storedPts fl unit precision) = i.flat.map Prod.snd := by
  rw [cell_flat_eq ops i c h, ← C87_flatten hfl hu hp h hf hd, List.map_map, List.map_map]
  rfl

/-- **C87.** The origin of a reference is stored as it is in the layout. -/
theorem C87_origin (hfl : Nearest fl) {unit precision : ℚ} (hu : unit ≠ 0) (hp : precision ≠ 0)
    {i : GridRef} {r : RefData ℚ} (hi : i.Is (precision / unit) t r) {o : ℤ × ℤ} (ho : i.origin = some o)
    (hb : Bounded o) :
    ∃ p, r.origin = some p ∧ storedPts fl unit precision [p] = [o] := by
  have h := hi.origin
  cases h1 : r.origin with
  | none => rw [h1, ho] at h; exact h.elim
  | some p =>
    rw [h1, ho] at h
    refine ⟨p, rfl, ?_⟩
    simp only [storedPts, List.map_cons, List.map_nil]
    rw [grid_ap hfl hu hp hb.1 (by norm_num) (gridNear_ap h.1 hb.1),
      grid_ap hfl hu hp hb.2 (by norm_num) (gridNear_ap h.2 hb.2)]

/-- A triangle with vertices at (0.1, 0), (0.2, 0), (0.2, 0.3), in an array of 3 × 2 turned by 90 degrees, in a
reflected reference. -/
def Sample.turned : HCell ℚ Unit :=
  .mk "TOP".toList [] [] [] (.cell ⟨some (toDouble (7 / 10), 3), none, none, some true, none⟩
    (.mk "MID".toList [] [] [] (.cell ⟨none, some 90, none, none, some (3, 2, (toDouble (11 / 10), 2))⟩
      (.mk "TRI".toList [⟨[[(toDouble (1 / 10), 0), (toDouble (1 / 5), 0), (toDouble (1 / 5), toDouble (3 / 10))]], [1], [2]⟩]
        [] [] .nil) .nil)) .nil)

def Sample.gridTurned : GridCell :=
  .mk [] (.cons ⟨some (700, 3000), none, true, none⟩
    (.mk [] (.cons ⟨none, some 1, false, some (3, 2, (1100, 2000))⟩
      (.mk [((1, 2), [(100, 0), (200, 0), (200, 300)])] .nil) .nil)) .nil)

/-- `numpy.cos(90 * numpy.pi / 180)` is about 6.12e-17. -/
def Sample.trig : Trig ℚ := ⟨fun a => if a = 90 then 6123 / 10 ^ 20 else 1, fun a => if a = 90 then 1 else 0, fun _ => true⟩

example : Sample.gridTurned.Is (toDouble (1 / 10 ^ 9) / toDouble (1 / 10 ^ 6)) Sample.trig Sample.turned ∧
    Sample.gridTurned.depth = 2 ∧ Sample.gridTurned.flat.length = 6 := by
  refine ⟨?_, by decide, by decide⟩
  unfold Sample.gridTurned Sample.turned
  simp only [GridCell.Is, GridRefs.Is]
  refine ⟨trivial, by simp, .nil, ⟨?_, trivial, rfl, by simp, trivial⟩, ?_, trivial⟩
  · exact ⟨by unfold GridNear; decide +kernel, by unfold GridNear; decide +kernel⟩
  · refine ⟨trivial, by simp, .nil, ⟨trivial, ⟨by decide +kernel, by decide +kernel⟩, rfl, by simp,
      ⟨rfl, rfl, by unfold GridNear; decide +kernel, by unfold GridNear; decide +kernel⟩⟩, ?_, trivial⟩
    refine ⟨trivial, by simp, .cons ⟨rfl, ?_⟩ .nil, trivial⟩
    refine .cons ⟨?_, ?_⟩ (.cons ⟨?_, ?_⟩ (.cons ⟨?_, ?_⟩ .nil)) <;> unfold GridNear <;> decide +kernel

example : Sample.gridTurned.Fits := by
  unfold Sample.gridTurned
  simp only [GridCell.Fits, GridRefs.Fits]
  refine ⟨?_, ?_, ⟨?_, ?_, ⟨?_, trivial⟩, trivial⟩, trivial⟩
  · unfold Bounded; decide +kernel
  · rintro o ⟨⟩
    unfold Bounded; decide
  · unfold Bounded; decide +kernel
  · rintro o ⟨⟩
  · unfold Bounded; decide +kernel

end
end Gdspy
