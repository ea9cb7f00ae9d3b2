import Verif.Model.Double
import Verif.Spec.Double
import Verif.Lemmas.Snap
import Verif.Lemmas.Write

/-!
Rounding to doubles: `toDouble` rounds to a nearest double, and every such rounding changes a number
by at most a part in `2 ^ 53`.
-/

namespace Gdspy

open Spec

theorem log_bounds {x : ℚ} (hx : x ≠ 0) :
    (2 : ℚ) ^ (Int.log 2 |x|) ≤ |x| ∧ |x| < (2 : ℚ) ^ (Int.log 2 |x| + 1) :=
  ⟨Int.zpow_log_le_self (by norm_num) (abs_pos.2 hx), Int.lt_zpow_succ_log_self (by norm_num) _⟩

theorem two_zpow_pos (k : ℤ) : (0 : ℚ) < (2 : ℚ) ^ k := zpow_pos (by norm_num) k

/-- The rounding of numbers to integers is nearest. -/
theorem pyRound_nearest (y : ℚ) (z : ℤ) : |(pyRound y : ℚ) - y| ≤ |(z : ℚ) - y| := by
  have h := pyRound_near y
  rw [abs_sub_comm] at h
  by_cases hz : z = pyRound y
  · rw [hz]
  · have h1 : (1 : ℚ) ≤ |(z : ℚ) - pyRound y| := by
      have : (1 : ℤ) ≤ |z - pyRound y| := Int.one_le_abs (sub_ne_zero.2 hz)
      exact_mod_cast this
    have h2 : |(z : ℚ) - pyRound y| ≤ |(z : ℚ) - y| + |y - pyRound y| := abs_sub_le _ _ _
    rw [abs_sub_comm y] at h2
    linarith

theorem toDouble_zero : toDouble 0 = 0 := by
  have : pyRound ((0 : ℚ)) = 0 := by exact_mod_cast pyRound_int 0
  simp [toDouble, this]

theorem toDouble_error (x : ℚ) : |toDouble x - x| ≤ |x| / 2 ^ 53 := by
  by_cases hx : x = 0
  · subst hx
    simp [toDouble_zero]
  obtain ⟨h1, -⟩ := log_bounds hx
  set e : ℤ := Int.log 2 |x| - 52 with he
  have hp := two_zpow_pos e
  have h2 := pyRound_near (x / (2 : ℚ) ^ e)
  rw [abs_sub_comm] at h2
  have h3 : toDouble x - x = ((pyRound (x / (2 : ℚ) ^ e) : ℚ) - x / (2 : ℚ) ^ e) * (2 : ℚ) ^ e := by
    unfold toDouble
    rw [← he, sub_mul, div_mul_cancel₀ _ hp.ne']
  rw [h3, abs_mul, abs_of_pos hp]
  have h4 : (2 : ℚ) ^ (Int.log 2 |x|) = (2 : ℚ) ^ e * 2 ^ 52 := by
    rw [he, show (2 : ℚ) ^ 52 = (2 : ℚ) ^ (52 : ℤ) by norm_cast, ← zpow_add₀ (by norm_num)]
    congr 1
    ring
  rw [h4] at h1
  rw [le_div_iff₀ (by positivity)]
  have := mul_le_mul_of_nonneg_right h2 hp.le
  nlinarith

theorem toDouble_double (x : ℚ) : IsDouble (toDouble x) := by
  by_cases hx : x = 0
  · subst hx
    exact ⟨0, 0, by norm_num, by simp [toDouble_zero]⟩
  obtain ⟨-, h1⟩ := log_bounds hx
  set e : ℤ := Int.log 2 |x| - 52 with he
  have hp := two_zpow_pos e
  have h4 : (2 : ℚ) ^ (Int.log 2 |x| + 1) = (2 : ℚ) ^ e * 2 ^ 53 := by
    rw [he, show (2 : ℚ) ^ 53 = (2 : ℚ) ^ (53 : ℤ) by norm_cast, ← zpow_add₀ (by norm_num)]
    congr 1
    ring
  rw [h4] at h1
  have h5 : |x / (2 : ℚ) ^ e| < 2 ^ 53 := by
    rw [abs_div, abs_of_pos hp, div_lt_iff₀ hp]
    linarith
  have h6 : |pyRound (x / (2 : ℚ) ^ e)| ≤ 2 ^ 53 := by
    rw [abs_lt] at h5
    rw [abs_le]
    constructor
    · have := pyRound_mono (((-2 ^ 53 : ℤ) : ℤ) : ℚ) (x / (2 : ℚ) ^ e) (by push_cast; linarith)
      rwa [pyRound_int] at this
    · have := pyRound_mono (x / (2 : ℚ) ^ e) (((2 ^ 53 : ℤ) : ℤ) : ℚ) (by push_cast; linarith)
      rwa [pyRound_int] at this
  have hd : toDouble x = pyRound (x / (2 : ℚ) ^ e) * (2 : ℚ) ^ e := rfl
  rcases lt_or_eq_of_le h6 with h | h
  · exact ⟨_, e, h, hd⟩
  · rcases (abs_eq (by norm_num)).1 h with h | h
    · refine ⟨2 ^ 52, e + 1, by norm_num, ?_⟩
      rw [hd, h, zpow_add_one₀ (by norm_num)]
      push_cast
      ring
    · refine ⟨-2 ^ 52, e + 1, by norm_num, ?_⟩
      rw [hd, h, zpow_add_one₀ (by norm_num)]
      push_cast
      ring

/-- `toDouble` is the rounding of IEEE-754. -/
theorem toDouble_nearest : Nearest toDouble := by
  refine ⟨toDouble_double, ?_⟩
  intro x d hd
  by_cases hx : x = 0
  · subst hx
    simp [toDouble_zero]
  obtain ⟨h1, -⟩ := log_bounds hx
  set e : ℤ := Int.log 2 |x| - 52 with he
  have hp := two_zpow_pos e
  have hval : toDouble x = pyRound (x / (2 : ℚ) ^ e) * (2 : ℚ) ^ e := rfl
  -- multiples of `2 ^ e`
  have key : ∀ z : ℤ, |toDouble x - x| ≤ |z * (2 : ℚ) ^ e - x| := by
    intro z
    have h := pyRound_nearest (x / (2 : ℚ) ^ e) z
    have e1 : toDouble x - x = ((pyRound (x / (2 : ℚ) ^ e) : ℚ) - x / (2 : ℚ) ^ e) * (2 : ℚ) ^ e := by
      rw [hval, sub_mul, div_mul_cancel₀ _ hp.ne']
    have e2 : z * (2 : ℚ) ^ e - x = ((z : ℚ) - x / (2 : ℚ) ^ e) * (2 : ℚ) ^ e := by
      rw [sub_mul, div_mul_cancel₀ _ hp.ne']
    rw [e1, e2, abs_mul, abs_mul]
    exact mul_le_mul_of_nonneg_right h (abs_nonneg _)
  obtain ⟨n, k, hn, rfl⟩ := hd
  by_cases hk : e ≤ k
  · obtain ⟨j, hj⟩ := Int.eq_ofNat_of_zero_le (sub_nonneg.2 hk)
    have := key (n * 2 ^ j)
    have e3 : ((n * 2 ^ j : ℤ) : ℚ) * (2 : ℚ) ^ e = n * (2 : ℚ) ^ k := by
      have : k = (j : ℤ) + e := by omega
      rw [this, zpow_add₀ (by norm_num), zpow_natCast]
      push_cast
      ring
    rwa [e3] at this
  · have hlt : |(n : ℚ) * (2 : ℚ) ^ k| < (2 : ℚ) ^ (Int.log 2 |x|) := by
      have hk1 : (2 : ℚ) ^ k ≤ (2 : ℚ) ^ (Int.log 2 |x| - 53) :=
        zpow_le_zpow_right₀ (by norm_num) (by omega)
      have h4 : (2 : ℚ) ^ (Int.log 2 |x|) = (2 : ℚ) ^ (Int.log 2 |x| - 53) * 2 ^ 53 := by
        rw [show (2 : ℚ) ^ 53 = (2 : ℚ) ^ (53 : ℤ) by norm_cast, ← zpow_add₀ (by norm_num)]
        congr 1
        ring
      rw [h4, abs_mul, abs_of_pos (two_zpow_pos k)]
      have hn' : |(n : ℚ)| < 2 ^ 53 := by exact_mod_cast hn
      have hpk := two_zpow_pos k
      have := two_zpow_pos (Int.log 2 |x| - 53)
      nlinarith [abs_nonneg (n : ℚ)]
    have h4 : (2 : ℚ) ^ (Int.log 2 |x|) = (2 : ℚ) ^ e * 2 ^ 52 := by
      rw [he, show (2 : ℚ) ^ 52 = (2 : ℚ) ^ (52 : ℤ) by norm_cast, ← zpow_add₀ (by norm_num)]
      congr 1
      ring
    have h5 : |x| - |(n : ℚ) * (2 : ℚ) ^ k| ≤ |n * (2 : ℚ) ^ k - x| := by
      have := abs_sub_abs_le_abs_sub x (n * (2 : ℚ) ^ k)
      rwa [abs_sub_comm] at this
    rcases le_total 0 x with h0 | h0
    · have h6 := key (2 ^ 52)
      have e3 : |((2 ^ 52 : ℤ) : ℚ) * (2 : ℚ) ^ e - x| = |x| - (2 : ℚ) ^ (Int.log 2 |x|) := by
        rw [h4] at h1 ⊢
        rw [abs_of_nonneg h0] at h1 ⊢
        push_cast
        rw [abs_sub_comm, abs_of_nonneg (by linarith)]
        ring
      rw [e3] at h6
      linarith
    · have h6 := key (-2 ^ 52)
      have e3 : |((-2 ^ 52 : ℤ) : ℚ) * (2 : ℚ) ^ e - x| = |x| - (2 : ℚ) ^ (Int.log 2 |x|) := by
        rw [h4] at h1 ⊢
        rw [abs_of_nonpos h0] at h1 ⊢
        push_cast
        rw [abs_of_nonneg (by linarith)]
        ring
      rw [e3] at h6
      linarith

/-- Every rounding to a nearest double has a small error. -/
theorem nearest_error {fl : ℚ → ℚ} (h : Nearest fl) (x : ℚ) : |fl x - x| ≤ |x| / 2 ^ 53 :=
  (h.nearest x _ (toDouble_double x)).trans (toDouble_error x)

theorem nearest_fixes {fl : ℚ → ℚ} (h : Nearest fl) {x : ℚ} (hx : IsDouble x) : fl x = x := by
  have := h.nearest x x hx
  rw [sub_self, abs_zero] at this
  exact sub_eq_zero.1 (abs_nonpos_iff.1 this)

/-- The error as a factor. -/
theorem nearest_factor {fl : ℚ → ℚ} (h : Nearest fl) (x : ℚ) :
    ∃ t : ℚ, |t - 1| ≤ 1 / 2 ^ 53 ∧ fl x = x * t := by
  by_cases hx : x = 0
  · subst hx
    refine ⟨1, by norm_num, ?_⟩
    have := nearest_error h 0
    rw [abs_zero, zero_div, sub_zero] at this
    rw [abs_nonpos_iff.1 this, zero_mul]
  · refine ⟨fl x / x, ?_, (mul_div_cancel₀ _ hx).symm⟩
    have := nearest_error h x
    have e : fl x / x - 1 = (fl x - x) / x := by rw [sub_div, div_self hx]
    rw [e, abs_div, div_le_iff₀ (abs_pos.2 hx)]
    linarith

/-- Factors multiply. -/
theorem factor_mul {s t A B : ℚ} (hs : |s - 1| ≤ A) (ht : |t - 1| ≤ B) :
    |s * t - 1| ≤ A + B + A * B := by
  have e : s * t - 1 = (s - 1) + (t - 1) + (s - 1) * (t - 1) := by ring
  rw [e]
  refine (abs_add_le _ _).trans (add_le_add ((abs_add_le _ _).trans (add_le_add hs ht)) ?_)
  rw [abs_mul]
  exact mul_le_mul hs ht (abs_nonneg _) ((abs_nonneg _).trans hs)

end Gdspy
