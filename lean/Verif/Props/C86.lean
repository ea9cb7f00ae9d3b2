import Verif.Lemmas.Double
import Verif.Lemmas.ReadLib
import Verif.Props.C13
import Verif.Props.C47

/-!
# C86: the rounding errors of double-precision arithmetic

Units such as 1e-6 and 1e-9 are no doubles, and neither is their quotient. The coordinates of a
file are nevertheless those that the user gave, and stay the same when files are read and
written again.
-/

namespace Gdspy

open Spec

section
variable {fl : ℚ → ℚ}

/-! ### Numbers -/

theorem factor_inv {t A : ℚ} (ht : |t - 1| ≤ A) (hA : A ≤ 1 / 2) : |t⁻¹ - 1| ≤ 2 * A := by
  have h1 := (abs_le.1 ht).1
  have ht0 : 1 / 2 ≤ t := by linarith
  have e : t⁻¹ - 1 = (1 - t) / t := by
    rw [sub_div, div_self (by linarith), one_div]
  rw [e, abs_div, abs_of_pos (show (0 : ℚ) < t by linarith), div_le_iff₀ (by linarith), abs_sub_comm]
  have : 0 ≤ A := (abs_nonneg _).trans ht
  nlinarith

/-- A number of a file that is changed by a small factor is rounded to itself. -/
theorem round_factor {n : ℤ} (hn : |n| ≤ 2 ^ 31) {t : ℚ} (ht : |t - 1| ≤ 1 / 2 ^ 40) :
    pyRound (n * t) = n := by
  apply pyRound_eq
  have e : (n : ℚ) * t - n = n * (t - 1) := by ring
  rw [e, abs_mul]
  have hn' : |(n : ℚ)| ≤ 2 ^ 31 := by exact_mod_cast hn
  have : |(n : ℚ)| * |t - 1| ≤ 2 ^ 31 * (1 / 2 ^ 40) :=
    mul_le_mul hn' ht (abs_nonneg _) (by norm_num)
  refine this.trans_lt ?_
  norm_num

theorem mul_le_div_pow {A B : ℚ} {k : ℕ} (hA : 0 ≤ A) (h : B ≤ 1 / 2 ^ k) : A * B ≤ A / 2 ^ k := by
  have := mul_le_mul_of_nonneg_left h hA
  rwa [mul_one_div] at this

/-- **C86.** A coordinate that is a multiple of the precision up to 8 rounding errors is stored as this
multiple, for all units and precisions. -/
theorem C86_on_grid (hfl : Nearest fl) {unit precision : ℚ} (hu : unit ≠ 0) (hp : precision ≠ 0)
    {n : ℤ} (hn : |n| ≤ 2 ^ 31) {x : ℚ}
    (hx : |x - n * (precision / unit)| ≤ |n * (precision / unit)| / 2 ^ 50) :
    gridFl fl (fl (unit / precision)) x = n := by
  obtain ⟨t1, h1, e1⟩ := nearest_factor hfl (unit / precision)
  obtain ⟨t2, h2, e2⟩ := nearest_factor hfl (x * fl (unit / precision))
  have hg : precision / unit ≠ 0 := div_ne_zero hp hu
  obtain ⟨s, hs, es⟩ : ∃ s : ℚ, |s - 1| ≤ 1 / 2 ^ 50 ∧ x = n * (precision / unit) * s := by
    by_cases h0 : (n : ℚ) * (precision / unit) = 0
    · rw [h0, abs_zero, zero_div, sub_zero] at hx
      exact ⟨1, by norm_num, by rw [h0, abs_nonpos_iff.1 hx, zero_mul]⟩
    · refine ⟨x / (n * (precision / unit)), ?_, (mul_div_cancel₀ _ h0).symm⟩
      have e : x / (n * (precision / unit)) - 1 = (x - n * (precision / unit)) / (n * (precision / unit)) := by
        rw [sub_div, div_self h0]
      rw [e, abs_div, div_le_iff₀ (abs_pos.2 h0)]
      linarith
  unfold gridFl
  rw [e2, e1, es]
  have e : (n : ℚ) * (precision / unit) * s * (unit / precision * t1) * t2 = n * (s * t1 * t2) := by
    field_simp
  rw [e]
  refine round_factor hn ((factor_mul (factor_mul hs h1) h2).trans ?_)
  norm_num

/-- **C86.** So decimal numbers may be given: if unit, precision and coordinate are the doubles nearest
to numbers `U`, `P` and `n * P / U`, then the coordinate is stored as `n`. -/
theorem C86_decimals (hfl : Nearest fl) {U P : ℚ} (hU : U ≠ 0) (hP : P ≠ 0) {n : ℤ} (hn : |n| ≤ 2 ^ 31) :
    gridFl fl (fl (fl U / fl P)) (fl (n * (P / U))) = n := by
  obtain ⟨a, ha, ea⟩ := nearest_factor hfl U
  obtain ⟨b, hb, eb⟩ := nearest_factor hfl P
  obtain ⟨c, hc, ec⟩ := nearest_factor hfl (n * (P / U))
  obtain ⟨t1, h1, e1⟩ := nearest_factor hfl (fl U / fl P)
  obtain ⟨t2, h2, e2⟩ := nearest_factor hfl (fl (n * (P / U)) * fl (fl U / fl P))
  have hb0 : b ≠ 0 := by
    rintro rfl
    norm_num at hb
  unfold gridFl
  rw [e2, e1, ea, eb, ec]
  have e : (n : ℚ) * (P / U) * c * (U * a / (P * b) * t1) * t2 = n * (c * a * b⁻¹ * t1 * t2) := by
    field_simp
  rw [e]
  refine round_factor hn ((factor_mul (factor_mul (factor_mul (factor_mul hc ha)
    (factor_inv hb (by norm_num))) h1) h2).trans ?_)
  norm_num

/-- The units of the documentation: a user unit of 1e-6, a precision of 1e-9 and the coordinate 0.1,
none of which is a double. -/
example : gridFl toDouble (toDouble (toDouble (1 / 10 ^ 6) / toDouble (1 / 10 ^ 9))) (toDouble (1 / 10)) = 100 := by
  have := C86_decimals toDouble_nearest (U := 1 / 10 ^ 6) (P := 1 / 10 ^ 9) (by norm_num) (by norm_num)
    (n := 100) (by norm_num)
  norm_num at this ⊢
  exact this

/-- **C86.** Any coordinate is moved by half of the precision, and less than a part in 2^51 more. -/
theorem C86_error (hfl : Nearest fl) (unit precision x : ℚ) :
    |(gridFl fl (fl (unit / precision)) x : ℚ) - x * (unit / precision)|
      ≤ 1 / 2 + |x * (unit / precision)| / 2 ^ 51 := by
  obtain ⟨t1, h1, e1⟩ := nearest_factor hfl (unit / precision)
  obtain ⟨t2, h2, e2⟩ := nearest_factor hfl (x * fl (unit / precision))
  have h3 := pyRound_near (fl (x * fl (unit / precision)))
  rw [abs_sub_comm] at h3
  have h4 := abs_sub_le (gridFl fl (fl (unit / precision)) x : ℚ) (fl (x * fl (unit / precision)))
    (x * (unit / precision))
  refine h4.trans (add_le_add h3 ?_)
  rw [e2, e1]
  have e : x * (unit / precision * t1) * t2 - x * (unit / precision)
      = x * (unit / precision) * (t1 * t2 - 1) := by ring
  rw [e, abs_mul]
  refine mul_le_div_pow (abs_nonneg _) ((factor_mul h1 h2).trans ?_)
  norm_num

/-- **C86.** The numbers of a file that is read (with `units="skip"` into a library with the units
of the file, or with `units="convert"` into one with the precision of the file) are written
again as they were. -/
theorem C86_cycle (hfl : Nearest fl) {unit precision : ℚ} (hu : unit ≠ 0) (hp : precision ≠ 0)
    {n : ℤ} (hn : |n| ≤ 2 ^ 31) :
    gridFl fl (fl (unit / precision)) (fl (fl (precision / unit) * n)) = n := by
  apply C86_on_grid hfl hu hp hn
  obtain ⟨t1, h1, e1⟩ := nearest_factor hfl (precision / unit)
  obtain ⟨t2, h2, e2⟩ := nearest_factor hfl (fl (precision / unit) * n)
  rw [e2, e1]
  have e : precision / unit * t1 * n * t2 - n * (precision / unit)
      = n * (precision / unit) * (t1 * t2 - 1) := by ring
  rw [e, abs_mul]
  refine mul_le_div_pow (abs_nonneg _) ((factor_mul h1 h2).trans ?_)
  norm_num

/-- **C86.** The same with `units="import"`, although the unit of the library may not be the unit with
which the file was written. -/
theorem C86_import (hfl : Nearest fl) {unit precision : ℚ} (hu : unit ≠ 0) (hp : precision ≠ 0)
    {n : ℤ} (hn : |n| ≤ 2 ^ 31) :
    gridFl fl (fl (fl (precision / fl (precision / unit)) / precision)) (fl (fl (precision / unit) * n)) = n ∧
    |fl (precision / fl (precision / unit)) - unit| ≤ |unit| / 2 ^ 51 := by
  obtain ⟨t1, h1, e1⟩ := nearest_factor hfl (precision / unit)
  have ht1 : t1 ≠ 0 := by
    rintro rfl
    norm_num at h1
  have hf : fl (precision / unit) ≠ 0 := by
    rw [e1]
    exact mul_ne_zero (div_ne_zero hp hu) ht1
  obtain ⟨t2, h2, e2⟩ := nearest_factor hfl (precision / fl (precision / unit))
  have ht2 : t2 ≠ 0 := by
    rintro rfl
    norm_num at h2
  refine ⟨?_, ?_⟩
  · apply C86_on_grid hfl (by rw [e2]; exact mul_ne_zero (div_ne_zero hp hf) ht2) hp hn
    obtain ⟨t3, h3, e3⟩ := nearest_factor hfl (fl (precision / unit) * n)
    rw [e3]
    have e4 : precision / fl (precision / fl (precision / unit)) = fl (precision / unit) * t2⁻¹ := by
      rw [e2]
      field_simp
    rw [e4]
    have e : fl (precision / unit) * n * t3 - n * (fl (precision / unit) * t2⁻¹)
        = n * (fl (precision / unit) * t2⁻¹) * (t3 * t2 - 1) := by
      field_simp
    rw [e, abs_mul]
    refine mul_le_div_pow (abs_nonneg _) ((factor_mul h3 h2).trans ?_)
    norm_num
  · have e : fl (precision / fl (precision / unit)) - unit = unit * (t1⁻¹ * t2 - 1) := by
      rw [e2, e1]
      field_simp
    rw [e, abs_mul]
    refine mul_le_div_pow (abs_nonneg _) ((factor_mul (factor_inv h1 (by norm_num)) h2).trans ?_)
    norm_num

/-- **C86.** With `units="convert"` into a library whose precision is `k` times finer, up to rounding
errors, the numbers are multiplied by `k`. -/
theorem C86_convert (hfl : Nearest fl) {unit precision fine : ℚ} (hu : unit ≠ 0)
    (hq : fine ≠ 0) {k n : ℤ} (hk : |precision / fine - k| ≤ |(k : ℚ)| / 2 ^ 52) (hn : |k * n| ≤ 2 ^ 31) :
    gridFl fl (fl (unit / fine)) (fl (fl (precision / unit) * n)) = k * n := by
  apply C86_on_grid hfl hu hq hn
  obtain ⟨t1, h1, e1⟩ := nearest_factor hfl (precision / unit)
  obtain ⟨t2, h2, e2⟩ := nearest_factor hfl (fl (precision / unit) * n)
  rw [e2, e1]
  push_cast
  have h3 := factor_mul h1 h2
  have e : precision / unit * t1 * n * t2 - k * n * (fine / unit)
      = n * (fine / unit) * ((precision / fine) * (t1 * t2 - 1) + (precision / fine - k)) := by
    field_simp
    ring
  have e' : |(k : ℚ) * n * (fine / unit)| = |n * (fine / unit)| * |(k : ℚ)| := by
    rw [← abs_mul]
    congr 1
    ring
  rw [e, abs_mul, e', mul_div_assoc]
  refine mul_le_mul_of_nonneg_left ?_ (abs_nonneg _)
  have h4 : |precision / fine| ≤ |(k : ℚ)| * 2 := by
    have := abs_sub_abs_le_abs_sub (precision / fine) (k : ℚ)
    have := abs_nonneg (k : ℚ)
    have : |(k : ℚ)| / 2 ^ 52 ≤ |(k : ℚ)| := div_le_self (abs_nonneg _) (by norm_num)
    linarith
  refine (abs_add_le _ _).trans ?_
  rw [abs_mul]
  have h5 : |precision / fine| * |t1 * t2 - 1| ≤ |(k : ℚ)| * 2 * (1 / 2 ^ 53 + 1 / 2 ^ 53 + 1 / 2 ^ 53 * (1 / 2 ^ 53)) :=
    mul_le_mul h4 h3 (abs_nonneg _) (by positivity)
  have := abs_nonneg (k : ℚ)
  nlinarith

/-- **C86.** Arrays without rotation and reflection: the corner of an array that is read is written
again as it was. -/
theorem C86_array (hfl : Nearest fl) {unit precision : ℚ} (hu : unit ≠ 0) (hp : precision ≠ 0)
    {n0 n2 count : ℤ} (h0 : |n0| ≤ 2 ^ 31) (h2 : |n2| ≤ 2 ^ 31) (hc : count ≠ 0) :
    cornerFl fl (fl (unit / precision)) (fl (fl (precision / unit) * n0)) count
      (spacingFl fl (fl (precision / unit)) count n0 n2) = n2 := by
  unfold cornerFl spacingFl gridFl
  obtain ⟨f, hf, ef⟩ := nearest_factor hfl (precision / unit)
  obtain ⟨b0, hb0, eb0⟩ := nearest_factor hfl (fl (precision / unit) * n0)
  obtain ⟨b2, hb2, eb2⟩ := nearest_factor hfl (fl (precision / unit) * n2)
  obtain ⟨t1, ht1, et1⟩ := nearest_factor hfl (fl (fl (precision / unit) * n2) - fl (fl (precision / unit) * n0))
  obtain ⟨t2, ht2, et2⟩ := nearest_factor hfl
    (fl (fl (fl (precision / unit) * n2) - fl (fl (precision / unit) * n0)) / count)
  obtain ⟨t3, ht3, et3⟩ := nearest_factor hfl
    (count * fl (fl (fl (fl (precision / unit) * n2) - fl (fl (precision / unit) * n0)) / count))
  obtain ⟨t4, ht4, et4⟩ := nearest_factor hfl (fl (fl (precision / unit) * n0)
    + fl (count * fl (fl (fl (fl (precision / unit) * n2) - fl (fl (precision / unit) * n0)) / count)))
  obtain ⟨t5, ht5, et5⟩ := nearest_factor hfl (unit / precision)
  obtain ⟨t6, ht6, et6⟩ := nearest_factor hfl (fl (fl (fl (precision / unit) * n0)
    + fl (count * fl (fl (fl (fl (precision / unit) * n2) - fl (fl (precision / unit) * n0)) / count)))
    * fl (unit / precision))
  have hc' : (count : ℚ) ≠ 0 := by exact_mod_cast hc
  rw [et6, et4, et3, et2, et1, eb2, eb0, ef, et5]
  apply pyRound_eq
  have e : (precision / unit * f * n0 * b0 + count * ((precision / unit * f * n2 * b2
        - precision / unit * f * n0 * b0) * t1 / count * t2) * t3) * t4 * (unit / precision * t5) * t6 - n2
      = n2 * (f * b2 * t4 * t5 * t6 - 1)
        + (n2 * (f * b2) - n0 * (f * b0)) * ((t1 * t2 * t3 - 1) * (t4 * t5 * t6)) := by
    field_simp
    ring
  rw [e]
  have hT : |t4 * t5 * t6 - 1| ≤ 1 := (factor_mul (factor_mul ht4 ht5) ht6).trans (by norm_num)
  have hT2 : |t4 * t5 * t6| ≤ 2 := by
    have := abs_sub_abs_le_abs_sub (t4 * t5 * t6) 1
    rw [abs_one] at this
    linarith
  have h1 : |f * b2 * t4 * t5 * t6 - 1| ≤ 1 / 2 ^ 50 :=
    (factor_mul (factor_mul (factor_mul (factor_mul hf hb2) ht4) ht5) ht6).trans (by norm_num)
  have h3 : |t1 * t2 * t3 - 1| ≤ 1 / 2 ^ 51 := (factor_mul (factor_mul ht1 ht2) ht3).trans (by norm_num)
  have ha : ∀ b : ℚ, |b - 1| ≤ 1 / 2 ^ 53 → |f * b| ≤ 2 := by
    intro b hb
    have h := (factor_mul hf hb).trans (show _ ≤ (1 : ℚ) by norm_num)
    have := abs_sub_abs_le_abs_sub (f * b) 1
    rw [abs_one] at this
    linarith
  have hn0 : |(n0 : ℚ)| ≤ 2 ^ 31 := by exact_mod_cast h0
  have hn2 : |(n2 : ℚ)| ≤ 2 ^ 31 := by exact_mod_cast h2
  have k1 : |(n2 : ℚ) * (f * b2 * t4 * t5 * t6 - 1)| ≤ 2 ^ 31 * (1 / 2 ^ 50) := by
    rw [abs_mul]
    exact mul_le_mul hn2 h1 (abs_nonneg _) (by norm_num)
  have k2 : |(n2 : ℚ) * (f * b2) - n0 * (f * b0)| ≤ 2 ^ 31 * 2 + 2 ^ 31 * 2 := by
    refine (abs_sub _ _).trans (add_le_add ?_ ?_)
    · rw [abs_mul]
      exact mul_le_mul hn2 (ha _ hb2) (abs_nonneg _) (by norm_num)
    · rw [abs_mul]
      exact mul_le_mul hn0 (ha _ hb0) (abs_nonneg _) (by norm_num)
  have k3 : |(t1 * t2 * t3 - 1) * (t4 * t5 * t6)| ≤ 1 / 2 ^ 51 * 2 := by
    rw [abs_mul]
    exact mul_le_mul h3 hT2 (abs_nonneg _) (by norm_num)
  have k4 := mul_le_mul k2 k3 (abs_nonneg _) (by norm_num)
  rw [← abs_mul] at k4
  refine (abs_add_le _ _).trans_lt ((add_le_add k1 k4).trans_lt ?_)
  norm_num

/-- The multiplier of the default units is less than 1000. -/
theorem default_multiplier : toDouble (toDouble (1 / 10 ^ 6) / toDouble (1 / 10 ^ 9))
    = 1000 - 1 / 2 ^ 43 := by
  decide +kernel

/-- **C86 (violated).** With the default unit 1e-6 and precision 1e-9, a `RobustPath` stored as a path
loses a nanometre at every coordinate that is a positive whole number of micrometres. All other elements,
and its own width, are stored as given (C86_decimals). -/
theorem C86_robust_off_by_one {n : ℤ} (h1 : 1 ≤ n) (hn : n ≤ 2147483) :
    truncFl toDouble (toDouble (toDouble (1 / 10 ^ 6) / toDouble (1 / 10 ^ 9))) n = 1000 * n - 1 := by
  rw [default_multiplier]
  unfold truncFl
  set y : ℚ := (n : ℚ) * (1000 - 1 / 2 ^ 43) with hy
  obtain ⟨N, rfl⟩ : ∃ N : ℕ, n = N := ⟨n.toNat, by omega⟩
  have hN : 1 ≤ N ∧ N ≤ 2147483 := by omega
  set k : ℕ := Nat.log 2 (1000 * N) with hk
  have l1 : 2 ^ k ≤ 1000 * N := Nat.pow_log_le_self 2 (by omega)
  have l2 : 1000 * N < 2 ^ (k + 1) := Nat.lt_pow_succ_log_self (by norm_num) _
  have l3 : k < 32 := by
    by_contra hc
    have : 2 ^ 32 ≤ 2 ^ k := Nat.pow_le_pow_right (by norm_num) (by omega)
    omega
  have q1 : (2 : ℚ) ^ k ≤ 1000 * N := by exact_mod_cast l1
  have q2 : (1 : ℚ) ≤ N := by exact_mod_cast hN.1
  have q3 : (N : ℚ) ≤ 2147483 := by exact_mod_cast hN.2
  -- a double below `1000 * n`
  have hd : IsDouble (1000 * N - 2 ^ k / 2 ^ 52) := by
    refine ⟨1000 * N * 2 ^ (52 - k) - 1, (k : ℤ) - 52, ?_, ?_⟩
    · have hlt : 1000 * N * 2 ^ (52 - k) < 2 ^ 53 := by
        have := Nat.mul_lt_mul_of_pos_right l2 (show 0 < 2 ^ (52 - k) by positivity)
        rwa [← pow_add, show k + 1 + (52 - k) = 53 by omega] at this
      have hge : 1 ≤ 1000 * N * 2 ^ (52 - k) := Nat.mul_pos (by omega) (by positivity)
      rw [abs_lt]
      constructor
      · have : (1 : ℤ) ≤ 1000 * N * 2 ^ (52 - k) := by exact_mod_cast hge
        omega
      · have : (1000 * N * 2 ^ (52 - k) : ℤ) < 2 ^ 53 := by exact_mod_cast hlt
        omega
    · have e : (2 : ℚ) ^ ((k : ℤ) - 52) = 2 ^ k / 2 ^ 52 := by
        rw [zpow_sub₀ (by norm_num)]
        norm_cast
      have e2 : (2 : ℚ) ^ (52 - k) * 2 ^ k = 2 ^ 52 := by
        rw [← pow_add]
        congr 1
        omega
      rw [e]
      push_cast
      have : (1000 * (N : ℚ) * 2 ^ (52 - k) - 1) * (2 ^ k / 2 ^ 52)
          = 1000 * N * ((2 : ℚ) ^ (52 - k) * 2 ^ k) / 2 ^ 52 - 2 ^ k / 2 ^ 52 := by ring
      rw [this, e2]
      ring
  have hy' : y = 1000 * N - N / 2 ^ 43 := by
    rw [hy]
    push_cast
    ring
  have near : |toDouble y - y| < N / 2 ^ 43 := by
    refine (toDouble_nearest.nearest y _ hd).trans_lt ?_
    rw [hy', abs_lt]
    constructor
    · have : (2 : ℚ) ^ k / 2 ^ 52 < N / 2 ^ 43 + N / 2 ^ 43 := by
        rw [div_lt_iff₀ (by norm_num)]
        have e : ((N : ℚ) / 2 ^ 43 + N / 2 ^ 43) * 2 ^ 52 = 1024 * N := by ring
        rw [e]
        linarith
      linarith
    · have : (0 : ℚ) < 2 ^ k / 2 ^ 52 := by positivity
      linarith
  rw [abs_lt, hy'] at near
  have hsmall : (N : ℚ) / 2 ^ 43 ≤ 1 / 4 := by
    rw [div_le_iff₀ (by norm_num)]
    linarith
  rw [← hy'] at near
  unfold pyTrunc
  rw [if_pos (by linarith), Int.floor_eq_iff]
  push_cast
  constructor <;> linarith

/-- **C86 (violated, C10).** Reading a file with `units="import"` need not give the unit with which it was
written: an example with unit 1e-7 and precision 1e-9. -/
theorem C86_import_changes_unit :
    toDouble (toDouble (1 / 10 ^ 9) / toDouble (toDouble (1 / 10 ^ 9) / toDouble (1 / 10 ^ 7)))
      ≠ toDouble (1 / 10 ^ 7) := by
  decide +kernel

/-! ### Whole files -/

theorem writeAll_congr {α : Type _} {f g : α → Py Bytes} : ∀ {l : List α}, (∀ x ∈ l, f x = g x) →
    writeAll f l = writeAll g l
  | [], _ => rfl
  | x :: l, h => by
    simp only [writeAll]
    rw [h x List.mem_cons_self, writeAll_congr fun y hy => h y (List.mem_cons_of_mem _ hy)]

theorem writeAll_map {α β : Type _} {f : β → Py Bytes} {g : α → β} : ∀ {l : List α},
    writeAll f (l.map g) = writeAll (fun x => f (g x)) l
  | [] => rfl
  | x :: l => by
    simp only [writeAll, List.map_cons]
    rw [writeAll_map]

theorem py_assoc {x y z : Py Bytes} :
    (do let a ← (do let b ← x; let c ← y; pure (b ++ c)); let d ← z; pure (a ++ d) : Py Bytes)
      = (do let b ← x; let e ← (do let c ← y; let d ← z; pure (c ++ d)); pure (b ++ e)) := by
  cases x <;> cases y <;> cases z <;>
    simp [bind, Except.bind, pure, Except.pure, List.append_assoc]

theorem writeAll_append {α : Type _} {f : α → Py Bytes} : ∀ {l k : List α},
    writeAll f (l ++ k) = (do let a ← writeAll f l; let b ← writeAll f k; pure (a ++ b))
  | [], k => by
    simp only [List.nil_append, writeAll]
    cases writeAll f k <;> rfl
  | x :: l, k => by
    simp only [writeAll, List.cons_append]
    rw [writeAll_append, py_assoc]

theorem writeAll_flatMap {α β : Type _} {f : β → Py Bytes} {g : α → List β} : ∀ {l : List α},
    writeAll f (l.flatMap g) = writeAll (fun x => writeAll f (g x)) l
  | [] => rfl
  | x :: l => by
    rw [List.flatMap_cons, writeAll_append, writeAll_flatMap]
    rfl

theorem writeAll_one {α : Type _} {f : α → Py Bytes} {x : α} : writeAll f [x] = f x := by
  simp only [writeAll]
  cases f x <;> simp [bind, Except.bind, pure, Except.pure]

/-! The writers use the coordinates through `pyRound`. -/

/-- Two functions that agree up to rounding. -/
theorem gridPoints_map {g : ℚ → ℚ} (l : List (ℚ × ℚ)) :
    gridPoints 1 (l.map (pairMap g)) = gridPoints 1 (l.map (pairMap fun x => (pyRound (g x) : ℚ))) := by
  unfold gridPoints
  rw [List.flatMap_map, List.flatMap_map]
  congr 1
  funext p
  simp only [pairMap, mul_one, pyRound_int]

theorem polygonSet_round {g : ℚ → ℚ} (s : PolygonSet) :
    (s.mapC g).toGds 1 = (s.mapC fun x => (pyRound (g x) : ℚ)).toGds 1 := by
  unfold PolygonSet.toGds PolygonSet.mapC
  rw [writeAll_map, writeAll_map]
  apply writeAll_congr
  intro p _
  unfold writePoly writePolyHead
  simp only [List.length_map, gridPoints_map (g := g)]

theorem writeEnds_round {g : ℚ → ℚ} (e : Ends) :
    writeEnds 1 (e.mapC g) = writeEnds 1 (e.mapC fun x => (pyRound (g x) : ℚ)) := by
  cases e <;> simp [Ends.mapC, writeEnds, pyRound_int]

theorem pathtype_mapC {g : ℚ → ℚ} (e : Ends) : (e.mapC g).pathtype = e.pathtype := by
  cases e <;> rfl

theorem subPath_round {g : ℚ → ℚ} (sign : Int) (props : Properties) (s : SubPath) :
    writeSubPath 1 sign props (s.mapC g)
      = writeSubPath 1 sign props (s.mapC fun x => (pyRound (g x) : ℚ)) := by
  unfold writeSubPath writeSpine SubPath.mapC
  simp only [List.length_map, gridPoints_map (g := g), writeEnds_round (g := g), pathtype_mapC, mul_one,
    pyRound_int]

theorem pathEl_round {g : ℚ → ℚ} (p : PathEl) :
    (p.mapC g).toGds 1 = (p.mapC fun x => (pyRound (g x) : ℚ)).toGds 1 := by
  cases p with
  | gds p =>
    unfold PathEl.mapC PathEl.toGds GdsPath.toGds
    simp only
    rw [writeAll_map, writeAll_map]
    exact writeAll_congr fun s _ => subPath_round _ _ s
  | outline s => exact polygonSet_round s

theorem label_round {g : ℚ → ℚ} (b : Label) :
    (b.mapC g).toGds 1 = (b.mapC fun x => (pyRound (g x) : ℚ)).toGds 1 := by
  unfold Label.toGds Label.mapC pairMap
  simp only [mul_one, pyRound_int]

theorem ref_round {trig : ℚ → ℚ × ℚ} {g : ℚ → ℚ} (r : Ref) (hr : r.array = none) :
    (r.mapC g).toGds trig 1 = (r.mapC fun x => (pyRound (g x) : ℚ)).toGds trig 1 := by
  unfold Ref.toGds Ref.mapC writeRefXY pairMap
  simp only [hr, mul_one, pyRound_int]

theorem cell_round {trig : ℚ → ℚ × ℚ} {g : ℚ → ℚ} {ts : Timestamp} (c : Cell)
    (hr : ∀ r ∈ c.references, r.array = none) :
    (c.mapC g).toGds trig 1 ts = (c.mapC fun x => (pyRound (g x) : ℚ)).toGds trig 1 ts := by
  have h1 : writeAll (PolygonSet.toGds 1) (c.mapC g).polygons
      = writeAll (PolygonSet.toGds 1) (c.mapC fun x => (pyRound (g x) : ℚ)).polygons := by
    simp only [Cell.mapC]
    rw [writeAll_map, writeAll_map]
    exact writeAll_congr fun s _ => polygonSet_round s
  have h2 : writeAll (PathEl.toGds 1) (c.mapC g).paths
      = writeAll (PathEl.toGds 1) (c.mapC fun x => (pyRound (g x) : ℚ)).paths := by
    simp only [Cell.mapC]
    rw [writeAll_map, writeAll_map]
    exact writeAll_congr fun s _ => pathEl_round s
  have h3 : writeAll (Label.toGds 1) (c.mapC g).labels
      = writeAll (Label.toGds 1) (c.mapC fun x => (pyRound (g x) : ℚ)).labels := by
    simp only [Cell.mapC]
    rw [writeAll_map, writeAll_map]
    exact writeAll_congr fun s _ => label_round s
  have h4 : writeAll (Ref.toGds trig 1) (c.mapC g).references
      = writeAll (Ref.toGds trig 1) (c.mapC fun x => (pyRound (g x) : ℚ)).references := by
    simp only [Cell.mapC]
    rw [writeAll_map, writeAll_map]
    exact writeAll_congr fun s hs => ref_round s (hr s hs)
  unfold Cell.toGds
  rw [h1, h2, h3, h4]
  first | done | rfl

/-! Composition. -/

theorem pairMap_comp {g h : ℚ → ℚ} (p : ℚ × ℚ) : pairMap g (pairMap h p) = pairMap (fun x => g (h x)) p := rfl

theorem cell_mapC_comp {g h : ℚ → ℚ} (c : Cell) : (c.mapC h).mapC g = c.mapC fun x => g (h x) := by
  have hps : ∀ s : PolygonSet, (s.mapC h).mapC g = s.mapC fun x => g (h x) := by
    intro s
    simp [PolygonSet.mapC, pairMap]
  have he : ∀ e : Ends, (e.mapC h).mapC g = e.mapC fun x => g (h x) := by
    intro e
    cases e <;> rfl
  unfold Cell.mapC
  simp only [List.map_map, Cell.mk.injEq, true_and]
  refine ⟨?_, ?_, ?_, ?_⟩
  · exact List.map_congr_left fun s _ => hps s
  · apply List.map_congr_left
    intro p _
    cases p with
    | gds p => simp [PathEl.mapC, SubPath.mapC, he, pairMap]
    | outline s => exact congrArg PathEl.outline (hps s)
  · exact List.map_congr_left fun s _ => rfl
  · exact List.map_congr_left fun s _ => rfl

/-- Scaling is an example, without arrays. -/
theorem cell_scaled_mapC {k : ℚ} (c : Cell) (hr : ∀ r ∈ c.references, r.array = none) :
    c.scaled k = c.mapC fun x => k * x := by
  unfold Cell.scaled Cell.mapC
  simp only [Cell.mk.injEq, true_and]
  refine ⟨rfl, ?_, rfl, ?_⟩
  · apply List.map_congr_left
    intro p _
    cases p with
    | gds p =>
      unfold PathEl.scaled PathEl.mapC GdsPath.scaled
      congr 2
    | outline s => rfl
  · apply List.map_congr_left
    intro r h
    unfold Ref.scaled Ref.mapC
    rw [hr r h]
    rfl

theorem imported_mapC {g : ℚ → ℚ} {a : ReadArgs} {names : List Str} (c : Cell) :
    ((c.imported a).resolvedIn names).mapC g = ((c.mapC g).imported a).resolvedIn names := by
  have hps : ∀ s : PolygonSet, (s.imported a).map (PolygonSet.mapC g) = (s.mapC g).imported a := by
    intro s
    simp [PolygonSet.mapC, PolygonSet.imported]
  have he : ∀ e : Ends, (endsImported e).mapC g = endsImported (e.mapC g) := by
    intro e
    cases e <;> rfl
  unfold Cell.imported Cell.resolvedIn Cell.mapC
  simp only [Cell.mk.injEq, true_and, List.map_append, List.map_flatMap, List.flatMap_map, List.map_map]
  refine ⟨?_, ?_, ?_, ?_⟩
  · congr 1
    · exact List.flatMap_congr fun s _ => hps s
    · apply List.flatMap_congr
      intro p _
      cases p with
      | gds p => rfl
      | outline s => exact hps s
  · apply List.flatMap_congr
    intro p _
    cases p with
    | gds p => simp [PathEl.asPaths, PathEl.mapC, GdsPath.imported, SubPath.mapC, he]
    | outline s => rfl
  · exact List.map_congr_left fun s _ => rfl
  · apply List.map_congr_left
    intro r _
    simp only [Function.comp, Ref.imported, Ref.resolvedIn, Ref.mapC]
    split
    · rfl
    · rfl

/-- Cells of integers that fit the file are not changed by functions that fix such integers. -/
theorem cell_mapC_fixed {trig : ℚ → ℚ × ℚ} {g : ℚ → ℚ} (hg : ∀ n : ℤ, -2147483648 ≤ n → n < 2147483648 → g n = n)
    {c : Cell} (hc : c.Good trig 1 1) : c.mapC g = c := by
  have hx : ∀ x, OnGrid 1 1 x → g x = x := by
    rintro x ⟨n, rfl, -, h1, h2⟩
    rw [one_mul]
    exact hg n h1 h2
  have hp : ∀ p, OnGrid2 1 1 p → pairMap g p = p := by
    rintro ⟨x, y⟩ ⟨h1, h2⟩
    exact Prod.ext (hx _ h1) (hx _ h2)
  have hps : ∀ s : PolygonSet, s.Good 1 1 → s.mapC g = s := by
    intro s hs
    obtain ⟨polys, props⟩ := s
    unfold PolygonSet.mapC
    simp only [PolygonSet.mk.injEq, and_true]
    conv_rhs => rw [← List.map_id polys]
    apply List.map_congr_left
    intro p hp'
    obtain ⟨pts, l, d⟩ := p
    simp only [id, Poly.mk.injEq, and_true]
    conv_rhs => rw [← List.map_id pts]
    exact List.map_congr_left fun q hq => hp q ((hs.points _ hp').2 q hq)
  obtain ⟨nm, polys, paths, labels, refs⟩ := c
  unfold Cell.mapC
  simp only [Cell.mk.injEq, true_and]
  refine ⟨?_, ?_, ?_, ?_⟩
  · conv_rhs => rw [← List.map_id polys]
    exact List.map_congr_left fun s hs => hps s (hc.polygons s hs)
  · conv_rhs => rw [← List.map_id paths]
    apply List.map_congr_left
    intro p h
    cases p with
    | outline s => exact congrArg PathEl.outline (hps s (hc.outlines s h))
    | gds p =>
      have hgp := hc.paths p h
      obtain ⟨wt, subs, props⟩ := p
      unfold PathEl.mapC
      simp only [id, PathEl.gds.injEq, GdsPath.mk.injEq, true_and, and_true]
      conv_rhs => rw [← List.map_id subs]
      apply List.map_congr_left
      intro s hs
      have h1 := (hgp.points s hs).2
      obtain ⟨n, hn, -⟩ := hgp.width s hs
      have h3 := hgp.ends s hs
      obtain ⟨w, e, l, d, sp⟩ := s
      simp only at h1 hn h3
      simp only [SubPath.mapC, id, SubPath.mk.injEq, true_and]
      refine ⟨hx _ ⟨n, hn⟩, ?_, ?_⟩
      · cases e with
        | ext x y =>
          obtain ⟨h4, h5⟩ := h3 x y rfl
          simp only [Ends.mapC, hx _ h4, hx _ h5]
        | _ => rfl
      · conv_rhs => rw [← List.map_id sp]
        exact List.map_congr_left fun q hq => hp q (h1 q hq)
  · conv_rhs => rw [← List.map_id labels]
    apply List.map_congr_left
    intro b hb
    have := (hc.labels b hb).position
    obtain ⟨t, pos, an, ro, ma, xr, l, tt, pr⟩ := b
    simp only [Label.mapC, id, Label.mk.injEq, true_and, and_true]
    exact hp _ this
  · conv_rhs => rw [← List.map_id refs]
    apply List.map_congr_left
    intro r hr
    have := (hc.references r hr).origin
    obtain ⟨t, ar, o, ro, ma, xr, pr⟩ := r
    simp only [Ref.mapC, id, Ref.mk.injEq, true_and, and_true]
    exact hp _ this

/-- A cell as read is written like the cell itself, if its paths are stored as paths. -/
theorem imported_toGds {trig : ℚ → ℚ × ℚ} {m : ℚ} {ts : Timestamp} {a : ReadArgs} (ha : PlainArgs a)
    {names : List Str} (c : Cell) (hp : ∀ p ∈ c.paths, ∃ q, p = .gds q) :
    ((c.imported a).resolvedIn names).toGds trig m ts = c.toGds trig m ts := by
  obtain ⟨hn, hl, hd, ht⟩ := ha
  have h1 : writeAll (PolygonSet.toGds m) ((c.imported a).resolvedIn names).polygons
      = writeAll (PolygonSet.toGds m) c.polygons := by
    simp only [Cell.imported, Cell.resolvedIn]
    have e : c.paths.flatMap (PathEl.asPolygons a) = [] := by
      rw [List.flatMap_eq_nil_iff]
      intro p h
      obtain ⟨q, rfl⟩ := hp p h
      rfl
    rw [e, List.append_nil, writeAll_flatMap]
    apply writeAll_congr
    intro s _
    unfold PolygonSet.imported
    rw [writeAll_map]
    unfold PolygonSet.toGds
    apply writeAll_congr
    intro p _
    simp only [mapped_none hl, mapped_none hd]
    exact writeAll_one
  have h2 : writeAll (PathEl.toGds m) ((c.imported a).resolvedIn names).paths
      = writeAll (PathEl.toGds m) c.paths := by
    simp only [Cell.imported, Cell.resolvedIn]
    rw [writeAll_flatMap]
    apply writeAll_congr
    intro p h
    obtain ⟨q, rfl⟩ := hp p h
    simp only [PathEl.asPaths, PathEl.toGds, GdsPath.imported]
    rw [writeAll_map, writeAll_map]
    unfold GdsPath.toGds
    apply writeAll_congr
    intro s _
    simp only [PathEl.toGds, GdsPath.toGds, mapped_none hl, mapped_none hd]
    rw [writeAll_one]
    obtain ⟨w, e, l, d, sp⟩ := s
    cases e <;> rfl
  have h3 : writeAll (Label.toGds m) ((c.imported a).resolvedIn names).labels
      = writeAll (Label.toGds m) c.labels := by
    simp only [Cell.imported, Cell.resolvedIn]
    rw [writeAll_map]
    apply writeAll_congr
    intro b _
    unfold Label.imported
    rw [mapped_none hl, mapped_none ht]
  have h4 : writeAll (Ref.toGds trig m) ((c.imported a).resolvedIn names).references
      = writeAll (Ref.toGds trig m) c.references := by
    simp only [Cell.imported, Cell.resolvedIn]
    rw [writeAll_map, writeAll_map]
    apply writeAll_congr
    intro r _
    simp only [Ref.imported, Ref.resolvedIn, hn, id]
    split <;> rfl
  have h5 : ((c.imported a).resolvedIn names).name = c.name := by
    simp only [Cell.imported, Cell.resolvedIn, hn, id]
  unfold Cell.toGds
  rw [h1, h2, h3, h4, h5]

/-- The cell as the file has it: all coordinates rounded to integers. -/
def Spec.stored (fl : ℚ → ℚ) (m : ℚ) (c : Cell) : Cell := c.mapC fun x => (gridFl fl m x : ℚ)

theorem toGdsFl_stored {trig : ℚ → ℚ × ℚ} {m : ℚ} {ts : Timestamp} {c : Cell}
    (hr : ∀ r ∈ c.references, r.array = none) :
    c.toGdsFl fl trig m ts = (stored fl m c).toGds trig 1 ts := cell_round c hr

/-- A cell that was read is written as it was. -/
theorem toGdsFl_again {trig : ℚ → ℚ × ℚ} {m m' k : ℚ} {ts : Timestamp} {a : ReadArgs} (ha : PlainArgs a)
    {names : List Str} {c : Cell} (hr : ∀ r ∈ c.references, r.array = none)
    (hp : ∀ p ∈ c.paths, ∃ q, p = .gds q) (hc : (stored fl m c).Good trig 1 1)
    (hk : ∀ n : ℤ, |n| ≤ 2 ^ 31 → gridFl fl m' (fl (k * n)) = n) :
    (((((stored fl m c).scaled k).imported a).resolvedIn names).mapC fl).toGdsFl fl trig m' ts
      = c.toGdsFl fl trig m ts := by
  have hr' : ∀ r ∈ (stored fl m c).references, r.array = none := by
    intro r h
    simp only [stored, Cell.mapC, List.mem_map] at h
    obtain ⟨r0, h0, rfl⟩ := h
    exact hr r0 h0
  rw [toGdsFl_stored hr, toGdsFl_stored]
  · conv_lhs => unfold stored
    rw [imported_mapC, imported_mapC]
    change (Cell.resolvedIn names (((((stored fl m c).scaled k).mapC fl).mapC
      fun x => (gridFl fl m' x : ℚ)).imported a)).toGds trig 1 ts = (stored fl m c).toGds trig 1 ts
    rw [cell_scaled_mapC _ hr', cell_mapC_comp, cell_mapC_comp]
    have e := cell_mapC_fixed (g := fun x => (gridFl fl m' (fl (k * x)) : ℚ)) (by
      intro n h1 h2
      have := hk n (by rw [abs_le]; constructor <;> omega)
      simp only [this]) hc
    rw [e]
    apply imported_toGds ha
    intro p h
    simp only [stored, Cell.mapC, List.mem_map] at h
    obtain ⟨p0, h0, rfl⟩ := h
    obtain ⟨q, rfl⟩ := hp p0 h0
    exact ⟨_, rfl⟩
  · intro r h
    rw [imported_mapC] at h
    simp only [Cell.resolvedIn, Cell.imported, Cell.mapC, Cell.scaled, stored, List.map_map, List.mem_map] at h
    obtain ⟨r0, h0, rfl⟩ := h
    simp only [Function.comp, Ref.imported, Ref.mapC, Ref.scaled, hr r0 h0, Ref.resolvedIn]
    split <;> rfl

/-- **C86.** Saving a library, reading the file, and saving what was read gives the same bytes for
all cells (elements without arrays, paths stored as paths), whatever doubles the coordinates
were: with `units="skip"` into a library of the same units, with `units="import"`, and with
`units="convert"` into a library of the same precision. No coordinate drifts, however often this is
repeated. -/
theorem C86_resave_cells (hfl : Nearest fl) {trig : ℚ → ℚ × ℚ} {a : ReadArgs} (ha : PlainArgs a) (lib : Lib)
    (name : Str) (hname : lib.name = some name) (hn : GoodText name)
    (hu : lib.unit ≠ 0) (hp : lib.precision ≠ 0)
    (h1 : Storable (fl (lib.precision / lib.unit))) (h2 : Storable lib.precision)
    (ts : Timestamp) (hts : Spec.Timestamp.Fits ts)
    (hgood : ∀ c ∈ lib.cells, (stored fl (fl (lib.unit / lib.precision)) c).Good trig 1 1)
    (hr : ∀ c ∈ lib.cells, ∀ r ∈ c.references, r.array = none)
    (hpath : ∀ c ∈ lib.cells, ∀ p ∈ c.paths, ∃ q, p = .gds q)
    (hnd : (lib.cells.map Cell.name).Nodup)
    (lib0 : Lib) (h0 : lib0.cells = [])
    (hunits : match a.units with
      | .skip => lib0.unit = lib.unit ∧ lib0.precision = lib.precision
      | .import_ => True
      | .convert => lib0.unit ≠ 0 ∧ lib0.precision = lib.precision
      | .other => False) :
    ∃ hd body lib', writeHeader (fun x y => fl (x / y)) lib.name lib.unit lib.precision ts = .ok hd ∧
      writeGdsFl fl trig lib lib.cells ts = .ok (hd ++ body) ∧
      readGdsFl fl trig a lib0 (hd ++ body) = (lib', none) ∧
      lib'.cells.map Cell.name = lib.cells.map Cell.name ∧ lib'.name = lib.name ∧
      lib'.precision = lib.precision ∧ (a.units = .skip → lib'.unit = lib.unit) ∧
      ∀ hd', writeHeader (fun x y => fl (x / y)) lib'.name lib'.unit lib'.precision ts = .ok hd' →
        writeGdsFl fl trig lib' lib'.cells ts = .ok (hd' ++ body) := by
  set m := fl (lib.unit / lib.precision) with hm
  set cells := lib.cells.map (stored fl m) with hcells
  have hf0 : fl (lib.precision / lib.unit) ≠ 0 := by
    obtain ⟨t, ht, e⟩ := nearest_factor hfl (lib.precision / lib.unit)
    rw [e]
    refine mul_ne_zero (div_ne_zero hp hu) ?_
    rintro rfl
    norm_num at ht
  set k := headFactor (fun x y => fl (x / y)) a.units lib0 (fl (lib.precision / lib.unit)) lib.precision with hk
  obtain ⟨b1, e1, r1⟩ := header_reads (div := fun x y => fl (x / y)) (trig := trig) (a := a) name hn lib.unit
    lib.precision h1 h2 ts hts lib0 (by
      cases h : a.units with
      | skip => trivial
      | import_ => exact hf0
      | convert => rw [h] at hunits; exact hunits.1
      | other => rw [h] at hunits; exact hunits)
  obtain ⟨b2, e2, r2⟩ := cells_read (div := fun x y => fl (x / y)) (trig := trig) (a := a) (k := k)
    (m := 1) (d := 1) ts hts cells (by
      intro c hc
      obtain ⟨c0, hc0, rfl⟩ := List.mem_map.1 hc
      exact hgood c0 hc0)
  have hhead : (headLib (fun x y => fl (x / y)) a.units lib0 name (fl (lib.precision / lib.unit))
      lib.precision).cells = [] := by
    unfold headLib
    split <;> exact h0
  have hnd' : (lib0.cells.map Cell.name ++ cells.map fun c => a.nameMap c.name).Nodup := by
    rw [h0, hcells, List.map_map, ha.1]
    simpa [stored, Cell.mapC, Function.comp_def] using hnd
  obtain ⟨attr, r2⟩ := r2 (headLib (fun x y => fl (x / y)) a.units lib0 name (fl (lib.precision / lib.unit))
    lib.precision) (-1) [] (by rw [hhead]; rw [h0] at hnd'; exact hnd')
  have hw2 : writeAll (Cell.toGdsFl fl trig m ts) lib.cells = .ok b2 := by
    rw [← e2, hcells, writeAll_map]
    exact writeAll_congr fun c hc => toGdsFl_stored (hr c hc)
  set new := cells.map fun c => (c.scaled k).imported a with hnew
  have hread : readGds (fun x y => fl (x / y)) trig a lib0 (b1 ++ (b2 ++ recsBytes [recNone 4 (by norm_num)]))
      = ({ headLib (fun x y => fl (x / y)) a.units lib0 name (fl (lib.precision / lib.unit)) lib.precision with
             cells := new.map (Cell.resolvedIn (new.map Cell.name)) }, none) := by
    rw [readGds_eq]
    have hend : ∀ st, readFrom (fun x y => fl (x / y)) trig a st (recsBytes [recNone 4 (by norm_num)])
        = ({ st with lib := { st.lib with cells := resolveRefs st.created st.lib.cells } }, none) := by
      intro st
      have := readFrom_recs (div := fun x y => fl (x / y)) (trig := trig) (a := a) st _
        [recNone 4 (by norm_num)] (Run.one (step_endlib st)) []
      rw [List.append_nil] at this
      rw [this, readFrom_nil]
    rw [mul_one] at r2
    rw [r1, ← hk, r2, hend]
    refine Prod.ext ?_ rfl
    simp only [libState, hhead, List.append_nil]
    rw [resolveRefs_eq]
    · simp only [List.nil_append]
    · intro n
      simp only [List.mem_reverse, hnew, List.map_map]
      rfl
    · rw [hnew, List.map_map]
      rw [h0] at hnd'
      exact hnd'
  have hend : pack [.H 4, .H 0x0400] = .ok (recsBytes [recNone 4 (by norm_num)]) := by
    rw [pack_ok _ (by flds_ok)]
    refine congrArg Except.ok ?_
    simp [fldsBytes, Fld.bytes, recsBytes_cons, recsBytes_nil, recNone, mkFrame_bytes]
  refine ⟨b1, b2 ++ recsBytes [recNone 4 (by norm_num)],
    { headLib (fun x y => fl (x / y)) a.units lib0 name (fl (lib.precision / lib.unit)) lib.precision with
        cells := (new.map (Cell.resolvedIn (new.map Cell.name))).map (Cell.mapC fl) },
    by rw [hname]; exact e1, ?_, ?_, ?_, ?_, ?_, ?_, ?_⟩
  · unfold writeGdsFl
    rw [hname, e1, py_bind_ok, hw2, py_bind_ok, hend, py_bind_ok, py_pure, List.append_assoc]
  · unfold readGdsFl
    rw [hread]
  · simp only [hnew, hcells, List.map_map]
    apply List.map_congr_left
    intro c _
    simp [Cell.mapC, Cell.resolvedIn, Cell.imported, Cell.scaled, stored, ha.1]
  · simp only [headLib, hname]
    split <;> rfl
  · simp only [headLib]
    cases h : a.units with
    | skip => rw [h] at hunits; exact hunits.2
    | import_ => rfl
    | convert => rw [h] at hunits; exact hunits.2
    | other => rw [h] at hunits; exact hunits.elim
  · intro h
    rw [h] at hunits
    simp only [headLib, h]
    exact hunits.1
  · intro hd' hh
    unfold writeGdsFl
    rw [hh, py_bind_ok]
    have hagain : ∀ n : ℤ, |n| ≤ 2 ^ 31 → gridFl fl (fl (
        (headLib (fun x y => fl (x / y)) a.units lib0 name (fl (lib.precision / lib.unit)) lib.precision).unit /
        (headLib (fun x y => fl (x / y)) a.units lib0 name (fl (lib.precision / lib.unit)) lib.precision).precision))
        (fl (k * n)) = n := by
      intro n hn'
      rw [hk]
      simp only [headLib, headFactor]
      cases h : a.units with
      | skip =>
        rw [h] at hunits
        simp only [hunits.1, hunits.2]
        exact C86_cycle hfl hu hp hn'
      | import_ => exact (C86_import hfl hu hp hn').1
      | convert =>
        rw [h] at hunits
        simp only [hunits.2]
        exact C86_cycle hfl hunits.1 hp hn'
      | other => rw [h] at hunits; exact hunits.elim
    have hbody : writeAll (Cell.toGdsFl fl trig (fl (
        (headLib (fun x y => fl (x / y)) a.units lib0 name (fl (lib.precision / lib.unit)) lib.precision).unit /
        (headLib (fun x y => fl (x / y)) a.units lib0 name (fl (lib.precision / lib.unit)) lib.precision).precision))
        ts) ((new.map (Cell.resolvedIn (new.map Cell.name))).map (Cell.mapC fl)) = .ok b2 := by
      rw [← hw2, hnew, hcells]
      simp only [List.map_map]
      rw [writeAll_map]
      apply writeAll_congr
      intro c hc
      exact toGdsFl_again ha (hr c hc) (hpath c hc) (hgood c hc) hagain
    rw [hbody, py_bind_ok, hend, py_bind_ok, py_pure, List.append_assoc]

/-- **C86.** With `units="skip"` into a library of the same units, the whole file is the same. -/
theorem C86_resave_file (hfl : Nearest fl) {trig : ℚ → ℚ × ℚ} {a : ReadArgs} (ha : PlainArgs a) (lib : Lib)
    (name : Str) (hname : lib.name = some name) (hn : GoodText name)
    (hu : lib.unit ≠ 0) (hp : lib.precision ≠ 0)
    (h1 : Storable (fl (lib.precision / lib.unit))) (h2 : Storable lib.precision)
    (ts : Timestamp) (hts : Spec.Timestamp.Fits ts)
    (hgood : ∀ c ∈ lib.cells, (stored fl (fl (lib.unit / lib.precision)) c).Good trig 1 1)
    (hr : ∀ c ∈ lib.cells, ∀ r ∈ c.references, r.array = none)
    (hpath : ∀ c ∈ lib.cells, ∀ p ∈ c.paths, ∃ q, p = .gds q)
    (hnd : (lib.cells.map Cell.name).Nodup) (hs : a.units = .skip)
    (lib0 : Lib) (h0 : lib0.cells = []) (h3 : lib0.unit = lib.unit) (h4 : lib0.precision = lib.precision) :
    ∃ file lib', writeGdsFl fl trig lib lib.cells ts = .ok file ∧
      readGdsFl fl trig a lib0 file = (lib', none) ∧
      writeGdsFl fl trig lib' lib'.cells ts = .ok file := by
  obtain ⟨hd, body, lib', k1, k2, k3, -, k5, k6, k7, k8⟩ := C86_resave_cells hfl ha lib name hname hn hu hp h1 h2
    ts hts hgood hr hpath hnd lib0 h0 (by rw [hs]; exact ⟨h3, h4⟩)
  refine ⟨hd ++ body, lib', k2, k3, k8 hd ?_⟩
  rw [k5, k6, k7 hs]
  exact k1

example : GoodText "lib".toList ∧
    Storable (toDouble (toDouble (1 / 10 ^ 9) / toDouble (1 / 10 ^ 6))) ∧ Storable (toDouble (1 / 10 ^ 9)) ∧
    (stored toDouble (toDouble (toDouble (1 / 10 ^ 6) / toDouble (1 / 10 ^ 9)))
      ⟨"TOP".toList, [⟨[⟨[(toDouble (1 / 10), 0), (toDouble (23 / 10), 1), (toDouble (-7 / 3), toDouble (1 / 7))],
        1, 2⟩], []⟩], [], [], []⟩).Good (fun _ => (1, 0)) 1 1 := by
  have hg : ∀ n : ℤ, -2147483648 ≤ n → n < 2147483648 → OnGrid 1 1 (n : ℚ) := fun n h1 h2 =>
    ⟨n, by simp, by norm_num, h1, h2⟩
  refine ⟨⟨by decide, by decide, by decide, by decide⟩, ⟨toDouble_double _, ?_⟩, ⟨toDouble_double _, ?_⟩, ?_⟩
  · right
    constructor <;> decide +kernel
  · right
    constructor <;> decide +kernel
  · refine ⟨⟨by decide, by decide, by decide, by decide⟩, ?_, by intro p h; simp [stored, Cell.mapC] at h,
      by intro p h; simp [stored, Cell.mapC] at h, by intro p h; simp [stored, Cell.mapC] at h,
      by intro p h; simp [stored, Cell.mapC] at h⟩
    intro s hs
    simp only [stored, Cell.mapC, List.map_cons, List.map_nil, List.mem_singleton] at hs
    subst hs
    refine ⟨?_, ?_, by simp [PolygonSet.mapC, GoodProps]⟩
    · intro p hp
      simp only [PolygonSet.mapC, List.map_cons, List.map_nil, List.mem_singleton] at hp
      subst hp
      refine ⟨by simp, ?_⟩
      intro q hq
      simp only [List.mem_cons, List.not_mem_nil, or_false] at hq
      rcases hq with rfl | rfl | rfl <;> refine ⟨hg _ ?_ ?_, hg _ ?_ ?_⟩ <;> decide +kernel
    · intro p hp
      simp only [PolygonSet.mapC, List.map_cons, List.map_nil, List.mem_singleton] at hp
      subst hp
      simp [Word]

end
end Gdspy
