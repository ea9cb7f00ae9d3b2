import Verif.Props.C01

/-!
# C02: sign and layout of stored reals
-/

namespace Gdspy

open Spec

theorem packHHL_length {x y z : Int} {b : Bytes} (h : packHHL x y z = .ok b) : b.length = 8 := by
  unfold packHHL at h
  obtain ⟨p, hx, h⟩ := py_bind_eq_ok h
  obtain ⟨q, hy, h⟩ := py_bind_eq_ok h
  split at h
  · rw [py_pure] at h
    cases h
    rw [(packH_eq_ok hx).2, (packH_eq_ok hy).2]
    simp
  · cases h

/-- **C02.** The encoding always has 8 bytes. -/
theorem C02_real8_length {v : ℚ} {b : Bytes} (h : eightByteReal v = .ok b) : b.length = 8 := by
  unfold eightByteReal at h
  split at h
  · cases h; rfl
  · exact packHHL_length h

/-- **C02.** Distinct storable numbers have distinct encodings. -/
theorem C02_real8_injective {v w : ℚ} (hv : Storable v) (hw : Storable w)
    (h : eightByteReal v = eightByteReal w) : v = w := by
  obtain ⟨b, hb, _, hb'⟩ := C01_real8_roundtrip hv.1 hv.2
  obtain ⟨c, hc, _, hc'⟩ := C01_real8_roundtrip hw.1 hw.2
  rw [hb, hc] at h
  cases h
  rw [hb'] at hc'
  exact Except.ok.inj hc'

example : Storable (1 / 4) ∧ Storable (-1 / 4) :=
  ⟨⟨⟨1, -2, by norm_num, by norm_num⟩, Or.inr ⟨by rw [abs_div]; norm_num, by rw [abs_div]; norm_num⟩⟩,
   ⟨⟨-1, -2, by norm_num, by norm_num⟩,
    Or.inr ⟨by rw [abs_div, abs_neg]; norm_num, by rw [abs_div, abs_neg]; norm_num⟩⟩⟩

/-- **C02.** Zero is eight zero bytes. -/
theorem C02_real8_zero : eightByteReal 0 = .ok (List.replicate 8 0) := by
  simp [eightByteReal, List.replicate]

/-- **C02.** Negating a storable number changes only the top bit of the first byte. -/
theorem C02_real8_neg {v : ℚ} (hv : 0 < v) (hr : InRange v) :
    ∃ (x : Nat) (t : Bytes), x < 128 ∧ eightByteReal v = .ok (UInt8.ofNat x :: t) ∧
      eightByteReal (-v) = .ok (UInt8.ofNat (x + 128) :: t) := by
  obtain ⟨h1, _, h3, h4⟩ := storable_exponent hv.ne' hr
  obtain ⟨m, hm, hmlt⟩ := mantissa_bound h1
  obtain ⟨t, _, ht⟩ := packHHL_bytes hmlt
  have hm' : ⌊|(-v)| * (16 : ℚ) ^ (14 - realExponent |v|)⌋ = (m : Int) := by rw [abs_neg]; exact hm
  obtain ⟨x, hx⟩ : ∃ x : Nat, realExponent |v| + 64 = (x : Int) :=
    ⟨_, (Int.toNat_of_nonneg (by omega)).symm⟩
  refine ⟨x, t, by omega, ?_, ?_⟩
  · unfold eightByteReal
    rw [if_neg hv.ne', if_neg_eq_abs, eightByteRealAt_eq hm, if_neg (by linarith), zero_add, hx,
      ht x (by omega)]
  · unfold eightByteReal
    rw [if_neg (by linarith), if_neg_eq_abs, abs_neg, eightByteRealAt_eq hm', if_pos (by linarith),
      hx]
    have : (128 + (x : Int)) = ((x + 128 : Nat) : Int) := by push_cast; ring
    rw [this, ht _ (by omega)]

example : (0 : ℚ) < 5 / 2 ∧ InRange (5 / 2) :=
  ⟨by norm_num, Or.inr ⟨by rw [abs_div]; norm_num, by rw [abs_div]; norm_num⟩⟩

theorem exponent_bounds {v : ℚ} (hv : v ≠ 0) :
    |v| < (16 : ℚ) ^ (realExponent |v|) ∧ (16 : ℚ) ^ (realExponent |v| - 1) ≤ |v| := by
  have hpos : 0 < |v| := abs_pos.2 hv
  constructor
  · have := Int.lt_zpow_succ_log_self (R := ℚ) (b := 16) (by norm_num) |v|
    exact_mod_cast this
  · have := Int.zpow_log_le_self (R := ℚ) (b := 16) (by norm_num) hpos
    simp only [realExponent, add_sub_cancel_right]
    exact_mod_cast this

/-- **C02, disagreement.** Positive numbers of 16^63 and above (up to 16^127) are not rejected:
the exponent spills into the sign bit and a negative number is stored. -/
theorem C02_real8_overflow_corrupts {v : ℚ} (h1 : (16 : ℚ) ^ (63 : ℤ) ≤ v)
    (h2 : v < (16 : ℚ) ^ (127 : ℤ)) :
    ∃ b d, eightByteReal v = .ok b ∧ eightByteRealToFloat b = .ok d ∧ d < 0 := by
  have hpos : 0 < v := lt_of_lt_of_le (zpow_pos (by norm_num) _) h1
  obtain ⟨hu, hl⟩ := exponent_bounds hpos.ne'
  have habs : |v| = v := abs_of_pos hpos
  have e1 : 63 < realExponent |v| := by
    rw [habs] at hu ⊢
    exact (zpow_lt_zpow_iff_right₀ (by norm_num : (1 : ℚ) < 16)).1 (lt_of_le_of_lt h1 hu)
  have e2 : realExponent |v| - 1 < 127 := by
    rw [habs] at hl ⊢
    exact (zpow_lt_zpow_iff_right₀ (by norm_num : (1 : ℚ) < 16)).1 (lt_of_le_of_lt hl h2)
  obtain ⟨m, hm, hmlt⟩ := mantissa_bound hu
  have hmpos : 0 < m := by
    have : (1 : ℤ) ≤ ⌊|v| * (16 : ℚ) ^ (14 - realExponent |v|)⌋ := by
      rw [Int.le_floor]
      push_cast
      have hq : (0 : ℚ) < (16 : ℚ) ^ (14 - realExponent |v|) := zpow_pos (by norm_num) _
      calc (1 : ℚ) ≤ (16 : ℚ) ^ (13 : ℤ) := by norm_num
        _ = (16 : ℚ) ^ (realExponent |v| - 1) * (16 : ℚ) ^ (14 - realExponent |v|) := by
            rw [← zpow_add₀ (by norm_num)]; congr 1; ring
        _ ≤ _ := mul_le_mul_of_nonneg_right hl hq.le
    omega
  obtain ⟨b1, hb1⟩ : ∃ b1 : Nat, realExponent |v| + 64 = (b1 : Int) :=
    ⟨_, (Int.toNat_of_nonneg (by omega)).symm⟩
  obtain ⟨bs, g1, _, g2⟩ := packHHL_decode b1 m (by omega) hmlt
  refine ⟨bs, _, ?_, g2, ?_⟩
  · unfold eightByteReal
    rw [if_neg hpos.ne', if_neg_eq_abs, eightByteRealAt_eq hm, if_neg (by linarith), zero_add, hb1,
      g1]
  · rw [if_pos (by omega)]
    have hp : (0 : ℚ) < (16 : ℚ) ^ (((b1 % 128 : Nat) : Int) - 64) := zpow_pos (by norm_num) _
    have : (0 : ℚ) < (m : ℚ) / 72057594037927936 := by positivity
    nlinarith [mul_pos this hp]

example : (16 : ℚ) ^ (63 : ℤ) ≤ 16 ^ 64 ∧ (16 : ℚ) ^ 64 < (16 : ℚ) ^ (127 : ℤ) := by
  constructor <;> norm_num

/-- **C02.** Negative numbers of -16^63 and below raise `struct.error`. -/
theorem C02_real8_negative_overflow_raises {v : ℚ} (h1 : v ≤ -(16 : ℚ) ^ (63 : ℤ)) :
    eightByteReal v = .error .structError := by
  have hneg : v < 0 := by
    have : (0 : ℚ) < (16 : ℚ) ^ (63 : ℤ) := zpow_pos (by norm_num) _
    linarith
  obtain ⟨hu, hl⟩ := exponent_bounds hneg.ne
  have e1 : 63 < realExponent |v| := by
    have hle : (16 : ℚ) ^ (63 : ℤ) ≤ |v| := by rw [abs_of_neg hneg]; linarith
    exact (zpow_lt_zpow_iff_right₀ (by norm_num : (1 : ℚ) < 16)).1 (lt_of_le_of_lt hle hu)
  obtain ⟨m, hm, hmlt⟩ := mantissa_bound hu
  unfold eightByteReal
  rw [if_neg hneg.ne, if_neg_eq_abs, eightByteRealAt_eq hm, if_pos hneg]
  unfold packHHL packH
  rw [if_neg (by omega), py_bind_error]

example : (-(16 : ℚ) ^ 70) ≤ -(16 : ℚ) ^ (63 : ℤ) := by norm_num

/-- **C02.** Positive non-zero numbers below 16^-65 raise `struct.error`. -/
theorem C02_real8_underflow_raises {v : ℚ} (h0 : 0 < v) (h1 : v < (16 : ℚ) ^ (-65 : ℤ)) :
    eightByteReal v = .error .structError := by
  obtain ⟨hu, hl⟩ := exponent_bounds h0.ne'
  have e1 : realExponent |v| - 1 < -65 := by
    rw [abs_of_pos h0] at hl ⊢
    exact (zpow_lt_zpow_iff_right₀ (by norm_num : (1 : ℚ) < 16)).1 (lt_of_le_of_lt hl h1)
  obtain ⟨m, hm, hmlt⟩ := mantissa_bound hu
  unfold eightByteReal
  rw [if_neg h0.ne', if_neg_eq_abs, eightByteRealAt_eq hm, if_neg (by linarith), zero_add]
  unfold packHHL packH
  rw [if_neg (by omega), py_bind_error]

example : (0 : ℚ) < (1 / 16) ^ 70 ∧ ((1 : ℚ) / 16) ^ 70 < (16 : ℚ) ^ (-65 : ℤ) := by
  constructor <;> norm_num

/-- **C02, disagreement.** Tiny negative numbers (below 16^-65 in magnitude, above 16^-193) are
silently stored as *positive* numbers. -/
theorem C02_real8_negative_underflow_corrupts {v : ℚ} (h1 : -(16 : ℚ) ^ (-65 : ℤ) < v)
    (h2 : v ≤ -(16 : ℚ) ^ (-193 : ℤ)) :
    ∃ b d, eightByteReal v = .ok b ∧ eightByteRealToFloat b = .ok d ∧ 0 < d := by
  have hneg : v < 0 := by
    have : (0 : ℚ) < (16 : ℚ) ^ (-193 : ℤ) := zpow_pos (by norm_num) _
    linarith
  obtain ⟨hu, hl⟩ := exponent_bounds hneg.ne
  have habs : |v| = -v := abs_of_neg hneg
  have e1 : realExponent |v| - 1 < -65 :=
    (zpow_lt_zpow_iff_right₀ (by norm_num : (1 : ℚ) < 16)).1
      (lt_of_le_of_lt hl (by rw [habs]; linarith))
  have e2 : -193 < realExponent |v| :=
    (zpow_lt_zpow_iff_right₀ (by norm_num : (1 : ℚ) < 16)).1
      (lt_of_le_of_lt (by rw [habs]; linarith) hu)
  obtain ⟨m, hm, hmlt⟩ := mantissa_bound hu
  have hmpos : 0 < m := by
    have : (1 : ℤ) ≤ ⌊|v| * (16 : ℚ) ^ (14 - realExponent |v|)⌋ := by
      rw [Int.le_floor]
      push_cast
      have hq : (0 : ℚ) < (16 : ℚ) ^ (14 - realExponent |v|) := zpow_pos (by norm_num) _
      calc (1 : ℚ) ≤ (16 : ℚ) ^ (13 : ℤ) := by norm_num
        _ = (16 : ℚ) ^ (realExponent |v| - 1) * (16 : ℚ) ^ (14 - realExponent |v|) := by
            rw [← zpow_add₀ (by norm_num)]; congr 1; ring
        _ ≤ _ := mul_le_mul_of_nonneg_right hl hq.le
    omega
  obtain ⟨b1, hb1⟩ : ∃ b1 : Nat, 128 + (realExponent |v| + 64) = (b1 : Int) :=
    ⟨_, (Int.toNat_of_nonneg (by omega)).symm⟩
  obtain ⟨bs, g1, _, g2⟩ := packHHL_decode b1 m (by omega) hmlt
  refine ⟨bs, _, ?_, g2, ?_⟩
  · unfold eightByteReal
    rw [if_neg hneg.ne, if_neg_eq_abs, eightByteRealAt_eq hm, if_pos hneg, hb1, g1]
  · rw [if_neg (by omega)]
    have hp : (0 : ℚ) < (16 : ℚ) ^ (((b1 % 128 : Nat) : Int) - 64) := zpow_pos (by norm_num) _
    have : (0 : ℚ) < (m : ℚ) / 72057594037927936 := by positivity
    exact mul_pos this hp

example : -(16 : ℚ) ^ (-65 : ℤ) < -(1 / 16) ^ 70 ∧ (-(1 / 16 : ℚ) ^ 70) ≤ -(16 : ℚ) ^ (-193 : ℤ) := by
  constructor <;> norm_num

end Gdspy
