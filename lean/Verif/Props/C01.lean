import Verif.Spec.Real8
import Verif.Lemmas.Real8

/-!
# C01: stored reals survive a write/read cycle exactly
-/

namespace Gdspy

open Spec

/-- A 53-bit number aligned on the hexadecimal digit chosen by the encoder is an integer
number of 2^-56 units. -/
theorem double_aligned {v : ℚ} (hd : IsDouble v) (hv : v ≠ 0) {e : ℤ}
    (he : (16 : ℚ) ^ (e - 1) ≤ |v|) :
    ∃ m : ℕ, |v| * (16 : ℚ) ^ (14 - e) = m := by
  obtain ⟨n, k, hn, rfl⟩ := hd
  have h2 : (0 : ℚ) < (2 : ℚ) ^ k := zpow_pos (by norm_num) _
  have hk : 0 ≤ k + 56 - 4 * e := by
    by_contra hcon
    have hlt : k ≤ 4 * e - 57 := by omega
    have h16 : (16 : ℚ) ^ (e - 1) = (2 : ℚ) ^ (4 * e - 4) := by
      rw [show (16 : ℚ) = (2 : ℚ) ^ (4 : ℤ) by norm_num, ← zpow_mul]
      congr 1; ring
    rw [h16, abs_mul, abs_of_pos h2] at he
    have hn' : |(n : ℚ)| < (2 : ℚ) ^ (53 : ℤ) := by
      have : ((|n| : ℤ) : ℚ) < ((2 ^ 53 : ℤ) : ℚ) := by exact_mod_cast hn
      rw [Int.cast_abs] at this
      norm_num at this ⊢
      exact this
    have : |(n : ℚ)| * (2 : ℚ) ^ k < (2 : ℚ) ^ (4 * e - 4) := by
      calc |(n : ℚ)| * (2 : ℚ) ^ k < (2 : ℚ) ^ (53 : ℤ) * (2 : ℚ) ^ k :=
            mul_lt_mul_of_pos_right hn' h2
        _ = (2 : ℚ) ^ (53 + k) := by rw [← zpow_add₀ (by norm_num)]
        _ ≤ (2 : ℚ) ^ (4 * e - 4) := zpow_le_zpow_right₀ (by norm_num) (by omega)
    linarith
  obtain ⟨j, hj⟩ : ∃ j : ℕ, k + 56 - 4 * e = j := ⟨_, (Int.toNat_of_nonneg hk).symm⟩
  refine ⟨n.natAbs * 2 ^ j, ?_⟩
  rw [abs_mul, abs_of_pos h2]
  have : (16 : ℚ) ^ (14 - e) = (2 : ℚ) ^ (56 - 4 * e) := by
    rw [show (16 : ℚ) = (2 : ℚ) ^ (4 : ℤ) by norm_num, ← zpow_mul]
    congr 1; ring
  rw [this, mul_assoc, ← zpow_add₀ (by norm_num), show k + (56 - 4 * e) = (j : ℤ) by omega,
    zpow_natCast]
  push_cast
  rw [Nat.cast_natAbs, Int.cast_abs]

theorem storable_exponent {v : ℚ} (hv : v ≠ 0) (hr : InRange v) :
    let e := realExponent |v|
    |v| < (16 : ℚ) ^ e ∧ (16 : ℚ) ^ (e - 1) ≤ |v| ∧ -64 ≤ e ∧ e ≤ 63 := by
  have hpos : 0 < |v| := abs_pos.2 hv
  have h1 : |v| < (16 : ℚ) ^ (Int.log 16 |v| + 1) := by
    have := Int.lt_zpow_succ_log_self (R := ℚ) (b := 16) (by norm_num) |v|
    exact_mod_cast this
  have h2 : (16 : ℚ) ^ (Int.log 16 |v|) ≤ |v| := by
    have := Int.zpow_log_le_self (R := ℚ) (b := 16) (by norm_num) hpos
    exact_mod_cast this
  rcases hr with h0 | ⟨hlo, hhi⟩
  · exact absurd h0 hv
  · have h3 : (16 : ℚ) ^ (Int.log 16 |v|) < (16 : ℚ) ^ (63 : ℤ) := lt_of_le_of_lt h2 hhi
    have h4 : (16 : ℚ) ^ (-65 : ℤ) < (16 : ℚ) ^ (Int.log 16 |v| + 1) := lt_of_le_of_lt hlo h1
    have h5 := (zpow_lt_zpow_iff_right₀ (by norm_num : (1 : ℚ) < 16)).1 h3
    have h6 := (zpow_lt_zpow_iff_right₀ (by norm_num : (1 : ℚ) < 16)).1 h4
    refine ⟨h1, ?_, ?_, ?_⟩ <;> simp only [realExponent]
    · rw [add_sub_cancel_right]; exact h2
    · omega
    · omega

theorem sign_abs (v : ℚ) : (if v < 0 then (-1 : ℚ) else 1) * |v| = v := by
  split
  · rw [abs_of_neg (by assumption)]; ring
  · rw [abs_of_nonneg (by linarith)]; ring

/-- **C01.** Every double in the range of the format (or 0) is encoded in 8 bytes that
decode to exactly the same number. -/
theorem C01_real8_roundtrip {v : ℚ} (hd : IsDouble v) (hr : InRange v) :
    ∃ b, eightByteReal v = .ok b ∧ b.length = 8 ∧ eightByteRealToFloat b = .ok v := by
  by_cases hv : v = 0
  · subst hv
    refine ⟨[0, 0, 0, 0, 0, 0, 0, 0], by simp [eightByteReal], rfl, ?_⟩
    have := decode_layout (a := 0) (b := 0) (c := 0) (by norm_num) (by norm_num) (by norm_num)
    simpa [be16, be32] using this
  · obtain ⟨h1, h2, h3, h4⟩ := storable_exponent hv hr
    obtain ⟨m, hm⟩ := double_aligned hd hv h2
    obtain ⟨bs, hb, hlen, hdec⟩ := eightByteRealAt_decode h1 ⟨h3, h4⟩
    refine ⟨bs, ?_, hlen, ?_⟩
    · unfold eightByteReal
      rw [if_neg hv]
      have habs : (if v < 0 then -v else v) = |v| := by
        split
        · rw [abs_of_neg (by assumption)]
        · rw [abs_of_nonneg (by linarith)]
      rw [habs, hb]
    · rw [hdec]
      congr 1
      rw [hm, Int.floor_natCast, Int.cast_natCast, ← hm, mul_assoc, mul_assoc,
        ← zpow_add₀ (by norm_num : (16 : ℚ) ≠ 0)]
      rw [show (14 - realExponent |v|) + (realExponent |v| - 14) = 0 by ring, zpow_zero, mul_one,
        sign_abs]

/-- The hypotheses are met by ordinary numbers such as the default precision ratio 2^-10. -/
example : IsDouble (-(3 : ℚ) / 1024) ∧ InRange (-(3 : ℚ) / 1024) :=
  ⟨⟨-3, -10, by norm_num, by norm_num⟩,
   Or.inr ⟨by rw [abs_div, abs_neg]; norm_num, by rw [abs_div, abs_neg]; norm_num⟩⟩

/-- **C01, inexact logarithm.** If rounding of the logarithm makes the encoder choose any other
exponent `e` that still bounds the value, the stored number has the right sign, is not larger
in magnitude, and is less than one unit `16^(e-14)` away. -/
theorem C01_real8_truncation_bound {e : ℤ} {v : ℚ} (hb : |v| < (16 : ℚ) ^ e)
    (he : -64 ≤ e ∧ e ≤ 63) :
    ∃ b d, eightByteRealAt e v = .ok b ∧ eightByteRealToFloat b = .ok d ∧
      |d| ≤ |v| ∧ |v| - |d| < (16 : ℚ) ^ (e - 14) ∧ 0 ≤ v * d := by
  obtain ⟨bs, h1, _, h2⟩ := eightByteRealAt_decode hb he
  refine ⟨bs, _, h1, h2, ?_⟩
  have hp : (0 : ℚ) < (16 : ℚ) ^ (e - 14) := zpow_pos (by norm_num) _
  have hq : (0 : ℚ) < (16 : ℚ) ^ (14 - e) := zpow_pos (by norm_num) _
  have hpq : (16 : ℚ) ^ (14 - e) * (16 : ℚ) ^ (e - 14) = 1 := by
    rw [← zpow_add₀ (by norm_num)]; simp
  set m : ℚ := ((⌊|v| * (16 : ℚ) ^ (14 - e)⌋ : ℤ) : ℚ) with hm
  have hm0 : 0 ≤ m := by
    rw [hm]; exact_mod_cast Int.floor_nonneg.2 (mul_nonneg (abs_nonneg _) hq.le)
  have hm1 : m ≤ |v| * (16 : ℚ) ^ (14 - e) := Int.floor_le _
  have hm2 : |v| * (16 : ℚ) ^ (14 - e) < m + 1 := Int.lt_floor_add_one _
  have habs : |(if v < 0 then (-1 : ℚ) else 1) * m * (16 : ℚ) ^ (e - 14)|
      = m * (16 : ℚ) ^ (e - 14) := by
    rw [abs_mul, abs_mul, abs_of_pos hp, abs_of_nonneg hm0]
    split <;> simp
  have hv' : |v| = |v| * (16 : ℚ) ^ (14 - e) * (16 : ℚ) ^ (e - 14) := by
    rw [mul_assoc, hpq, mul_one]
  refine ⟨?_, ?_, ?_⟩
  · rw [habs, hv']
    exact mul_le_mul_of_nonneg_right hm1 hp.le
  · rw [habs]
    nth_rw 1 [hv']
    have := mul_lt_mul_of_pos_right hm2 hp
    linarith
  · have : v * ((if v < 0 then (-1 : ℚ) else 1) * m * (16 : ℚ) ^ (e - 14))
        = ((if v < 0 then (-1 : ℚ) else 1) * v) * (m * (16 : ℚ) ^ (e - 14)) := by ring
    rw [this]
    refine mul_nonneg ?_ (mul_nonneg hm0 hp.le)
    split <;> linarith

example : |(1 / 3 : ℚ)| < (16 : ℚ) ^ (1 : ℤ) ∧ (-64 : ℤ) ≤ 1 ∧ (1 : ℤ) ≤ 63 := by
  refine ⟨by norm_num, by norm_num, by norm_num⟩

/-- **C01, disagreement.** The exponent may be one too large just below a power of 16, because
the logarithm is rounded up to an integer: then exactness is lost.  The double
`16 - 2^-49` (whose base-2 logarithm is within 2^-54 of 4) is an instance: encoded with
exponent 2 it is read back as another number. -/
theorem C01_exponent_overshoot_loses_bits :
    IsDouble (16 - 1 / 2 ^ 49) ∧ InRange (16 - 1 / 2 ^ 49) ∧
    ∃ b d, eightByteRealAt 2 (16 - 1 / 2 ^ 49) = .ok b ∧ eightByteRealToFloat b = .ok d ∧
      d ≠ 16 - 1 / 2 ^ 49 := by
  have h0 : |((16 : ℚ) - 1 / 2 ^ 49)| = 16 - 1 / 2 ^ 49 := abs_of_pos (by norm_num)
  refine ⟨⟨2 ^ 53 - 1, -49, by norm_num, by norm_num⟩, Or.inr ⟨?_, ?_⟩, ?_⟩
  · rw [h0]; norm_num
  · rw [h0]; norm_num
  · obtain ⟨bs, h1, _, h2⟩ := eightByteRealAt_decode (e := 2) (v := 16 - 1 / 2 ^ 49)
      (by rw [h0]; norm_num) (by norm_num)
    refine ⟨bs, _, h1, h2, ?_⟩
    have hf : ⌊|((16 : ℚ) - 1 / 2 ^ 49)| * (16 : ℚ) ^ ((14 : ℤ) - 2)⌋ = 4503599627370495 := by
      rw [h0, Int.floor_eq_iff]; norm_num
    rw [hf]
    norm_num

end Gdspy
