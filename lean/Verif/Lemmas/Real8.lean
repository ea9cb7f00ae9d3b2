import Verif.Model.Real8
import Verif.Lemmas.Struct
import Mathlib.Tactic.Positivity
import Mathlib.Tactic.FieldSimp

namespace Gdspy

theorem and_7F00 (n : Nat) : (n &&& 0x7F00) / 256 = n / 256 % 128 := by
  have h := Nat.shiftRight_and_distrib (a := n) (b := 0x7F00) (i := 8)
  have h3 : (0x7F00 : Nat) >>> 8 = 2 ^ 7 - 1 := rfl
  rw [h3, Nat.and_two_pow_sub_one_eq_mod, Nat.shiftRight_eq_div_pow,
    Nat.shiftRight_eq_div_pow] at h
  exact h

theorem and_FF (n : Nat) : n &&& 0x00FF = n % 256 := by
  have h2 : n &&& (2 ^ 8 - 1) = n % 2 ^ 8 := Nat.and_two_pow_sub_one_eq_mod _ _
  simpa using h2

theorem and_8000 {n : Nat} (h : n < 65536) : (n &&& 0x8000 ≠ 0) ↔ 32768 ≤ n := by
  have h1 := Nat.shiftRight_and_distrib (a := n) (b := 0x8000) (i := 15)
  have h3 : (0x8000 : Nat) >>> 15 = 2 ^ 1 - 1 := rfl
  rw [h3, Nat.and_two_pow_sub_one_eq_mod, Nat.shiftRight_eq_div_pow,
    Nat.shiftRight_eq_div_pow] at h1
  have h2 : (n &&& 0x8000) % 2 ^ 15 = (n % 2 ^ 15) &&& (0x8000 % 2 ^ 15) := Nat.and_mod_two_pow
  have h4 : (0x8000 : Nat) % 2 ^ 15 = 0 := rfl
  rw [h4, Nat.and_zero] at h2
  generalize n &&& 0x8000 = k at *
  norm_num at h1 h2
  omega

theorem packHHL_ok {a b c : Nat} (ha : a < 65536) (hb : b < 65536) (hc : c < 4294967296) :
    packHHL (a : Int) (b : Int) (c : Int) = .ok (be16 a ++ be16 b ++ be32 c) := by
  unfold packHHL
  have h : (0 : Int) ≤ (c : Int) ∧ (c : Int) < 4294967296 := by omega
  rw [packH_ok_nat ha, py_bind_ok, packH_ok_nat hb, py_bind_ok, if_pos h, Int.toNat_natCast,
    py_pure]

theorem decode_layout {a b c : Nat} (ha : a < 65536) (hb : b < 65536) (hc : c < 4294967296) :
    eightByteRealToFloat (be16 a ++ be16 b ++ be32 c) = .ok
      ((if 32768 ≤ a then -((((a % 256 * 65536 + b) * 4294967296 + c : Nat) : ℚ) / 72057594037927936)
        else (((a % 256 * 65536 + b) * 4294967296 + c : Nat) : ℚ) / 72057594037927936)
          * (16 : ℚ) ^ (((a / 256 % 128 : Nat) : Int) - 64)) := by
  simp only [be16, be32, List.cons_append, List.nil_append, eightByteRealToFloat]
  rw [rd16_be16 ha, rd16_be16 hb, rd32_be32 hc, and_7F00, and_FF]
  have hS := and_8000 ha
  by_cases hb' : 32768 ≤ a
  · rw [if_pos (hS.2 hb'), if_pos hb']
  · rw [if_neg (fun h => hb' (hS.1 h)), if_neg hb']

/-- Layout of the eight bytes for a given sign, biased exponent byte and mantissa. -/
theorem packHHL_decode (b1 m : Nat) (hb : b1 < 256) (hm : m < 72057594037927936) :
    ∃ bs, packHHL ((b1 : Int) * 256 + (m : Int) / 281474976710656)
        (((m : Int) % 281474976710656) / 4294967296) ((m : Int) % 4294967296) = .ok bs ∧
      bs.length = 8 ∧
      eightByteRealToFloat bs = .ok
        ((if 128 ≤ b1 then -((m : ℚ) / 72057594037927936) else (m : ℚ) / 72057594037927936)
          * (16 : ℚ) ^ (((b1 % 128 : Nat) : Int) - 64)) := by
  obtain ⟨x, hx⟩ : ∃ x : Nat, x = b1 * 256 + m / 281474976710656 := ⟨_, rfl⟩
  obtain ⟨y, hy⟩ : ∃ y : Nat, y = m % 281474976710656 / 4294967296 := ⟨_, rfl⟩
  obtain ⟨z, hz⟩ : ∃ z : Nat, z = m % 4294967296 := ⟨_, rfl⟩
  have e1 : ((b1 : Int) * 256 + (m : Int) / 281474976710656) = (x : Int) := by omega
  have e2 : ((m : Int) % 281474976710656) / 4294967296 = (y : Int) := by omega
  have e3 : ((m : Int) % 4294967296) = (z : Int) := by omega
  have h1 : x < 65536 := by omega
  have h2 : y < 65536 := by omega
  have h3 : z < 4294967296 := by omega
  refine ⟨be16 x ++ be16 y ++ be32 z, ?_, by simp, ?_⟩
  · rw [e1, e2, e3, packHHL_ok h1 h2 h3]
  · rw [decode_layout h1 h2 h3]
    have hE : x / 256 % 128 = b1 % 128 := by omega
    have hM : (x % 256 * 65536 + y) * 4294967296 + z = m := by omega
    have hS : (32768 ≤ x) = (128 ≤ b1) := by apply propext; omega
    rw [hE, hM]
    simp only [hS]

theorem mantissa_bound {e : Int} {v : ℚ} (hb : |v| < (16 : ℚ) ^ e) :
    ∃ m : Nat, ⌊|v| * (16 : ℚ) ^ (14 - e)⌋ = (m : Int) ∧ m < 72057594037927936 := by
  have hlt : |v| * (16 : ℚ) ^ (14 - e) < 72057594037927936 := by
    have hpos : (0 : ℚ) < (16 : ℚ) ^ (14 - e) := zpow_pos (by norm_num) _
    calc |v| * (16 : ℚ) ^ (14 - e) < (16 : ℚ) ^ e * (16 : ℚ) ^ (14 - e) :=
          mul_lt_mul_of_pos_right hb hpos
      _ = (16 : ℚ) ^ (14 : Int) := by rw [← zpow_add₀ (by norm_num)]; congr 1; ring
      _ = 72057594037927936 := by norm_num
  have hnn : 0 ≤ |v| * (16 : ℚ) ^ (14 - e) :=
    mul_nonneg (abs_nonneg _) (zpow_pos (by norm_num) _).le
  obtain ⟨m, hm⟩ : ∃ m : Nat, ⌊|v| * (16 : ℚ) ^ (14 - e)⌋ = (m : Int) :=
    ⟨_, (Int.toNat_of_nonneg (Int.floor_nonneg.2 hnn)).symm⟩
  refine ⟨m, hm, ?_⟩
  have : ⌊|v| * (16 : ℚ) ^ (14 - e)⌋ < 72057594037927936 := by
    rw [Int.floor_lt]; exact_mod_cast hlt
  omega

theorem if_neg_eq_abs (v : ℚ) : (if v < 0 then -v else v) = |v| := by
  split
  · rw [abs_of_neg (by assumption)]
  · rw [abs_of_nonneg (by linarith)]

theorem eightByteRealAt_eq {e : Int} {v : ℚ} {m : Nat}
    (hm : ⌊|v| * (16 : ℚ) ^ (14 - e)⌋ = (m : Int)) :
    eightByteRealAt e v = packHHL (((if v < 0 then (128 : Int) else 0) + (e + 64)) * 256
      + (m : Int) / 281474976710656) (((m : Int) % 281474976710656) / 4294967296)
      ((m : Int) % 4294967296) := by
  unfold eightByteRealAt
  simp only [if_neg_eq_abs, hm]

/-- Decoding inverts the encoding at any exponent that bounds the value, up to the
truncation of the mantissa. -/
theorem eightByteRealAt_decode {e : Int} {v : ℚ} (hb : |v| < (16 : ℚ) ^ e)
    (he : -64 ≤ e ∧ e ≤ 63) :
    ∃ bs, eightByteRealAt e v = .ok bs ∧ bs.length = 8 ∧
      eightByteRealToFloat bs = .ok
        ((if v < 0 then -1 else 1) * ((⌊|v| * (16 : ℚ) ^ (14 - e)⌋ : Int) : ℚ)
          * (16 : ℚ) ^ (e - 14)) := by
  obtain ⟨m, hm, hmlt⟩ := mantissa_bound hb
  obtain ⟨b1, hb1⟩ : ∃ b1 : Nat, (if v < 0 then (128 : Int) else 0) + (e + 64) = (b1 : Int) :=
    ⟨_, (Int.toNat_of_nonneg (by split <;> omega)).symm⟩
  have hb1lt : b1 < 256 := by split at hb1 <;> omega
  obtain ⟨bs, h1, h2, h3⟩ := packHHL_decode b1 m hb1lt hmlt
  refine ⟨bs, ?_, h2, ?_⟩
  · rw [eightByteRealAt_eq hm, hb1, h1]
  · rw [h3, hm]
    have hexp : ((b1 % 128 : Nat) : Int) - 64 = e := by split at hb1 <;> omega
    have hsgn : (128 ≤ b1) ↔ v < 0 := by
      split at hb1
      · exact ⟨fun _ => by assumption, fun _ => by omega⟩
      · exact ⟨fun _ => by omega, fun h => absurd h (by assumption)⟩
    rw [hexp]
    refine congrArg Except.ok ?_
    have h16 : (16 : ℚ) ^ (e - 14) = (16 : ℚ) ^ e / 72057594037927936 := by
      rw [zpow_sub₀ (by norm_num)]; norm_num
    rw [h16]
    by_cases hv0 : v < 0
    · rw [if_pos (hsgn.2 hv0), if_pos hv0]; push_cast; ring
    · rw [if_neg (fun h => hv0 (hsgn.1 h)), if_neg hv0]; push_cast; ring

/-- The first byte carries sign and exponent only. -/
theorem packHHL_bytes {m : Nat} (hm : m < 72057594037927936) :
    ∃ t, t.length = 7 ∧ ∀ b : Nat, b < 256 →
      packHHL ((b : Int) * 256 + (m : Int) / 281474976710656)
        (((m : Int) % 281474976710656) / 4294967296) ((m : Int) % 4294967296)
        = .ok (UInt8.ofNat b :: t) := by
  obtain ⟨y, hy⟩ : ∃ y : Nat, y = m % 281474976710656 / 4294967296 := ⟨_, rfl⟩
  obtain ⟨z, hz⟩ : ∃ z : Nat, z = m % 4294967296 := ⟨_, rfl⟩
  obtain ⟨w, hw⟩ : ∃ w : Nat, w = m / 281474976710656 := ⟨_, rfl⟩
  have e2 : ((m : Int) % 281474976710656) / 4294967296 = (y : Int) := by omega
  have e3 : ((m : Int) % 4294967296) = (z : Int) := by omega
  refine ⟨UInt8.ofNat w :: (be16 y ++ be32 z), by simp, fun b hb' => ?_⟩
  have e1 : ((b : Int) * 256 + (m : Int) / 281474976710656) = ((b * 256 + w : Nat) : Int) := by
    push_cast; omega
  have hw' : w < 256 := by omega
  rw [e1, e2, e3, packHHL_ok (by omega) (by omega) (by omega)]
  have h1 : (b * 256 + w) / 256 = b := by omega
  have h2 : UInt8.ofNat (b * 256 + w) = UInt8.ofNat w := by
    apply UInt8.toNat_inj.1; rw [ofNat_toNat8, ofNat_toNat8]; omega
  simp only [be16, h1, h2, List.cons_append, List.nil_append]

end Gdspy
