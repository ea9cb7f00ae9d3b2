import Verif.Spec.Viewer
import Mathlib.Tactic.Linarith
import Mathlib.Tactic.Positivity
import Mathlib.Tactic.NormNum
import Mathlib.Tactic.FieldSimp

/-!
# C79: default colors and patterns of the viewer
-/

namespace Gdspy

open Spec

theorem hex2_byte : ∀ n : Fin 256, ∃ a ∈ ("0123456789abcdef".toList), ∃ b ∈ ("0123456789abcdef".toList),
    hex2 (n.val : Int) = [a, b] := by
  decide +kernel

theorem rgbStr_hex {r g b : Int} (hr : 0 ≤ r ∧ r < 256) (hg : 0 ≤ g ∧ g < 256) (hb : 0 ≤ b ∧ b < 256) :
    HexColor (rgbStr r g b) := by
  have h : ∀ n : Int, 0 ≤ n ∧ n < 256 → ∃ a ∈ ("0123456789abcdef".toList),
      ∃ b ∈ ("0123456789abcdef".toList), hex2 n = [a, b] := by
    intro n hn
    have := hex2_byte ⟨n.toNat, by omega⟩
    simpa [Int.toNat_of_nonneg hn.1] using this
  obtain ⟨r1, h1, r2, h2, e1⟩ := h r hr
  obtain ⟨g1, h3, g2, h4, e2⟩ := h g hg
  obtain ⟨b1, h5, b2, h6, e3⟩ := h b hb
  refine ⟨r1, r2, g1, g2, b1, b2, by simp [rgbStr, e1, e2, e3], ?_⟩
  intro x hx
  simp only [List.mem_cons, List.not_mem_nil, or_false] at hx
  rcases hx with rfl | rfl | rfl | rfl | rfl | rfl <;> assumption

theorem byte_of_unit {c : ℚ} (h0 : 0 ≤ c) (h1 : c ≤ 1) :
    0 ≤ truncInt (255 * c + 1 / 2) ∧ truncInt (255 * c + 1 / 2) < 256 := by
  have h : 0 ≤ 255 * c + 1 / 2 := by linarith
  unfold truncInt
  rw [if_pos h]
  refine ⟨Int.floor_nonneg.2 h, Int.floor_lt.2 ?_⟩
  push_cast
  linarith

/-- The components of a color whose hue is not negative are between 0 and 1. -/
theorem hsvToRgb_unit {h s v : ℚ} (hh : 0 ≤ h) (hs : 0 ≤ s ∧ s ≤ 1) (hv : 0 ≤ v ∧ v ≤ 1) :
    (0 ≤ (hsvToRgb h s v).1 ∧ (hsvToRgb h s v).1 ≤ 1) ∧
    (0 ≤ (hsvToRgb h s v).2.1 ∧ (hsvToRgb h s v).2.1 ≤ 1) ∧
    (0 ≤ (hsvToRgb h s v).2.2 ∧ (hsvToRgb h s v).2.2 ≤ 1) := by
  have hi : 0 ≤ h * 6 := by linarith
  have key : ∀ x : ℚ, 0 ≤ x → x ≤ 1 → 0 ≤ v * (1 - s * x) ∧ v * (1 - s * x) ≤ 1 := by
    intro x h0 h1
    have a : 0 ≤ s * x := mul_nonneg hs.1 h0
    have b : s * x ≤ 1 := mul_le_one₀ hs.2 h0 h1
    exact ⟨mul_nonneg hv.1 (by linarith), mul_le_one₀ hv.2 (by linarith) (by linarith)⟩
  have f0 : 0 ≤ h * 6 - (⌊h * 6⌋ : ℚ) := sub_nonneg.2 (Int.floor_le _)
  have f1 : h * 6 - (⌊h * 6⌋ : ℚ) ≤ 1 := by linarith [Int.lt_floor_add_one (h * 6)]
  have kp := key 1 (by norm_num) le_rfl
  rw [mul_one] at kp
  have kq := key _ f0 f1
  have kt := key (1 - (h * 6 - (⌊h * 6⌋ : ℚ))) (by linarith) (by linarith)
  unfold hsvToRgb truncInt
  rw [if_pos hi]
  split
  · exact ⟨hv, hv, hv⟩
  · simp only
    split_ifs
    · exact ⟨hv, kt, kp⟩
    · exact ⟨kq, hv, kp⟩
    · exact ⟨kp, hv, kt⟩
    · exact ⟨kp, kq, hv⟩
    · exact ⟨kt, kp, hv⟩
    · exact ⟨hv, kp, kq⟩

/-- The color that the viewer chooses for any layer and datatype, not negative, is one that Tk
understands. -/
theorem C79_auto_color_partial (layer datatype : Int) (hl : 0 ≤ layer) : HexColor (autoColor layer datatype) := by
  have m8 : (0 : Int) ≤ (layer + datatype) % 8 ∧ (layer + datatype) % 8 < 8 := by omega
  have m3 : (0 : Int) ≤ datatype % 3 ∧ datatype % 3 < 3 := by omega
  have a1 : (0 : ℚ) ≤ ((layer % 3 : Int) : ℚ) := by exact_mod_cast (by omega : (0 : Int) ≤ layer % 3)
  have a2 : (0 : ℚ) ≤ ((layer % 6 / 3 : Int) : ℚ) := by exact_mod_cast (by omega : (0 : Int) ≤ layer % 6 / 3)
  have a3 : (0 : ℚ) ≤ ((layer / 6 : Int) : ℚ) := by exact_mod_cast (by omega : (0 : Int) ≤ layer / 6)
  have b1 : (0 : ℚ) ≤ (((layer + datatype) % 8 : Int) : ℚ) := by exact_mod_cast m8.1
  have b2 : (((layer + datatype) % 8 : Int) : ℚ) ≤ 8 := by exact_mod_cast m8.2.le
  have c1 : (0 : ℚ) ≤ ((datatype % 3 : Int) : ℚ) := by exact_mod_cast m3.1
  have c2 : ((datatype % 3 : Int) : ℚ) ≤ 3 := by exact_mod_cast m3.2.le
  obtain ⟨⟨h1, h2⟩, ⟨h3, h4⟩, h5, h6⟩ := hsvToRgb_unit
    (h := ((layer % 3 : Int) : ℚ) / 3 + ((layer % 6 / 3 : Int) : ℚ) / 6 + ((layer / 6 : Int) : ℚ) / 11)
    (s := 1 - (((layer + datatype) % 8 : Int) : ℚ) / 12) (v := 1 - ((datatype % 3 : Int) : ℚ) / 4)
    (by positivity) ⟨by linarith, by linarith⟩ ⟨by linarith, by linarith⟩
  unfold autoColor
  exact rgbStr_hex (byte_of_unit h1 h2) (byte_of_unit h3 h4) (byte_of_unit h5 h6)

/-- The hypothesis holds for layer 1. -/
example : autoColor 1 0 = "#15ff15".toList := by
  have h1 : ⌊(2 : ℚ)⌋ = 2 := by rw [Int.floor_eq_iff]; norm_num
  have h2 : ⌊(511 / 2 : ℚ)⌋ = 255 := by rw [Int.floor_eq_iff]; norm_num
  have h3 : ⌊(87 / 4 : ℚ)⌋ = 21 := by rw [Int.floor_eq_iff]; norm_num
  norm_num [autoColor, hsvToRgb, truncInt, h1, h2, h3]
  decide

/-- For negative layers, which files can contain, the computed color may be none: Tk raises an error. -/
theorem C79_negative_layer : autoColor (-6) 0 = "#ff-482b".toList ∧ ¬ HexColor (autoColor (-6) 0) := by
  have e : autoColor (-6) 0 = "#ff-482b".toList := by
    have h1 : ⌈(-6 / 11 : ℚ)⌉ = 0 := by rw [Int.ceil_eq_iff]; norm_num
    have h2 : ⌊(511 / 2 : ℚ)⌋ = 255 := by rw [Int.floor_eq_iff]; norm_num
    have h3 : ⌈(-1604 / 22 : ℚ)⌉ = -72 := by rw [Int.ceil_eq_iff]; norm_num
    have h4 : ⌊(43 : ℚ)⌋ = 43 := by rw [Int.floor_eq_iff]; norm_num
    norm_num [autoColor, hsvToRgb, truncInt, h1, h2, h3, h4]
    decide
  refine ⟨e, ?_⟩
  rw [e]
  rintro ⟨a, b, c, d, e, f, h, -⟩
  have hl : "#ff-482b".toList.length = 7 := by rw [h]; rfl
  exact absurd hl (by decide)

/-- Looking up the color (or pattern) of a layer: the one that was given, otherwise the default that was
given, otherwise the automatic one; and the next time the same, also if others are looked up in
between. -/
theorem C79_lookup {α : Type} (auto : Int × Int → α) (default : Option α) (d : List ((Int × Int) × α))
    (key : Int × Int) :
    (∀ v, d.lookup key = some v → (missing auto default d key).2 = v) ∧
    (d.lookup key = none → (missing auto default d key).2 = default.getD (auto key)) ∧
    ∀ others : List (Int × Int),
      (missing auto default (others.foldl (fun d k => (missing auto default d k).1) d) key).2
        = (missing auto default d key).2 := by
  have app : ∀ (d : List ((Int × Int) × α)) (k : Int × Int) (v : α) (j : Int × Int),
      (d ++ [(k, v)]).lookup j = (d.lookup j).or (if j = k then some v else none) := by
    intro d k v j
    induction d with
    | nil =>
      by_cases h : j = k
      · simp [List.lookup, h]
      · simp [List.lookup, h, beq_eq_false_iff_ne.2 h]
    | cons p d ih =>
      cases h : (j == p.1) with
      | true => simp [List.lookup, h]
      | false => simp [List.lookup, h, ih]
  have step : ∀ (d : List ((Int × Int) × α)) (k : Int × Int),
      (missing auto default (missing auto default d k).1 key).2 = (missing auto default d key).2 := by
    intro d k
    by_cases hk : k = key
    · subst hk
      unfold missing
      cases h : d.lookup k with
      | some v => simp [h]
      | none => simp [app, h]
    · unfold missing
      cases h : d.lookup k with
      | some v => simp
      | none =>
        simp only [app, if_neg (Ne.symm hk), Option.or_none]
        cases d.lookup key <;> rfl
  refine ⟨?_, ?_, ?_⟩
  · intro v h; simp [missing, h]
  · intro h; simp [missing, h]
  · intro others
    induction others generalizing d with
    | nil => rfl
    | cons k l ih => rw [List.foldl_cons, ih, step]

/-- A dictionary with one color and a default. -/
example : (missing (fun k => autoColor k.1 k.2) (some "#ffffff".toList) [((0, 1), "#000000".toList)] (0, 1)).2
    = "#000000".toList ∧
    (missing (fun k => autoColor k.1 k.2) (some "#ffffff".toList) [((0, 1), "#000000".toList)] (0, 2)).2
    = "#ffffff".toList := by decide +kernel

/-- The automatic pattern is one of the first eight of the ten that exist, for all layers. -/
theorem C79_auto_pattern (key : Int × Int) : 0 ≤ autoPattern key ∧ autoPattern key < 8 := by
  unfold autoPattern
  omega

/-- On every background, outlines (and the names of visible layers), the names of hidden layers and the
background are told apart: each channel differs by at least 84 of 255. -/
theorem C79_contrast (c : Int) (h : 0 ≤ c ∧ c ≤ 255) :
    (0 ≤ outlineChannel c ∧ outlineChannel c ≤ 255) ∧ (0 ≤ greyChannel c ∧ greyChannel c ≤ 255) ∧
    84 ≤ |outlineChannel c - c| ∧ 84 ≤ |greyChannel c - c| ∧ 84 ≤ |outlineChannel c - greyChannel c| := by
  unfold outlineChannel greyChannel
  split_ifs <;> refine ⟨by omega, by omega, ?_, ?_, ?_⟩ <;> exact le_abs.2 (by omega)

example : outlineChannel 32 = 255 ∧ greyChannel 32 = 144 := by decide

end Gdspy
