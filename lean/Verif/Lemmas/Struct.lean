import Verif.Model.Py
import Mathlib.Tactic.Ring
import Mathlib.Tactic.Linarith
import Mathlib.Tactic.NormNum

namespace Gdspy

/-- Proved without `rfl` on purpose: the kernel should not unfold the continuation. -/
theorem py_bind_ok {α β : Type _} (a : α) (f : α → Py β) : (Except.ok a >>= f) = f a := by
  simp [bind, Except.bind]

theorem py_bind_error {α β : Type _} (e : PyErr) (f : α → Py β) :
    ((Except.error e : Py α) >>= f) = .error e := by
  simp [bind, Except.bind]

theorem py_pure {α : Type _} (a : α) : (pure a : Py α) = .ok a := rfl

theorem py_bind_eq_ok {α β : Type _} {x : Py α} {f : α → Py β} {b : β}
    (h : (x >>= f) = .ok b) : ∃ a, x = .ok a ∧ f a = .ok b := by
  cases x with
  | error e => rw [py_bind_error] at h; cases h
  | ok a => rw [py_bind_ok] at h; exact ⟨a, rfl, h⟩

theorem ofNat_toNat8 (n : Nat) : (UInt8.ofNat n).toNat = n % 256 := by simp

theorem rd16_be16 {n : Nat} (h : n < 65536) :
    rd16 (UInt8.ofNat (n / 256)) (UInt8.ofNat n) = n := by
  simp only [rd16, ofNat_toNat8]; omega

theorem rd32_be32 {n : Nat} (h : n < 4294967296) :
    rd32 (UInt8.ofNat (n / 16777216)) (UInt8.ofNat (n / 65536)) (UInt8.ofNat (n / 256))
      (UInt8.ofNat n) = n := by
  simp only [rd32, rd16, ofNat_toNat8]; omega

theorem rd16_lt (a b : UInt8) : rd16 a b < 65536 := by
  have := a.toNat_lt; have := b.toNat_lt
  simp only [rd16]; omega

@[simp] theorem be16_length (n : Nat) : (be16 n).length = 2 := rfl
@[simp] theorem be32_length (n : Nat) : (be32 n).length = 4 := rfl
@[simp] theorem i4_length (n : Int) : (i4 n).length = 4 := rfl

theorem sgn16_mod {n : Int} (h : -32768 ≤ n ∧ n < 32768) :
    sgn16 (n % 65536).toNat = n := by
  unfold sgn16; split <;> omega

theorem sgn32_mod {n : Int} (h : -2147483648 ≤ n ∧ n < 2147483648) :
    sgn32 (n % 4294967296).toNat = n := by
  unfold sgn32; split <;> omega

theorem packH_ok {n : Int} (h : 0 ≤ n ∧ n < 65536) : packH n = .ok (be16 n.toNat) := by
  simp [packH, h]

theorem packH_ok_nat {n : Nat} (h : n < 65536) : packH (n : Int) = .ok (be16 n) := by
  rw [packH_ok (by omega)]; simp

theorem packh_ok {n : Int} (h : -32768 ≤ n ∧ n < 32768) :
    packh n = .ok (be16 (n % 65536).toNat) := by
  simp only [packh, if_pos h]

theorem packl_ok {n : Int} (h : -2147483648 ≤ n ∧ n < 2147483648) :
    packl n = .ok (i4 n) := by
  simp only [packl, if_pos h, i4]

theorem packh_eq_ok {n : Int} {b : Bytes} (h : packh n = .ok b) :
    (-32768 ≤ n ∧ n < 32768) ∧ b = be16 (n % 65536).toNat := by
  unfold packh at h
  split at h
  · cases h; exact ⟨by assumption, rfl⟩
  · cases h

theorem packl_eq_ok {n : Int} {b : Bytes} (h : packl n = .ok b) :
    (-2147483648 ≤ n ∧ n < 2147483648) ∧ b = i4 n := by
  unfold packl at h
  split at h
  · cases h; exact ⟨by assumption, rfl⟩
  · cases h

theorem packH_eq_ok {n : Int} {b : Bytes} (h : packH n = .ok b) :
    (0 ≤ n ∧ n < 65536) ∧ b = be16 n.toNat := by
  unfold packH at h
  split at h
  · cases h; exact ⟨by assumption, rfl⟩
  · cases h

end Gdspy
