import Verif.Model.Sizes

/-! # C123: sizes of types, and comparison of errors -/

namespace Caitlyn
open Sizes

/-- C123: the size in bytes is `sizeof`, the size in bits eight times as much, for all types of less than 2^61 bytes. -/
theorem C123_bits_partial (n : UInt64) (h : n.toNat < 2 ^ 61) : (bytesOrBits n).toNat = n.toNat ∧ (bytesOrBits n .bit).toNat = 8 * n.toNat := by
  refine ⟨rfl, ?_⟩
  show (n * 8).toNat = _
  rw [UInt64.toNat_mul, show (8 : UInt64).toNat = 8 from rfl]
  omega

example : (4 : UInt64).toNat < 2 ^ 61 ∧ bytesOrBits 4 .bit = 32 := by decide

/-- C123, exactly: the size in bits is taken modulo 2^64. It is wrong for every type of 2^61 bytes or more, such as an array of
that many characters, whose size in bits is 0. -/
theorem C123_bits_fails : (∀ n : UInt64, (bytesOrBits n .bit).toNat = 8 * n.toNat % 2 ^ 64) ∧
    (∀ n : UInt64, 2 ^ 61 ≤ n.toNat → (bytesOrBits n .bit).toNat ≠ 8 * n.toNat) ∧ bytesOrBits 0x2000000000000000 .bit = 0 := by
  have h : ∀ n : UInt64, (bytesOrBits n .bit).toNat = 8 * n.toNat % 2 ^ 64 := by
    intro n
    show (n * 8).toNat = _
    rw [UInt64.toNat_mul, show (8 : UInt64).toNat = 8 from rfl, Nat.mul_comm]
  refine ⟨h, fun n hn => ?_, by decide⟩
  rw [h]
  omega

/-- C123: errors compare as the values in them, and `!=` is the negation of `==`. -/
theorem C123_errors {E : Type} (eq : E → E → Bool) (a b : E) :
    unexpectedEq eq a b = eq a b ∧ unexpectedNe eq a b = !eq a b ∧
    ((∀ x y, eq x y = true ↔ x = y) → (unexpectedEq eq a b = true ↔ a = b) ∧ (unexpectedNe eq a b = true ↔ a ≠ b)) := by
  refine ⟨rfl, rfl, fun h => ⟨h a b, ?_⟩⟩
  show (!eq a b) = true ↔ _
  rw [Bool.not_eq_true', ← Bool.not_eq_true, h]

end Caitlyn
