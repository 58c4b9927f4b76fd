import Verif.Proofs.DivCost

/-! # Property C172: the work of multiplication and division of `BigInteger` -/

namespace Caitlyn
open Spec BigInt

/-- The number of decimal digits of an integer (none for zero). -/
def Spec.numDigits (z : Int) : Nat := (digs z.natAbs).length

example : numDigits (-1234) = 4 ∧ numDigits 0 = 0 := by decide +kernel

theorem digits_ten : ∀ k : Nat, (digs (10 ^ k)).length = k + 1
  | 0 => by decide +kernel
  | k + 1 => by
    rw [digs_pos _ (Nat.pow_pos (by decide)), List.length_cons, Nat.pow_succ, Nat.mul_div_cancel _ (by decide), digits_ten k]

/-- C172. The copies of the model that count compute what the model computes, for all objects, with exceptions and undefined behaviour. -/
theorem C172_same (a b : BigInt) :
    (multiplyC a b).map Prod.fst = multiply a b ∧ (divideC a b).map Prod.fst = divide a b := by
  refine ⟨multiplyC_same a b, ?_⟩
  unfold divideC divide
  simp only [parse_zero, bind, Except.bind]
  split
  · rfl
  · rw [← divLoopC_same]
    cases divLoopC ⟨b.digits, false⟩ a.digits.reverse (mk' 0 false) (mk' 0 false) <;> rfl

/-- C172. It holds of `Multiply`: for `m` and `n` digits the body of the inner loop runs at least `m n` and at most `m (n + 1)` times. -/
theorem C172_multiply (x y : Int) : ∃ k, multiplyC (big x) (big y) = .ok (big (x * y), k) ∧
    numDigits x * numDigits y ≤ k ∧ k ≤ numDigits x * (numDigits y + 1) := by
  obtain ⟨k, h1, h2, h3⟩ := multiplyC_mk x.natAbs y.natAbs (decide (x < 0)) (decide (y < 0))
  refine ⟨k, ?_, h2, h3⟩
  have h := multiplyC_same (big x) (big y)
  rw [big_mk, big_mk, h1] at h
  rw [big_mk x, big_mk y, h1]
  rw [← big_mk, ← big_mk, multiply_big] at h
  simp only [Except.map, Except.ok.injEq] at h
  rw [h]

/-- C172, what holds of `Divide` (of an `m`-digit number by one of `n` digits, not zero). The loops over digits run at least `2 m n` and at most
`m (15 n + 1)` times. The digits moved are at least `0 + 1 + ... + (m - 1)`, whatever the divisor, and at most `m n` more. -/
theorem C172_partial (x y : Int) (h : y ≠ 0) : ∃ w, divideC (big x) (big y) = .ok (big (x.tdiv y), w) ∧
    w.passes ≤ numDigits x * (15 * numDigits y + 1) ∧
    numDigits x * numDigits x ≤ 2 * w.moved + numDigits x ∧
    2 * w.moved + numDigits x ≤ numDigits x * numDigits x + 2 * (numDigits x * numDigits y) ∧
    numDigits x * (2 * numDigits y) ≤ w.passes := by
  obtain ⟨r, w, h1, h2, h3, h4, h5⟩ := divideC_mk x.natAbs y.natAbs (decide (x < 0)) (decide (y < 0)) (by omega)
  have hs := (C172_same (big x) (big y)).2
  rw [← big_mk, ← big_mk] at h1
  rw [h1, divide_big _ _ h] at hs
  cases hs
  have := stairs_eq (digs x.natAbs).length 0
  rw [Nat.zero_mul] at this
  refine ⟨w, h1, h2, ?_, ?_, h5⟩ <;> unfold numDigits <;> omega

/-- C172 does not hold of `Divide`: for no `k` is the work at most `k` times the product of the numbers of digits, not even for divisors of one
digit. `quotient.digits_.insert(quotient.digits_.begin(), x)` moves every digit of the quotient found so far, in every round. -/
theorem C172_fails (k : Nat) : ∃ x, ∀ y : Int, 0 < y → y < 10 → ∀ q w, divideC (big x) (big y) = .ok (q, w) →
    k * (numDigits x * numDigits y) < w.passes + w.moved := by
  refine ⟨((10 ^ (2 * k + 1) : Nat) : Int), fun y h0 h1 q w e => ?_⟩
  obtain ⟨w', e', -, h2, -⟩ := C172_partial ((10 ^ (2 * k + 1) : Nat) : Int) y (by omega)
  rw [e'] at e
  cases e
  have hx : numDigits ((10 ^ (2 * k + 1) : Nat) : Int) = 2 * k + 2 := by unfold numDigits; rw [Int.natAbs_natCast, digits_ten]
  have hy : numDigits y ≤ 1 := (digs_small y.natAbs (by omega)).2 (by omega)
  rw [hx] at h2 ⊢
  have h5 : k * ((2 * k + 2) * numDigits y) ≤ k * (2 * k + 2) :=
    Nat.mul_le_mul_left k (by have := Nat.mul_le_mul_left (2 * k + 2) hy; omega)
  have h6 : (2 * k + 2) * (2 * k + 2) = 2 * (k * (2 * k + 2)) + 2 * (2 * k + 2) := by
    rw [Nat.add_mul, Nat.mul_assoc]
  omega

example : (divideC (big 12345678) (big 2)).map (·.2) = .ok ⟨62, 32⟩ := by decide +kernel
example : (multiplyC (big (-99)) (big 99)).map (·.2) = .ok 6 := by decide +kernel

end Caitlyn
