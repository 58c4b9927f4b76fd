import Verif.Model.BigInt

/-!
# What `Multiply`, `Subtract` and `Divide` of `BigInteger` do with the digits

Copies of the model that count, with the result, the passes of the loops over digits (BigInteger.h:172-190, 200-210) and the digits that
`std::vector::insert` at the beginning moves (BigInteger.h:230, 249). Comparisons of numbers, copies of whole numbers and the removal of
leading zeros, which come once or twice for every such loop, are not counted. That the results are those of the model is proved (`C172_same`).
-/

namespace Caitlyn.BigInt

/-- `mulInner` (BigInteger.h:203-209) with the passes of the loop. -/
def mulInnerC (x : Int) : List Int → List Int → Int → Res (List Int × Nat)
  | ys, rs, carry =>
    match rs with
    | [] => if ys.isEmpty ∧ carry = 0 then .ok ([], 0) else .error .ub
    | r :: rs' =>
      if ys.isEmpty ∧ carry = 0 then .ok (r :: rs', 0)
      else do
        let prod ← chkInt (x * ys.headD 0)
        let sum ← chkInt (r + prod)
        let sum ← chkInt (sum + carry)
        let (rest, k) ← mulInnerC x ys.tail rs' (sum.tdiv 10)
        return (sum.tmod 10 :: rest, k + 1)

/-- `mulOuter` (BigInteger.h:200-210) with the passes of the inner loop. -/
def mulOuterC : List Int → List Int → List Int → Res (List Int × Nat)
  | [], _, rs => .ok (rs, 0)
  | x :: xs, ys, rs => do
    let (rs', k) ← mulInnerC x ys rs 0
    let (rest, l) ← mulOuterC xs ys rs'.tail
    return (rs'.take 1 ++ rest, k + l)

/-- `Multiply` (BigInteger.h:195-214). -/
def multiplyC (a b : BigInt) : Res (BigInt × Nat) := do
  let (ds, k) ← mulOuterC a.digits b.digits (List.replicate (a.digits.length + b.digits.length) 0)
  return (removeLeadingZeros ⟨ds, a.neg != b.neg⟩, k)

/-- The passes of the loop of `Subtract` (BigInteger.h:160-190) for numbers of the same sign: none if they are equal, else as many as the
larger has digits. -/
def subPasses (a b : BigInt) : Nat :=
  if equal a b then 0 else if lessThan a b then b.digits.length else a.digits.length

/-- `divSearch` (BigInteger.h:235-248) with the passes in its multiplications. -/
def divSearchC (divisor current : BigInt) : Nat → Int → Int → Int → Res (Int × Nat)
  | 0, _, _, _ => .error .fuel
  | n + 1, x, left, right =>
    if left ≤ right then do
      let mid := (left + right).tdiv 2
      let (tmp, k) ← multiplyC divisor (← ofInt mid)
      if lessThan tmp current || equal tmp current then do
        let (r, l) ← divSearchC divisor current n mid (mid + 1) right
        return (r, k + l)
      else do
        let (r, l) ← divSearchC divisor current n x left (mid - 1)
        return (r, k + l)
    else .ok (x, 0)

/-- The work of a division. -/
structure Work where
  /-- passes of the loops over digits -/
  passes : Nat
  /-- digits moved to make room for one before them -/
  moved : Nat
deriving DecidableEq

/-- `divLoop` (BigInteger.h:228-251) with the work: `current.digits_.insert` moves the digits of `current` (230), `quotient.digits_.insert` those
of the quotient (249). Both numbers are without sign here, so that `Subtract` does not call `Add`. -/
def divLoopC (divisor : BigInt) : List Int → BigInt → BigInt → Res (BigInt × Work)
  | [], quotient, _ => .ok (quotient, ⟨0, 0⟩)
  | d :: ds, quotient, current => do
    let old := current.digits.length
    let current := removeLeadingZeros ⟨d :: current.digits, current.neg⟩
    let (x, k) ← divSearchC divisor current 12 0 0 10
    let (p, l) ← multiplyC divisor (← ofInt x)
    let next ← subtract current p
    let (q, w) ← divLoopC divisor ds ⟨x :: quotient.digits, quotient.neg⟩ next
    return (q, ⟨k + l + subPasses current p + w.passes, old + quotient.digits.length + w.moved⟩)

/-- `Divide` (BigInteger.h:216-257). -/
def divideC (a b : BigInt) : Res (BigInt × Work) := do
  if equal b (← parse c!"0") then .error .invalidArgument
  else do
    let (q, w) ← divLoopC ⟨b.digits, false⟩ a.digits.reverse (← parse c!"0") (← parse c!"0")
    return (removeLeadingZeros ⟨q.digits, a.neg != b.neg⟩, w)

example : (divideC ⟨[4, 3, 2, 1], false⟩ ⟨[2], false⟩).map (·.1.digits) = .ok [7, 1, 6] := by decide +kernel

end Caitlyn.BigInt
