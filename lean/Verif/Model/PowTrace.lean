import Verif.Model.BigInt

/-!
# The numbers that `Pow` and `Sqrt` of `BigInteger` form

Copies of the model that list, with the result, the results of the calls of `Add`, `Subtract`, `Multiply` and `Divide` in `Pow` and `Sqrt`
(BigInteger.h:277-335), in order: each of them is an object with digits of its own. What is formed inside these calls, and the literals `1`
and `2`, are not listed. That the results are those of the model is proved (`C173_same`).
-/

namespace Caitlyn.BigInt

/-- `powLoop` (BigInteger.h:286-294). -/
def powLoopT : Nat → BigInt → BigInt → Int → Res (BigInt × List BigInt)
  | 0, _, _, _ => .error .fuel
  | n + 1, result, base, exponent =>
    if 0 < exponent then do
      let (result, l) ← if exponent.tmod 2 = 1 then do
          let p ← multiply result base
          pure (p, [p])
        else .ok (result, [])
      let square ← multiply base base
      let (r, l') ← powLoopT n result square (exponent.tdiv 2)
      return (r, l ++ square :: l')
    else .ok (result, [])

/-- `Pow` (BigInteger.h:277-296). -/
def powT (fuel : Nat) (a : BigInt) (exponent : Int) : Res (BigInt × List BigInt) :=
  if exponent < 0 then .error .invalidArgument
  else do powLoopT fuel (← parse c!"1") a exponent

/-- `sqrtLoop` (BigInteger.h:317-333). -/
def sqrtLoopT (this : BigInt) : Nat → BigInt → BigInt → Res (BigInt × List BigInt)
  | 0, _, _ => .error .fuel
  | n + 1, low, high =>
    if lessThan low high || equal low high then do
      let sum ← add low high
      let mid ← divide sum (← parse c!"2")
      let squared ← sqr mid
      if equal squared this then .ok (mid, [sum, mid, squared])
      else if lessThan squared this then do
        let low ← add mid (← parse c!"1")
        let (r, l) ← sqrtLoopT this n low high
        return (r, sum :: mid :: squared :: low :: l)
      else do
        let high ← subtract mid (← parse c!"1")
        let (r, l) ← sqrtLoopT this n low high
        return (r, sum :: mid :: squared :: high :: l)
    else .ok (high, [])

/-- `Sqrt` (BigInteger.h:303-335). -/
def sqrtT (fuel : Nat) (a : BigInt) : Res (BigInt × List BigInt) :=
  if a.neg then .error .invalidArgument
  else do
    if equal a (← parse c!"0") || equal a (← parse c!"1") then .ok (a, [])
    else sqrtLoopT a fuel (← parse c!"1") a

example : (powT 5 ⟨[2], false⟩ 5).map (·.2.map (·.digits)) = .ok [[2], [4], [6, 1], [2, 3], [6, 5, 2]] := by decide +kernel
example : (sqrtT 9 ⟨[0, 1], false⟩).map (·.2.map (·.digits)) = .ok [[1, 1], [5], [5, 2], [4], [5], [2], [4], [3], [7], [3], [9], [4], [8], [4],
    [6, 1], [3]] := by decide +kernel

end Caitlyn.BigInt
