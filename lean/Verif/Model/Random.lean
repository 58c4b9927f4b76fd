import Verif.Model.Double
import Verif.Model.Comparators

/-!
# Model of `Random` and `RandomBoolean` (__Core/Utility/Random.h)

Every call makes a new engine, seeded with the clock (Random.h:36, 43, 50, 57, 64, 71, 78, 85, 92, 102). The engine is a
function from the clock's reading to the number drawn; nothing is assumed about it. The distributions of the standard
library are modelled by their specification: what they require of their parameters and which draws give which result.
Integer types are those of `Model/Comparators`.
-/

namespace Caitlyn.Rand
open Caitlyn Cmp

/-- `std::numeric_limits<T>::min()` for an integer type (Limits.h:28-32). -/
def limMin (ty : IntTy) : Int := if ty.signed then -(2 ^ (ty.bits - 1) : Nat) else 0

/-- `std::numeric_limits<T>::max()` for an integer type (Limits.h:34-38). -/
def limMax (ty : IntTy) : Int := if ty.signed then (2 ^ (ty.bits - 1) : Nat) - 1 else (2 ^ ty.bits : Nat) - 1

/-- `ValueRange<T>()` (Limits.h:40-44). -/
def valueRange (ty : IntTy) : Int × Int := (limMin ty, limMax ty)

/-- `std::uniform_int_distribution<T>{a, b}(engine)`: requires `a ≤ b` (C++11 26.5.8.2.1). -/
def uniformInt (a b : Int) (draw : Nat) : Res Int :=
  if a ≤ b then .ok (a + (draw : Int) % (b - a + 1)) else .error .ub

/-- `Random<T>(min, max)` for `Int16` to `UInt64` (Random.h:30-73); arguments that are left out have the default of
Random.h:31. -/
def random (engine : Nat → Nat) (clock : Nat) (ty : IntTy) (min max : Option Int) : Res Int :=
  uniformInt (min.getD (limMin ty)) (max.getD (limMax ty)) (engine clock)

/-- A floating point type: its smallest positive normal number and its largest number. -/
structure RealTy where
  /-- `std::numeric_limits<T>::min()` -/
  tiny : Rat
  /-- `std::numeric_limits<T>::max()` -/
  huge : Rat

/-- `double`. -/
def double : RealTy := ⟨1 / 2 ^ 1022, (2 ^ 53 - 1) * 2 ^ 971⟩

/-- `std::uniform_real_distribution<T>{a, b}(engine)` (C++11 26.5.8.2.2): requires `a ≤ b` and `b - a ≤ max`. `draw` is
in `[0, 1)`. Rounding is not modelled. -/
def uniformReal (ty : RealTy) (a b draw : Rat) : Res Rat :=
  if a ≤ b ∧ b - a ≤ ty.huge then .ok (a + draw * (b - a)) else .error .ub

/-- `Random<T>(min, max)` for `Float`, `Double`, `Decimal` (Random.h:75-94). -/
def randomReal (engine : Nat → Rat) (clock : Nat) (ty : RealTy) (min max : Option Rat) : Res Rat :=
  uniformReal ty (min.getD ty.tiny) (max.getD ty.huge) (engine clock)

/-- `p < 0.0`. -/
def ltZero : Dbl → Bool
  | .finite neg m _ => neg && m != 0
  | .inf neg => neg
  | .nan _ => false

/-- `p > 1.0`. -/
def gtOne : Dbl → Bool
  | .finite neg m e => !neg && (if 0 ≤ e then decide (m * 2 ^ e.toNat > 1) else decide (m > 2 ^ (-e).toNat))
  | .inf neg => !neg
  | .nan _ => false

/-- `std::bernoulli_distribution{p}(engine)` (C++11 26.5.8.3.1): requires `0 ≤ p ≤ 1`; compares a number `k / 2^53` with
`p`. -/
def bernoulli (p : Dbl) (k : Nat) : Res Bool :=
  match p with
  | .finite _ m e =>
    if ltZero p || gtOne p then .error .ub
    else if 0 ≤ e then .ok (decide (k < m * 2 ^ e.toNat * 2 ^ 53)) else .ok (decide (k * 2 ^ (-e).toNat < m * 2 ^ 53))
  | _ => .error .ub

/-- `RandomBoolean(percentage)` (Random.h:96-104); the engine gives a number below `2^53`. -/
def randomBoolean (engine : Nat → Nat) (clock : Nat) (p : Dbl) : Res Bool :=
  if ltZero p || gtOne p then .error .invalidArgument else bernoulli p (engine clock % 2 ^ 53)

end Caitlyn.Rand
