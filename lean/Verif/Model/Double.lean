import Verif.Basic

/-!
# `double` and `std::to_string(double)`

Used by `BigFloat(double)` (BigFloat.h:33-35). `std::to_string(double)` is `sprintf("%f")` (C++17 23.3.3): the value
rounded to six decimals (IEC 60559, round to nearest, ties to even), in the "C" locale.
-/

namespace Caitlyn

/-- A `double` (IEC 60559 binary64): `±m·2^e`, an infinity or a NaN. Every `m` and `e` is allowed here; the numbers of
the format have `m < 2^53` and `-1074 ≤ e ≤ 971`. -/
inductive Dbl where
  | finite (neg : Bool) (m : Nat) (e : Int)
  | inf (neg : Bool)
  | nan (neg : Bool)

namespace Dbl

/-- The integer nearest to `a / b`, the even one of two. -/
def roundEven (a b : Nat) : Nat :=
  let q := a / b
  let r := a % b
  if 2 * r < b then q else if b < 2 * r then q + 1 else if q % 2 = 0 then q else q + 1

/-- `m·2^e` in millionths, rounded. -/
def millionths (m : Nat) (e : Int) : Nat :=
  if 0 ≤ e then m * 2 ^ e.toNat * 1000000 else roundEven (m * 1000000) (2 ^ (-e).toNat)

/-- `k` decimal digits of `n`, with leading zeros. -/
def padded : Nat → Nat → List Char
  | 0, _ => []
  | k + 1, n => padded k (n / 10) ++ [Char.ofNat (48 + n % 10)]

/-- `std::to_string(double)`. -/
def toChars : Dbl → List Char
  | finite neg m e =>
    (if neg then ['-'] else []) ++ Nat.toDigits 10 (millionths m e / 1000000) ++ '.' ::
      padded 6 (millionths m e % 1000000)
  | inf neg => if neg then ['-', 'i', 'n', 'f'] else ['i', 'n', 'f']
  | nan neg => if neg then ['-', 'n', 'a', 'n'] else ['n', 'a', 'n']

/-- `std::to_string(double)` as bytes. -/
def text (d : Dbl) : List UInt8 := d.toChars.map fun c => UInt8.ofNat c.toNat

example : text (finite true 5 (-1)) = [0x2D, 0x32, 0x2E, 0x35, 0x30, 0x30, 0x30, 0x30, 0x30] := by decide

end Dbl
end Caitlyn
