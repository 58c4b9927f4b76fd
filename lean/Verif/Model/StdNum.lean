import Verif.Basic

/-!
# Model of the standard number parsers used by the code

`std::stoi`, `std::stoul`, `std::stoll` (C++11 21.5, through `strtol`, `strtoul`, `strtoll`,
C11 7.22.1.4) in the "C" locale: skip white space, optional sign, for base 16 an optional
`0x`/`0X`, then the longest run of digits. The rest of the text is ignored.
-/

namespace Caitlyn.StdNum

/-- C `isspace` in the "C" locale. -/
def isSpace (b : UInt8) : Bool := b == 0x20 || (0x09 ≤ b && b ≤ 0x0D)

/-- Value of a digit (any base up to 36). -/
def digitVal (b : UInt8) : Option Nat :=
  if 0x30 ≤ b && b ≤ 0x39 then some (b.toNat - 0x30)
  else if 0x61 ≤ b && b ≤ 0x7A then some (b.toNat - 0x61 + 10)
  else if 0x41 ≤ b && b ≤ 0x5A then some (b.toNat - 0x41 + 10)
  else none

/-- `b` is a digit in base `base`. -/
def isDigitIn (base : Nat) (b : UInt8) : Bool :=
  match digitVal b with
  | some d => decide (d < base)
  | none => false

/-- Value of a run of digits, most significant first. -/
def digitsVal (base : Nat) (ds : List UInt8) : Nat :=
  ds.foldl (fun acc b => acc * base + (digitVal b).getD 0) 0

/-- Optional sign. -/
def sign : List UInt8 → Bool × List UInt8
  | 0x2D :: s => (true, s)
  | 0x2B :: s => (false, s)
  | s => (false, s)

/-- Optional prefix `0x` or `0X` of base 16; only if a hexadecimal digit follows. -/
def hexPrefix (base : Nat) (s : List UInt8) : List UInt8 :=
  match s with
  | 0x30 :: x :: d :: s =>
    if base = 16 ∧ (x = 0x78 ∨ x = 0x58) ∧ isDigitIn 16 d = true then d :: s else 0x30 :: x :: d :: s
  | s => s

/-- The sign and magnitude read by `strtol` and relatives; `none` if there is no digit (no conversion).
A NUL byte ends the C string; it is not a digit, so it needs no special treatment. -/
def parse (base : Nat) (s : List UInt8) : Option (Bool × Nat) :=
  let (neg, s) := sign (s.dropWhile isSpace)
  let ds := (hexPrefix base s).takeWhile (isDigitIn base)
  if ds = [] then none else some (neg, digitsVal base ds)

/-- Signed conversion into the range `[-2^(bits-1), 2^(bits-1))`. -/
def signed (bits : Nat) (base : Nat) (s : List UInt8) : Res Int :=
  match parse base s with
  | none => .error .invalidArgument
  | some (neg, n) =>
    let v : Int := if neg then -(n : Int) else n
    if -(2 ^ (bits - 1)) ≤ v ∧ v < 2 ^ (bits - 1) then .ok v else .error .outOfRange

/-- `std::stoi(s, nullptr, base)` (32-bit `int`). -/
def stoi (base : Nat) (s : List UInt8) : Res Int := signed 32 base s

/-- `std::stoll(s)` (64-bit `long long`). -/
def stoll (base : Nat) (s : List UInt8) : Res Int := signed 64 base s

/-- `std::stoul(s, nullptr, base)` (64-bit `unsigned long`): a minus sign negates modulo `2^64`. -/
def stoul (base : Nat) (s : List UInt8) : Res Nat :=
  match parse base s with
  | none => .error .invalidArgument
  | some (neg, n) =>
    if n ≥ 2 ^ 64 then .error .outOfRange
    else .ok (if neg then (2 ^ 64 - n) % 2 ^ 64 else n)

example : stoi 16 [0x31, 0x46, 0x7A] = .ok 31 := by decide
example : stoul 10 [0x20, 0x2D, 0x31] = .ok (2 ^ 64 - 1) := by decide
example : stoll 10 [0x2D, 0x78] = .error .invalidArgument := by decide

end Caitlyn.StdNum
