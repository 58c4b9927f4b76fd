import Verif.Spec.Decimal

/-!
# Reference: decimal numerals with a point and the rational numbers they denote

Independent of the model of `BigFloat`. Rational numbers are Lean core's.
-/

namespace Caitlyn.Spec

/-- The value of an ASCII digit. -/
def digitValue (c : Chr) : Option Nat :=
  match c.data with
  | [b] => if 0x30 ≤ b ∧ b ≤ 0x39 then some (b.toNat - 0x30) else none
  | _ => none

/-- The number denoted by a non-empty sequence of ASCII digits. -/
def decValue (s : Str) : Option Nat :=
  if s = [] then none else s.foldlM (fun acc c => (digitValue c).map (10 * acc + ·)) 0

/-- The number denoted by digits, or by digits, a point and digits. -/
def unsignedValue (s : Str) : Option Rat :=
  match s.dropWhile (· ≠ ⟨b!"."⟩) with
  | [] => (decValue s).map fun n => (n : Rat)
  | _ :: f => do
    let i ← decValue (s.takeWhile (· ≠ ⟨b!"."⟩))
    let n ← decValue f
    return (i : Rat) + (n : Rat) / 10 ^ f.length

/-- The number a decimal numeral denotes: an optional minus sign, digits, and optionally a point and digits.
`none` for anything else. -/
def denote : Str → Option Rat
  | [] => none
  | c :: s => if c = ⟨b!"-"⟩ then (unsignedValue s).map (- ·) else unsignedValue (c :: s)

example : denote c!"-12.050" = some (-241 / 20) ∧ denote c!"7" = some 7 ∧ denote c!"0.-5" = none ∧
    denote c!".5" = none ∧ denote c!"+1" = none := by decide +kernel

end Caitlyn.Spec
