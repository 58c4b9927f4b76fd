import Verif.Model.Enums

/-! # Property C131: the values of the enumerations -/

namespace Caitlyn
open Enums

/-- The number of bits that a unit is by its name (SI and IEC prefixes): the prefix in powers of 1000 or 1024, bits or bytes. -/
def Spec.bits : DataSize → Nat
  | .bit => 1 | .byte => 8
  | .kiloBit => 1000 | .kibiBit => 1024 | .kiloByte => 8 * 1000 | .kibiByte => 8 * 1024
  | .megaBit => 1000 ^ 2 | .mebiBit => 1024 ^ 2 | .megaByte => 8 * 1000 ^ 2 | .mebiByte => 8 * 1024 ^ 2
  | .gigaBit => 1000 ^ 3 | .gibiBit => 1024 ^ 3 | .gigaByte => 8 * 1000 ^ 3 | .gibibyt => 8 * 1024 ^ 3
  | .teraBit => 1000 ^ 4 | .tebiBit => 1024 ^ 4 | .teraByte => 8 * 1000 ^ 4 | .tebibyt => 8 * 1024 ^ 4
  | .petaBit => 1000 ^ 5 | .pebiBit => 1024 ^ 5 | .petaByte => 8 * 1000 ^ 5 | .pebiByte => 8 * 1024 ^ 5
  | .exaBit => 1000 ^ 6 | .exbiBit => 1024 ^ 6 | .exaByte => 8 * 1000 ^ 6 | .exbiByte => 8 * 1024 ^ 6
  | .zetaBit => 1000 ^ 7 | .zebiBit => 1024 ^ 7 | .zetaByte => 8 * 1000 ^ 7 | .zebiByte => 8 * 1024 ^ 7
  | .yottaBit => 1000 ^ 8 | .yobiBit => 1024 ^ 8 | .yottaByte => 8 * 1000 ^ 8 | .yobiByte => 8 * 1024 ^ 8

/-- C131. `DataSize`: one enumerator is less than another exactly if its unit is smaller, for all 34 units. -/
theorem C131_order (u v : DataSize) : u.value < v.value ↔ Spec.bits u < Spec.bits v := by
  cases u <;> cases v <;> decide

/-- C131. Different enumerators have different values. -/
theorem C131_distinct (u v : DataSize) : u.value = v.value ↔ u = v := by
  cases u <;> cases v <;> decide

/-- The base a `Radix` is named after. -/
def Spec.base : Radix → Nat
  | .binary => 2
  | .octal => 8
  | .decimal => 10
  | .hex => 16

/-- C131. `Radix`: the value of every enumerator is the largest digit of the base. -/
theorem C131_radix_partial (r : Radix) : r.value.toNat + 1 = Spec.base r := by cases r <;> rfl

/-- C131 is false for `Radix`: the value of no enumerator is its base. -/
theorem C131_fails (r : Radix) : r.value.toNat ≠ Spec.base r := by cases r <;> decide

/-- C131. `Sign` is the sign bit: `(-1) ^ value` is the sign. -/
theorem C131_sign : (-1 : Int) ^ Sign.positive.value.toNat = 1 ∧ (-1 : Int) ^ Sign.negative.value.toNat = -1 := by decide

example : DataSize.gibibyt.value = 13 ∧ DataSize.yobiByte.value = 33 := by decide

end Caitlyn
