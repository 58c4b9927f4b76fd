import Verif.Model.Locale

/-! # What C148 says of locales -/

namespace Caitlyn.Spec

variable {F : Type}

mutual

/-- The texts of the numbers of a tree, in the classic locale. -/
def numbers (ops : FloatOps F) : Json F → List Str
  | .obj ms => memberNumbers ops ms
  | .arr js => itemNumbers ops js
  | .float f => [(ops.print f).map Chr.ofByte]
  | .int i => [Json.intChars i]
  | _ => []

/-- The texts of the numbers of the members of an object. -/
def memberNumbers (ops : FloatOps F) : List (Str × Json F) → List Str
  | [] => []
  | (_, v) :: ms => numbers ops v ++ memberNumbers ops ms

/-- The texts of the numbers of the items of an array. -/
def itemNumbers (ops : FloatOps F) : List (Json F) → List Str
  | [] => []
  | j :: js => numbers ops j ++ itemNumbers ops js

end

/-- A number with `n` digits before the decimal point is written without separators. -/
def WholeFor (p : Punct) (n : Nat) : Prop := ∀ g, p.grouping.head? = some g → g = 0 ∨ 127 ≤ g ∨ n ≤ g

/-- The number of digits of an integer. -/
def digitCount (i : Int) : Nat := (Nat.toDigits 10 i.natAbs).length

end Caitlyn.Spec
