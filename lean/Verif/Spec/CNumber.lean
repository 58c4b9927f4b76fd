import Verif.Spec.Escape

/-!
# Hexadecimal numbers as the C library reads them

The subject sequence of `strtol` and `strtoul` in base 16 (C11 7.22.1.4, "C" locale): white space, an optional sign, an
optional `0x` or `0X`, and the longest run of hexadecimal digits; what follows is ignored.
-/

namespace Caitlyn.Spec

/-- White space of the "C" locale: space, tabulators, line feed, form feed, carriage return. -/
def cBlanks : List UInt8 := [0x20, 0x09, 0x0A, 0x0B, 0x0C, 0x0D]

/-- An optional sign and whether it is a minus. -/
inductive CSign : List UInt8 → Bool → Prop where
  | none : CSign [] false
  | plus : CSign b!"+" false
  | minus : CSign b!"-" true

/-- Hexadecimal digits, at least one, and the number they write. -/
inductive HexDigits : List UInt8 → Nat → Prop where
  | one (b : UInt8) (v : Nat) : hexValue b = some v → HexDigits [b] v
  | more (ds : List UInt8) (n : Nat) (b : UInt8) (v : Nat) : HexDigits ds n → hexValue b = some v →
      HexDigits (ds ++ [b]) (16 * n + v)

/-- A byte that goes on with `x` or `X` and a hexadecimal digit. -/
def HexTail (rest : List UInt8) : Prop :=
  ∃ x d more v, rest = x :: d :: more ∧ x ∈ b!"xX" ∧ hexValue d = some v

/-- The text starts with a hexadecimal number: its sign and its magnitude. -/
inductive HexNumber : List UInt8 → Bool → Nat → Prop where
  | mk (blanks sign pre ds rest : List UInt8) (neg : Bool) (n : Nat) : (∀ b ∈ blanks, b ∈ cBlanks) → CSign sign neg →
      pre ∈ [[], b!"0x", b!"0X"] → HexDigits ds n → (∀ b, rest.head? = some b → hexValue b = none) →
      ¬ (pre = [] ∧ ds = b!"0" ∧ HexTail rest) → HexNumber (blanks ++ sign ++ pre ++ ds ++ rest) neg n

/-- The byte with the value of a signed number, modulo 256. -/
def byteOf (neg : Bool) (n : Nat) : UInt8 := UInt8.ofNat ((if neg then -(n : Int) else n) % 256).toNat

end Caitlyn.Spec
