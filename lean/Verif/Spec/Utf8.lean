/-!
# Specification: UTF-8

The reference encoder is Lean core's `String.utf8EncodeChar` (RFC 3629) on Lean's own `Char`
type, whose values are exactly the Unicode scalar values.
-/

namespace Caitlyn.Spec

/-- UTF-8 encoding of a sequence of scalar values. -/
def utf8 (cs : List Char) : List UInt8 := cs.flatMap String.utf8EncodeChar

/-- A sequence of scalar values without U+0000. -/
def NoNul (cs : List Char) : Prop := ∀ c ∈ cs, c ≠ Char.ofNat 0

/-- A byte sequence is well-formed UTF-8 (without NUL) if it encodes some scalar values. -/
def WellFormed (bs : List UInt8) : Prop := ∃ cs, NoNul cs ∧ utf8 cs = bs

end Caitlyn.Spec

namespace Caitlyn.Spec

/-- A continuation byte 10xxxxxx. -/
def Cont (b : UInt8) : Prop := 0x80 ≤ b ∧ b ≤ 0xBF

/-- A byte sequence that has the *shape* of one non-NUL UTF-8 character: a lead byte and the
number of continuation bytes it announces. Overlong forms, surrogates and
values above 0x10FFFF have this shape too. -/
inductive Shape : List UInt8 → Prop
  | one (b) : 0x01 ≤ b → b ≤ 0x7F → Shape [b]
  | two (b c) : 0xC0 ≤ b → b ≤ 0xDF → Cont c → Shape [b, c]
  | three (b c d) : 0xE0 ≤ b → b ≤ 0xEF → Cont c → Cont d → Shape [b, c, d]
  | four (b c d e) : 0xF0 ≤ b → b ≤ 0xF7 → Cont c → Cont d → Cont e → Shape [b, c, d, e]

end Caitlyn.Spec

namespace Caitlyn.Spec

/-- The beginning of a three- or four-byte character of which at least two bytes are missing. -/
inductive Truncated : List UInt8 → Prop
  | three (b) : 0xE0 ≤ b → b ≤ 0xEF → Truncated [b]
  | four1 (b) : 0xF0 ≤ b → b ≤ 0xF7 → Truncated [b]
  | four2 (b c) : 0xF0 ≤ b → b ≤ 0xF7 → Truncated [b, c]

end Caitlyn.Spec
