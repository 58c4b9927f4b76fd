import Verif.Spec.Format

/-!
# Specification: full format specifications

`{:[[fill]align][width][.precision][type]}` as a record, how it is typed, and a decimal numeral cut to a
number of places.
-/

namespace Caitlyn.Spec
open Caitlyn.Format (Alignment ValueType)

/-- The parts of a specification; every part may be left out. -/
structure FormatSpec where
  align : Option (Option Chr × Alignment) := none
  width : Option Nat := none
  precision : Option Nat := none
  type : Option ValueType := none
  deriving DecidableEq

namespace FormatSpec

/-- The letter of a value type. -/
def letter : ValueType → Chr
  | .string => ⟨b!"s"⟩
  | .integral => ⟨b!"d"⟩
  | .floating => ⟨b!"f"⟩

/-- How the alignment is typed. -/
def alignPart : Option (Option Chr × Alignment) → Str
  | none => []
  | some (fill, a) => fill.toList ++ [sideChar a]

/-- How the width is typed. -/
def widthPart : Option Nat → Str
  | none => []
  | some w => decimal w

/-- How the precision is typed. -/
def precisionPart : Option Nat → Str
  | none => []
  | some p => ⟨b!"."⟩ :: decimal p

/-- How the type is typed. -/
def typePart : Option ValueType → Str
  | none => []
  | some t => [letter t]

/-- How the specification is typed, after the colon. -/
def written (s : FormatSpec) : Str :=
  alignPart s.align ++ (widthPart s.width ++ (precisionPart s.precision ++ typePart s.type))

/-- The fill character, a space if none is given. -/
def fill (s : FormatSpec) : Chr := (s.align.bind Prod.fst).getD ⟨b!" "⟩

/-- The side, left if none is given. -/
def side (s : FormatSpec) : Alignment := (s.align.map Prod.snd).getD .left

/-- A text padded as the specification says. -/
def padded (s : FormatSpec) (t : Str) : Str := pad s.fill s.side (s.width.getD 0) t

end FormatSpec

/-- The ASCII digits. -/
def digitChrs : Str := c!"0123456789"

/-- The fraction digits cut or filled with zeros to `p` places. -/
def places (p : Nat) (frac : Str) : Str := (frac ++ List.replicate p (⟨b!"0"⟩ : Chr)).take p

end Caitlyn.Spec
