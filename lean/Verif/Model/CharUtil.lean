import Verif.Model.Char

/-!
# Model of `include/Caitlyn/__Core/Char/Utility.h`

Code points are natural numbers. The subtractions of the code happen only inside ranges
whose lower bound exceeds the subtrahend, so truncated subtraction on naturals
and `uint32_t` subtraction agree; the additions stay far below 2^32.
-/

namespace Caitlyn
namespace CharUtil

/-- The table of `IsSpace` (Utility.h:30-56). -/
def spaceCodepoints : List Nat :=
  [0x0009, 0x000A, 0x000B, 0x000C, 0x000D, 0x0020, 0x0085, 0x00A0, 0x1680, 0x2000, 0x2001, 0x2002, 0x2003, 0x2004, 0x2005, 0x2006, 0x2007, 0x2008, 0x2009, 0x200A, 0x2028, 0x2029, 0x202F, 0x205F, 0x3000]

/-- `IsSpace` (Utility.h:28-58). -/
def isSpace (cp : Nat) : Bool := spaceCodepoints.contains cp

/-- The ranges tested by `IsDigit` (Utility.h:62-134). -/
def digitRanges : List (Nat × Nat) :=
  [(0x0030, 0x0039),
   (0x0660, 0x0669),
   (0x06F0, 0x06F9),
   (0x07C0, 0x07C9),
   (0x0966, 0x096F),
   (0x09E6, 0x09EF),
   (0x0A66, 0x0A6F),
   (0x0AE6, 0x0AEF),
   (0x0B66, 0x0B6F),
   (0x0BE6, 0x0BEF),
   (0x0C66, 0x0C6F),
   (0x0CE6, 0x0CEF),
   (0x0D66, 0x0D6F),
   (0x0E50, 0x0E59),
   (0x0ED0, 0x0ED9),
   (0x0F20, 0x0F29),
   (0x1040, 0x1049),
   (0x1090, 0x1099),
   (0x17E0, 0x17E9),
   (0x1810, 0x1819),
   (0x1946, 0x194F),
   (0x19D0, 0x19D9),
   (0x1A80, 0x1A89),
   (0x1A90, 0x1A99),
   (0x1B50, 0x1B59),
   (0x1BB0, 0x1BB9),
   (0x1C40, 0x1C49),
   (0x1C50, 0x1C59),
   (0xA620, 0xA629),
   (0xA8D0, 0xA8D9),
   (0xA900, 0xA909),
   (0xA9D0, 0xA9D9),
   (0xA9F0, 0xA9F9),
   (0xAA50, 0xAA59),
   (0xABF0, 0xABF9),
   (0xFF10, 0xFF19)]

/-- `IsDigit` (Utility.h:60-135). -/
def isDigit (cp : Nat) : Bool := digitRanges.any fun r => decide (r.1 ≤ cp ∧ cp ≤ r.2)

/-- `ToUppercase(CodePoint)` (Utility.h:137-250); the first three tests are the
`SpecialCaseUpper` table. -/
def toUppercase (cp : Nat) : Nat :=
  if cp = 0x00DF then 0x1E9E
  else if cp = 0x0131 then 0x0049
  else if cp = 0x0149 then 0x02BC
  else if 0x61 ≤ cp ∧ cp ≤ 0x7A then cp - 0x20
  else if 0x430 ≤ cp ∧ cp ≤ 0x44F then cp - 0x20
  else if 0x3B1 ≤ cp ∧ cp ≤ 0x3C1 then cp - 0x20
  else if 0x3C3 ≤ cp ∧ cp ≤ 0x3C9 then cp - 0x20
  else if 0x1F00 ≤ cp ∧ cp ≤ 0x1F07 then cp - 0x08
  else if 0x1F10 ≤ cp ∧ cp ≤ 0x1F15 then cp - 0x08
  else if 0x1F20 ≤ cp ∧ cp ≤ 0x1F27 then cp - 0x08
  else if 0x1F30 ≤ cp ∧ cp ≤ 0x1F37 then cp - 0x08
  else if 0x1F40 ≤ cp ∧ cp ≤ 0x1F45 then cp - 0x08
  else if 0x1F60 ≤ cp ∧ cp ≤ 0x1F67 then cp - 0x08
  else if 0x1F70 ≤ cp ∧ cp ≤ 0x1F71 then cp + 0x56
  else if 0x1F72 ≤ cp ∧ cp ≤ 0x1F75 then cp + 0x64
  else if 0x1F76 ≤ cp ∧ cp ≤ 0x1F77 then cp + 0x80
  else if 0x1F78 ≤ cp ∧ cp ≤ 0x1F79 then cp + 0x7E
  else if 0x1F7A ≤ cp ∧ cp ≤ 0x1F7B then cp + 0x7C
  else if 0x1F7C ≤ cp ∧ cp ≤ 0x1F7D then cp + 0x7A
  else if 0x0100 ≤ cp ∧ cp ≤ 0x012F then (if cp % 2 = 0 then cp else cp - 1)
  else if 0x0132 ≤ cp ∧ cp ≤ 0x0137 then (if cp % 2 = 0 then cp else cp - 1)
  else if 0x0139 ≤ cp ∧ cp ≤ 0x0148 then (if cp % 2 = 0 then cp else cp - 1)
  else if 0x014A ≤ cp ∧ cp ≤ 0x0177 then (if cp % 2 = 0 then cp else cp - 1)
  else cp

/-- `ToLowercase(CodePoint)` (Utility.h:252-370); the first four tests are the
`SpecialCaseLower` table. Note the open range `0x1FEC ≤ cp` (Utility.h:332). -/
def toLowercase (cp : Nat) : Nat :=
  if cp = 0x1E9E then 0x00DF
  else if cp = 0x0130 then 0x0069
  else if cp = 0x212A then 0x006B
  else if cp = 0x212B then 0x00E5
  else if 0x41 ≤ cp ∧ cp ≤ 0x5A then cp + 0x20
  else if 0x410 ≤ cp ∧ cp ≤ 0x42F then cp + 0x20
  else if 0x391 ≤ cp ∧ cp ≤ 0x3A1 then cp + 0x20
  else if 0x3A3 ≤ cp ∧ cp ≤ 0x3A9 then cp + 0x20
  else if 0x1F08 ≤ cp ∧ cp ≤ 0x1F0F then cp - 0x08
  else if 0x1F18 ≤ cp ∧ cp ≤ 0x1F1D then cp - 0x08
  else if 0x1F28 ≤ cp ∧ cp ≤ 0x1F2F then cp - 0x08
  else if 0x1F38 ≤ cp ∧ cp ≤ 0x1F3F then cp - 0x08
  else if 0x1F48 ≤ cp ∧ cp ≤ 0x1F4D then cp - 0x08
  else if 0x1F68 ≤ cp ∧ cp ≤ 0x1F6F then cp - 0x08
  else if 0x1FB8 ≤ cp ∧ cp ≤ 0x1FB9 then cp - 0x08
  else if 0x1FBA ≤ cp ∧ cp ≤ 0x1FBB then cp - 0x08
  else if 0x1FC8 ≤ cp ∧ cp ≤ 0x1FCB then cp - 0x08
  else if 0x1FD8 ≤ cp ∧ cp ≤ 0x1FD9 then cp - 0x08
  else if 0x1FE8 ≤ cp ∧ cp ≤ 0x1FE9 then cp - 0x08
  else if 0x1FEA ≤ cp ∧ cp ≤ 0x1FEB then cp - 0x08
  else if 0x1FEC ≤ cp then cp - 0x08
  else if 0x0100 ≤ cp ∧ cp ≤ 0x012F then (if cp % 2 ≠ 0 then cp else cp + 1)
  else if 0x0132 ≤ cp ∧ cp ≤ 0x0137 then (if cp % 2 ≠ 0 then cp else cp + 1)
  else if 0x0139 ≤ cp ∧ cp ≤ 0x0148 then (if cp % 2 ≠ 0 then cp else cp + 1)
  else if 0x014A ≤ cp ∧ cp ≤ 0x0177 then (if cp % 2 ≠ 0 then cp else cp + 1)
  else cp

/-- `IsUppercase(CodePoint)` (Utility.h:382-455). -/
def isUppercase (cp : Nat) : Bool :=
  if cp = 0x1E9E ∨ cp = 0x0130 ∨ cp = 0x212A ∨ cp = 0x212B then true
  else if 0x41 ≤ cp ∧ cp ≤ 0x5A then true
  else if 0x410 ≤ cp ∧ cp ≤ 0x42F then true
  else if 0x391 ≤ cp ∧ cp ≤ 0x3A1 then true
  else if 0x3A3 ≤ cp ∧ cp ≤ 0x3A9 then true
  else if 0x1F08 ≤ cp ∧ cp ≤ 0x1F0F then true
  else if 0x1F18 ≤ cp ∧ cp ≤ 0x1F1D then true
  else if 0x1F28 ≤ cp ∧ cp ≤ 0x1F2F then true
  else if 0x1F38 ≤ cp ∧ cp ≤ 0x1F3F then true
  else if 0x1F48 ≤ cp ∧ cp ≤ 0x1F4D then true
  else if 0x1F68 ≤ cp ∧ cp ≤ 0x1F6F then true
  else if 0x1FB8 ≤ cp ∧ cp ≤ 0x1FBB then true
  else if 0x1FC8 ≤ cp ∧ cp ≤ 0x1FCB then true
  else if 0x1FD8 ≤ cp ∧ cp ≤ 0x1FDB then true
  else if 0x1FE8 ≤ cp ∧ cp ≤ 0x1FEC then true
  else false

/-- `IsLowercase(CodePoint)` (Utility.h:457-517). -/
def isLowercase (cp : Nat) : Bool :=
  if cp = 0x00DF ∨ cp = 0x0131 ∨ cp = 0x0149 then true
  else if 0x61 ≤ cp ∧ cp ≤ 0x7A then true
  else if 0x430 ≤ cp ∧ cp ≤ 0x44F then true
  else if 0x3B1 ≤ cp ∧ cp ≤ 0x3C1 then true
  else if 0x3C3 ≤ cp ∧ cp ≤ 0x3C9 then true
  else if 0x1F00 ≤ cp ∧ cp ≤ 0x1F07 then true
  else if 0x1F10 ≤ cp ∧ cp ≤ 0x1F15 then true
  else if 0x1F20 ≤ cp ∧ cp ≤ 0x1F27 then true
  else if 0x1F30 ≤ cp ∧ cp ≤ 0x1F37 then true
  else if 0x1F40 ≤ cp ∧ cp ≤ 0x1F45 then true
  else if 0x1F60 ≤ cp ∧ cp ≤ 0x1F67 then true
  else if 0x1F70 ≤ cp ∧ cp ≤ 0x1F7D then true
  else false

/-- `IsLetter` (Utility.h:519-522). -/
def isLetter (cp : Nat) : Bool := isUppercase cp || isLowercase cp

/-- `ToDigit` (Utility.h:524-531). -/
def toDigit (cp : Nat) : Int :=
  if 0x30 ≤ cp ∧ cp ≤ 0x39 then (cp : Int) - 0x30 else -1

/-- `ToUppercase(const Char&)` (Utility.h:372-375). -/
def toUppercaseChr (c : Chr) : Res Chr := do
  let cp ← c.getCodePoint
  return Chr.ofCodePoint (toUppercase cp)

/-- `ToLowercase(const Char&)` (Utility.h:377-380). -/
def toLowercaseChr (c : Chr) : Res Chr := do
  let cp ← c.getCodePoint
  return Chr.ofCodePoint (toLowercase cp)

end CharUtil
end Caitlyn
