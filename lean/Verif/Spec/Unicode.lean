import Verif.Basic

/-!
# Data of the Unicode standard

Names of the ASCII characters (the names of the control characters are those of ISO 6429 that the code charts give),
the property White_Space, the category Nd (decimal digits) in the Basic Multilingual Plane, and the pairs of upper and lower
case letters of Latin, Greek and Cyrillic (simple case mappings). The tables were compared with Python's `unicodedata`
(Unicode 14).
-/

namespace Caitlyn.Spec.Unicode

/-- The names of U+0000 to U+007F. -/
def asciiNames : List String :=
  ["NULL",
   "START OF HEADING",
   "START OF TEXT",
   "END OF TEXT",
   "END OF TRANSMISSION",
   "ENQUIRY",
   "ACKNOWLEDGE",
   "BELL",
   "BACKSPACE",
   "CHARACTER TABULATION",
   "LINE FEED",
   "LINE TABULATION",
   "FORM FEED",
   "CARRIAGE RETURN",
   "SHIFT OUT",
   "SHIFT IN",
   "DATA LINK ESCAPE",
   "DEVICE CONTROL ONE",
   "DEVICE CONTROL TWO",
   "DEVICE CONTROL THREE",
   "DEVICE CONTROL FOUR",
   "NEGATIVE ACKNOWLEDGE",
   "SYNCHRONOUS IDLE",
   "END OF TRANSMISSION BLOCK",
   "CANCEL",
   "END OF MEDIUM",
   "SUBSTITUTE",
   "ESCAPE",
   "INFORMATION SEPARATOR FOUR",
   "INFORMATION SEPARATOR THREE",
   "INFORMATION SEPARATOR TWO",
   "INFORMATION SEPARATOR ONE",
   "SPACE",
   "EXCLAMATION MARK",
   "QUOTATION MARK",
   "NUMBER SIGN",
   "DOLLAR SIGN",
   "PERCENT SIGN",
   "AMPERSAND",
   "APOSTROPHE",
   "LEFT PARENTHESIS",
   "RIGHT PARENTHESIS",
   "ASTERISK",
   "PLUS SIGN",
   "COMMA",
   "HYPHEN-MINUS",
   "FULL STOP",
   "SOLIDUS",
   "DIGIT ZERO",
   "DIGIT ONE",
   "DIGIT TWO",
   "DIGIT THREE",
   "DIGIT FOUR",
   "DIGIT FIVE",
   "DIGIT SIX",
   "DIGIT SEVEN",
   "DIGIT EIGHT",
   "DIGIT NINE",
   "COLON",
   "SEMICOLON",
   "LESS-THAN SIGN",
   "EQUALS SIGN",
   "GREATER-THAN SIGN",
   "QUESTION MARK",
   "COMMERCIAL AT",
   "LATIN CAPITAL LETTER A",
   "LATIN CAPITAL LETTER B",
   "LATIN CAPITAL LETTER C",
   "LATIN CAPITAL LETTER D",
   "LATIN CAPITAL LETTER E",
   "LATIN CAPITAL LETTER F",
   "LATIN CAPITAL LETTER G",
   "LATIN CAPITAL LETTER H",
   "LATIN CAPITAL LETTER I",
   "LATIN CAPITAL LETTER J",
   "LATIN CAPITAL LETTER K",
   "LATIN CAPITAL LETTER L",
   "LATIN CAPITAL LETTER M",
   "LATIN CAPITAL LETTER N",
   "LATIN CAPITAL LETTER O",
   "LATIN CAPITAL LETTER P",
   "LATIN CAPITAL LETTER Q",
   "LATIN CAPITAL LETTER R",
   "LATIN CAPITAL LETTER S",
   "LATIN CAPITAL LETTER T",
   "LATIN CAPITAL LETTER U",
   "LATIN CAPITAL LETTER V",
   "LATIN CAPITAL LETTER W",
   "LATIN CAPITAL LETTER X",
   "LATIN CAPITAL LETTER Y",
   "LATIN CAPITAL LETTER Z",
   "LEFT SQUARE BRACKET",
   "REVERSE SOLIDUS",
   "RIGHT SQUARE BRACKET",
   "CIRCUMFLEX ACCENT",
   "LOW LINE",
   "GRAVE ACCENT",
   "LATIN SMALL LETTER A",
   "LATIN SMALL LETTER B",
   "LATIN SMALL LETTER C",
   "LATIN SMALL LETTER D",
   "LATIN SMALL LETTER E",
   "LATIN SMALL LETTER F",
   "LATIN SMALL LETTER G",
   "LATIN SMALL LETTER H",
   "LATIN SMALL LETTER I",
   "LATIN SMALL LETTER J",
   "LATIN SMALL LETTER K",
   "LATIN SMALL LETTER L",
   "LATIN SMALL LETTER M",
   "LATIN SMALL LETTER N",
   "LATIN SMALL LETTER O",
   "LATIN SMALL LETTER P",
   "LATIN SMALL LETTER Q",
   "LATIN SMALL LETTER R",
   "LATIN SMALL LETTER S",
   "LATIN SMALL LETTER T",
   "LATIN SMALL LETTER U",
   "LATIN SMALL LETTER V",
   "LATIN SMALL LETTER W",
   "LATIN SMALL LETTER X",
   "LATIN SMALL LETTER Y",
   "LATIN SMALL LETTER Z",
   "LEFT CURLY BRACKET",
   "VERTICAL LINE",
   "RIGHT CURLY BRACKET",
   "TILDE",
   "DELETE"]

/-- The property White_Space. -/
def WhiteSpace (cp : Nat) : Prop :=
  0x9 ≤ cp ∧ cp ≤ 0xD ∨ cp = 0x20 ∨ cp = 0x85 ∨ cp = 0xA0 ∨ cp = 0x1680 ∨ 0x2000 ≤ cp ∧ cp ≤ 0x200A ∨ cp = 0x2028 ∨
    cp = 0x2029 ∨ cp = 0x202F ∨ cp = 0x205F ∨ cp = 0x3000

/-- The digits zero of the decimal digits (category Nd) up to U+FFFF; each is followed by the digits one to nine. -/
def zeros : List Nat :=
  [0x0030, 0x0660, 0x06F0, 0x07C0, 0x0966, 0x09E6, 0x0A66, 0x0AE6, 0x0B66, 0x0BE6, 0x0C66, 0x0CE6, 0x0D66, 0x0DE6, 0x0E50,
   0x0ED0, 0x0F20, 0x1040, 0x1090, 0x17E0, 0x1810, 0x1946, 0x19D0, 0x1A80, 0x1A90, 0x1B50, 0x1BB0, 0x1C40, 0x1C50, 0xA620,
   0xA8D0, 0xA900, 0xA9D0, 0xA9F0, 0xAA50, 0xABF0, 0xFF10]

/-- A decimal digit of the Basic Multilingual Plane with its value. -/
def DecimalDigit (cp value : Nat) : Prop := value < 10 ∧ ∃ z ∈ zeros, cp = z + value

/-- A row of letters: `count` upper case letters from `upper` on and their lower case letters from `lower` on, in both cases
at a distance of `step`. -/
structure Row where
  upper : Nat
  lower : Nat
  count : Nat
  step : Nat := 1
  deriving DecidableEq

/-- The letters of Basic Latin, Latin-1, Latin Extended-A, Greek and Cyrillic (basic and accented), Greek Extended that have
a simple case mapping to one another; archaic Greek and Coptic letters and the title case letters of Greek Extended are left
out. -/
def rows : List Row :=
  [⟨0x41, 0x61, 26, 1⟩, ⟨0xC0, 0xE0, 23, 1⟩, ⟨0xD8, 0xF8, 7, 1⟩, ⟨0x178, 0xFF, 1, 1⟩,
   ⟨0x100, 0x101, 24, 2⟩, ⟨0x132, 0x133, 3, 2⟩, ⟨0x139, 0x13A, 8, 2⟩, ⟨0x14A, 0x14B, 23, 2⟩, ⟨0x179, 0x17A, 3, 2⟩,
   ⟨0x391, 0x3B1, 17, 1⟩, ⟨0x3A3, 0x3C3, 7, 1⟩, ⟨0x3AA, 0x3CA, 2, 1⟩, ⟨0x386, 0x3AC, 1, 1⟩, ⟨0x388, 0x3AD, 3, 1⟩,
   ⟨0x38C, 0x3CC, 1, 1⟩, ⟨0x38E, 0x3CD, 2, 1⟩, ⟨0x410, 0x430, 32, 1⟩, ⟨0x400, 0x450, 16, 1⟩,
   ⟨0x1F08, 0x1F00, 8, 1⟩, ⟨0x1F18, 0x1F10, 6, 1⟩, ⟨0x1F28, 0x1F20, 8, 1⟩, ⟨0x1F38, 0x1F30, 8, 1⟩, ⟨0x1F48, 0x1F40, 6, 1⟩,
   ⟨0x1F59, 0x1F51, 4, 2⟩, ⟨0x1F68, 0x1F60, 8, 1⟩, ⟨0x1FBA, 0x1F70, 2, 1⟩, ⟨0x1FC8, 0x1F72, 4, 1⟩, ⟨0x1FDA, 0x1F76, 2, 1⟩,
   ⟨0x1FF8, 0x1F78, 2, 1⟩, ⟨0x1FEA, 0x1F7A, 2, 1⟩, ⟨0x1FFA, 0x1F7C, 2, 1⟩, ⟨0x1FB8, 0x1FB0, 2, 1⟩, ⟨0x1FD8, 0x1FD0, 2, 1⟩,
   ⟨0x1FE8, 0x1FE0, 2, 1⟩, ⟨0x1FEC, 0x1FE5, 1, 1⟩]

/-- `u` and `l` are an upper case letter of one of the rows `rs` and its lower case letter. -/
def Pair (rs : List Row) (u l : Nat) : Prop := ∃ r ∈ rs, ∃ i < r.count, u = r.upper + i * r.step ∧ l = r.lower + i * r.step

end Caitlyn.Spec.Unicode
