import Verif.Model.Str

/-!
# The named characters (__Core/Char/Defs.h), `Def::Empty` (__Core/String/Defs.h), the literals `_char` and `_str`

Each constant is a `const char*` to a string literal: the bytes of the literal and the terminator.
-/

namespace Caitlyn.Def

/-- The constants of Defs.h:26-153, in order, with the memory they point to. -/
def constants : List (String × List UInt8) :=
  [("Null", [0x00, 0]),
   ("StartOfHeading", [0x01, 0]),
   ("StartOfText", [0x02, 0]),
   ("EndOfText", [0x03, 0]),
   ("EndOfTransmission", [0x04, 0]),
   ("Enquiry", [0x05, 0]),
   ("Acknowledge", [0x06, 0]),
   ("Bell", [0x07, 0]),
   ("Backspace", [0x08, 0]),
   ("CharacterTabulation", [0x09, 0]),
   ("LineFeed", [0x0A, 0]),
   ("LineTabulation", [0x0B, 0]),
   ("FormFeed", [0x0C, 0]),
   ("CarriageReturn", [0x0D, 0]),
   ("ShiftOut", [0x0E, 0]),
   ("ShiftIn", [0x0F, 0]),
   ("DataLinkEscape", [0x10, 0]),
   ("DeviceControlOne", [0x11, 0]),
   ("DeviceControlTwo", [0x12, 0]),
   ("DeviceControlThree", [0x13, 0]),
   ("DeviceControlFour", [0x14, 0]),
   ("NegativeAcknowledge", [0x15, 0]),
   ("SynchronousIdle", [0x16, 0]),
   ("EndOfTransmissionBlock", [0x17, 0]),
   ("Cancel", [0x18, 0]),
   ("EndOfMedium", [0x19, 0]),
   ("Substitute", [0x1A, 0]),
   ("Escape", [0x1B, 0]),
   ("InformationSeparatorFour", [0x1C, 0]),
   ("InformationSeparatorThree", [0x1D, 0]),
   ("InformationSeparatorTwo", [0x1E, 0]),
   ("InformationSeparatorOne", [0x1F, 0]),
   ("Space", [0x20, 0]),
   ("ExclamationMark", [0x21, 0]),
   ("QuotationMark", [0x22, 0]),
   ("NumberSign", [0x23, 0]),
   ("DollarSign", [0x24, 0]),
   ("PercentSign", [0x25, 0]),
   ("Ampersand", [0x26, 0]),
   ("Apostrophe", [0x27, 0]),
   ("LeftParenthesis", [0x28, 0]),
   ("RightParenthesis", [0x29, 0]),
   ("Asterisk", [0x2A, 0]),
   ("PlusSign", [0x2B, 0]),
   ("Comma", [0x2C, 0]),
   ("HyphenMinus", [0x2D, 0]),
   ("FullStop", [0x2E, 0]),
   ("Solidus", [0x2F, 0]),
   ("DigitZero", [0x30, 0]),
   ("DigitOne", [0x31, 0]),
   ("DigitTwo", [0x32, 0]),
   ("DigitThree", [0x33, 0]),
   ("DigitFour", [0x34, 0]),
   ("DigitFive", [0x35, 0]),
   ("DigitSix", [0x36, 0]),
   ("DigitSeven", [0x37, 0]),
   ("DigitEight", [0x38, 0]),
   ("DigitNine", [0x39, 0]),
   ("Colon", [0x3A, 0]),
   ("Semicolon", [0x3B, 0]),
   ("LessThanSign", [0x3C, 0]),
   ("EqualsSign", [0x3D, 0]),
   ("GreaterThanSign", [0x3E, 0]),
   ("QuestionMark", [0x3F, 0]),
   ("CommercialAt", [0x40, 0]),
   ("LatinCapitalLetterA", [0x41, 0]),
   ("LatinCapitalLetterB", [0x42, 0]),
   ("LatinCapitalLetterC", [0x43, 0]),
   ("LatinCapitalLetterD", [0x44, 0]),
   ("LatinCapitalLetterE", [0x45, 0]),
   ("LatinCapitalLetterF", [0x46, 0]),
   ("LatinCapitalLetterG", [0x47, 0]),
   ("LatinCapitalLetterH", [0x48, 0]),
   ("LatinCapitalLetterI", [0x49, 0]),
   ("LatinCapitalLetterJ", [0x4A, 0]),
   ("LatinCapitalLetterK", [0x4B, 0]),
   ("LatinCapitalLetterL", [0x4C, 0]),
   ("LatinCapitalLetterM", [0x4D, 0]),
   ("LatinCapitalLetterN", [0x4E, 0]),
   ("LatinCapitalLetterO", [0x4F, 0]),
   ("LatinCapitalLetterP", [0x50, 0]),
   ("LatinCapitalLetterQ", [0x51, 0]),
   ("LatinCapitalLetterR", [0x52, 0]),
   ("LatinCapitalLetterS", [0x53, 0]),
   ("LatinCapitalLetterT", [0x54, 0]),
   ("LatinCapitalLetterU", [0x55, 0]),
   ("LatinCapitalLetterV", [0x56, 0]),
   ("LatinCapitalLetterW", [0x57, 0]),
   ("LatinCapitalLetterX", [0x58, 0]),
   ("LatinCapitalLetterY", [0x59, 0]),
   ("LatinCapitalLetterZ", [0x5A, 0]),
   ("LeftSquareBracket", [0x5B, 0]),
   ("ReverseSolidus", [0x5C, 0]),
   ("RightSquareBracket", [0x5D, 0]),
   ("CircumflexAccent", [0x5E, 0]),
   ("LowLine", [0x5F, 0]),
   ("GraveAccent", [0x60, 0]),
   ("LatinSmallLetterA", [0x61, 0]),
   ("LatinSmallLetterB", [0x62, 0]),
   ("LatinSmallLetterC", [0x63, 0]),
   ("LatinSmallLetterD", [0x64, 0]),
   ("LatinSmallLetterE", [0x65, 0]),
   ("LatinSmallLetterF", [0x66, 0]),
   ("LatinSmallLetterG", [0x67, 0]),
   ("LatinSmallLetterH", [0x68, 0]),
   ("LatinSmallLetterI", [0x69, 0]),
   ("LatinSmallLetterJ", [0x6A, 0]),
   ("LatinSmallLetterK", [0x6B, 0]),
   ("LatinSmallLetterL", [0x6C, 0]),
   ("LatinSmallLetterM", [0x6D, 0]),
   ("LatinSmallLetterN", [0x6E, 0]),
   ("LatinSmallLetterO", [0x6F, 0]),
   ("LatinSmallLetterP", [0x70, 0]),
   ("LatinSmallLetterQ", [0x71, 0]),
   ("LatinSmallLetterR", [0x72, 0]),
   ("LatinSmallLetterS", [0x73, 0]),
   ("LatinSmallLetterT", [0x74, 0]),
   ("LatinSmallLetterU", [0x75, 0]),
   ("LatinSmallLetterV", [0x76, 0]),
   ("LatinSmallLetterW", [0x77, 0]),
   ("LatinSmallLetterX", [0x78, 0]),
   ("LatinSmallLetterY", [0x79, 0]),
   ("LatinSmallLetterZ", [0x7A, 0]),
   ("LeftCurlyBracket", [0x7B, 0]),
   ("VerticalLine", [0x7C, 0]),
   ("RightCurlyBracket", [0x7D, 0]),
   ("Tilde", [0x7E, 0]),
   ("Delete", [0x7F, 0])]

/-- `Def::Empty` (__Core/String/Defs.h:26). -/
def empty : List UInt8 := [0]

/-- The constant with a name. -/
def named (name : String) : List UInt8 := (constants.lookup name).getD []

/-- `std::string(const char*)`: the bytes before the terminator. -/
def stdString (mem : List UInt8) : Res (List UInt8) :=
  if (0 : UInt8) ∈ mem then .ok (mem.takeWhile (· != 0)) else .error .ub

/-- `Char(const char*)` (Char.h:48-55), `operator=(const char*)` (Char.h:79-87), `"..."_char` (Char.h:297-300). -/
def char (mem : List UInt8) : Res Chr := do Chr.ofBytes (← stdString mem)

/-- `"..."_str` (String.h:1028-1031); the length is not used. -/
def strLiteral (mem : List UInt8) : Res Str := Str.ofCStr mem

end Caitlyn.Def
