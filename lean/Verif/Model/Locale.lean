import Verif.Model.JsonData
import Verif.Model.BigFloat
import Verif.Model.Double
import Verif.Model.Format

/-!
# Numbers and the locale of the program

A program may set a locale: `std::setlocale(LC_ALL, "")` changes what `std::to_string(double)` writes and what `std::stod`
reads, `std::locale::global(std::locale(""))` changes this and what every stream created later writes. The library takes
its streams and conversions as they are: `std::ostringstream oss` in `JsonData::ToString` (JsonData.h:344), `std::stod`
in `JsonParser::ParseNumber` (JsonParser.h:382), `std::to_string` in `BigFloat(double)` (BigFloat.h:33), `MakeFloating`
(JsonData.h:657) and `String::MakeString` (String.h:726).

Modelled of a locale: the decimal point and, for streams, the separator of groups of digits and the sizes of the groups
(`std::numpunct<char>`: `do_decimal_point`, `do_thousands_sep`, `do_grouping`), with one value for the locale of C and
the global locale of C++. Not modelled: decimal points of several bytes, and digits other than those of ASCII, which
`std::numpunct<char>` and `printf("%f")` do not have.
-/

namespace Caitlyn

/-- The punctuation of numbers of a locale. The first size of a group is that of the last digits; the last size is
repeated; a size of `0` or from `CHAR_MAX` on (as an `unsigned char`) ends the groups. -/
structure Punct where
  point : UInt8
  sep : UInt8
  grouping : List Nat

namespace Punct

/-- `std::locale::classic()`. -/
def classic : Punct := ⟨0x2E, 0x2C, []⟩

/-- The groups of the digits `ds`, which are in reversed order (as `std::__add_grouping` of libstdc++ and `num_put` of
C++17 25.4.2.2.2). The first argument bounds the number of groups. -/
def groupsRev : Nat → List Nat → Str → List Str
  | n + 1, g :: gs, ds =>
    if g = 0 ∨ 127 ≤ g ∨ ds.length ≤ g then [ds]
    else ds.take g :: groupsRev n (if gs = [] then [g] else gs) (ds.drop g)
  | _, _, ds => [ds]

/-- The groups of the digits `ds`. -/
def groups (p : Punct) (ds : Str) : List Str :=
  ((groupsRev ds.length p.grouping ds.reverse).map List.reverse).reverse

/-- The digits `ds` as a stream writes them. -/
def grouped (p : Punct) (ds : Str) : Str := [Chr.ofByte p.sep].intercalate (p.groups ds)

/-- Whether a character is a decimal digit of ASCII. -/
def digit (c : Chr) : Bool := c ∈ c!"0123456789"

/-- A number without sign as a stream writes it, from its text in the classic locale. -/
def unsigned (p : Punct) (s : Str) : Str :=
  p.grouped (s.takeWhile digit) ++
    (s.dropWhile digit).map fun c => if c = Chr.ofByte 0x2E then Chr.ofByte p.point else c

/-- A number as a stream writes it (`num_put`, C++17 25.4.2.2.2, stage 2), from its text in the classic locale. -/
def number (p : Punct) : Str → Str
  | c :: s => if c = Chr.ofByte 0x2D then c :: p.unsigned s else p.unsigned (c :: s)
  | [] => []

/-- A number as `std::to_string(double)` writes it (`%f`: no groups), from its text in the C locale. -/
def toStdString (p : Punct) (text : List UInt8) : List UInt8 := text.map fun b => if b = 0x2E then p.point else b

end Punct

namespace Json

variable {F : Type}

mutual

/-- `MakeOutput` (JsonData.h:357-467) to a stream that writes as `number s` what a stream with the classic locale
writes as `s`, for numbers. -/
def outputWith (number : Str → Str) (ops : FloatOps F) (pretty : Bool) (base indent : Nat) : Json F → Str
  | .obj ms =>
    c!"{" ++
      (match ms with
        | [] => []
        | m :: ms => whenPretty pretty c!"\n" ++
            (outputMemberWith number ops pretty base indent m ++ outputMembersWith number ops pretty base indent ms) ++
              whenPretty pretty c!"\n") ++
      whenPretty pretty (spaces (indent - base)) ++ c!"}"
  | .arr js =>
    c!"[" ++
      (match js with
        | [] => []
        | j :: js => whenPretty pretty c!"\n" ++
            (whenPretty pretty (spaces indent) ++ outputWith number ops pretty base (indent + base) j ++
              outputItemsWith number ops pretty base indent js) ++
              whenPretty pretty c!"\n") ++
      whenPretty pretty (spaces (indent - base)) ++ c!"]"
  | .str s => c!"\"" ++ s ++ c!"\""
  | .float f => number ((ops.print f).map Chr.ofByte)
  | .int i => number (intChars i)
  | .bool b => (Str.valueOfBool b).map Chr.ofByte
  | .null => Str.valueOfNull.map Chr.ofByte

/-- One member of an object (JsonData.h:385-394). -/
def outputMemberWith (number : Str → Str) (ops : FloatOps F) (pretty : Bool) (base indent : Nat) : Str × Json F → Str
  | (k, v) => whenPretty pretty (spaces indent) ++ c!"\"" ++ k ++ c!"\"" ++ c!":" ++ whenPretty pretty c!" " ++
      outputWith number ops pretty base (indent + base) v

/-- The members of an object but the first (JsonData.h:375-396). -/
def outputMembersWith (number : Str → Str) (ops : FloatOps F) (pretty : Bool) (base indent : Nat) :
    List (Str × Json F) → Str
  | [] => []
  | m :: ms => c!"," ++ whenPretty pretty c!"\n" ++ outputMemberWith number ops pretty base indent m ++
      outputMembersWith number ops pretty base indent ms

/-- The items of an array but the first (JsonData.h:419-435). -/
def outputItemsWith (number : Str → Str) (ops : FloatOps F) (pretty : Bool) (base indent : Nat) : List (Json F) → Str
  | [] => []
  | j :: js => c!"," ++ whenPretty pretty c!"\n" ++ whenPretty pretty (spaces indent) ++
      outputWith number ops pretty base (indent + base) j ++ outputItemsWith number ops pretty base indent js

end

/-- `ToString` (JsonData.h:342-347) in a program with the locale `p`. -/
def toStringIn (p : Punct) (ops : FloatOps F) (pretty : Bool) (indent : Nat) (j : Json F) : Res Str :=
  Str.ofStdString (Str.str (outputWith p.number ops pretty indent indent j))

end Json

/-- `BigFloat(double)` (BigFloat.h:33-35) in a program with the locale `p`. -/
def BigFloat.ofDoubleIn (p : Punct) (d : Dbl) : Res BigFloat := BigFloat.ofDouble (p.toStdString d.text)

end Caitlyn
