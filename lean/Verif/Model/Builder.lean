import Verif.Model.Str
import Verif.Lit

/-!
# Model of `include/Caitlyn/__Core/String/StringBuilder.h`
-/

namespace Caitlyn

/-- `std::ostringstream` opened for output only: its content and put position. -/
structure OStr where
  /-- what `str()` returns -/
  buf : List UInt8
  /-- where the next character goes -/
  pos : Nat
  deriving DecidableEq, Repr

/-- `class StringBuilder` (StringBuilder.h:25-93): its member `data_`. -/
abbrev Builder := OStr

namespace OStr

/-- `std::ostringstream()`. -/
def empty : OStr := ⟨[], 0⟩

/-- `std::ostringstream(str)`: the content is `str`, the put position is 0 (no `ios::ate`). -/
def ofString (s : List UInt8) : OStr := ⟨s, 0⟩

/-- Writing bytes: they replace what is at the put position and extend the content. -/
def write (o : OStr) (s : List UInt8) : OStr :=
  ⟨o.buf.take o.pos ++ s ++ o.buf.drop (o.pos + s.length), o.pos + s.length⟩

end OStr

namespace Builder

/-- `StringBuilder()` (StringBuilder.h:31). -/
def default : Builder := OStr.empty

/-- `StringBuilder(const String&)` (StringBuilder.h:43-46); for `char` and `const char*` arguments
(33-41) take the corresponding bytes. `operator<<(ostream, String)` writes `str()`. -/
def ofStr (s : Str) : Builder := OStr.empty.write (Str.str s)

/-- Copy constructor (StringBuilder.h:54-56). -/
def copy (other : Builder) : Builder := OStr.ofString other.buf

/-- Move constructor (StringBuilder.h:58-60): the stream with its position. (The moved-from
builder is left in an unspecified state and is not used by the model.) -/
def move (other : Builder) : Builder := other

/-- `Append(const String&)` (StringBuilder.h:63-66). -/
def append (b : Builder) (s : Str) : Builder := b.write (Str.str s)

/-- `AppendLine(const String&)` (StringBuilder.h:74-77). -/
def appendLine (b : Builder) (s : Str) : Builder := (b.write (Str.str s)).write b!"\n"

/-- `str()` (StringBuilder.h:86-89): conversion of the content to `String`. -/
def str (b : Builder) : Res Str := Str.ofStdString b.buf

end Builder
end Caitlyn
