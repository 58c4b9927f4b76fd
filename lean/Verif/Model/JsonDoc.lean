import Verif.Model.JsonParser

/-!
# Model of `JsonDocument` (__Serializing/Json/Types/Json.h:28-190) and of the error messages (Json/Utility.h:28-59)

The document is its root value and its error. References into the tree (`operator[]`) are modelled by the change that is
made through them. Arguments are values: calls whose argument is a part of the object they are called on are modelled
separately (`Verif/Model/JsonNodes.lean`). The constructors and `Parse` from a stream (Json.h:43-46, 66-70, 122-127)
read the stream into a `std::string`, which is converted to `String`; streams are not modelled.
-/

namespace Caitlyn

/-- `GetErrorString` (Json/Utility.h:28-59). -/
def JsonError.message : JsonError → String
  | .noError => "No error."
  | .unterminatedString => "Unterminated string."
  | .expectedStringKey => "Expected string key."
  | .missingColon => "Missing colon."
  | .unterminatedObject => "Unterminated object."
  | .unterminatedArray => "Unterminated array."
  | .invalidNumber => "Invalid number."
  | .numberConversionError => "Number conversion error."
  | .invalidValue => "Invalid value."
  | .unexpectedCharacter => "Unexpected character."
  | .trailingComma => "Trailing comma."
  | .invalidJson => "Invalid JSON."
  | _ => "Unknown error."

/-- `JsonDocument` (Json.h:28-190); by default an empty object without error (Json.h:187-188). -/
structure JsonDoc (F : Type) where
  root : Json F := .obj []
  err : JsonError := .noError

namespace JsonDoc
variable {F : Type}

/-- `Parse(const String&)` (Json.h:107-120), the constructor (38-41) and the assignment (60-64) from a `String`. -/
def parse (ops : FloatOps F) (s : Str) (_ : JsonDoc F) : Res (JsonDoc F) := do
  let (root, err) ← JsonParser.document ops s
  return ⟨root, err⟩

/-- `operator[](key)` (Json.h:96-99) and then `f` on the `JsonData` it refers to. -/
def modify (ops : FloatOps F) (key : Str) (f : Json F → Json F) (d : JsonDoc F) : JsonDoc F :=
  { d with root := d.root.modifyKey ops key f }

/-- `operator[](key) const` (Json.h:101-104). -/
def at' (key : Str) (d : JsonDoc F) : Res (Json F) := d.root.atKey key

/-- `AddMember` (Json.h:129-132). -/
def addMember (ops : FloatOps F) (key : Str) (value : Json F) (d : JsonDoc F) : JsonDoc F :=
  d.modify ops key fun _ => value

/-- `RemoveMember` (Json.h:134-147). -/
def removeMember (key : Str) (d : JsonDoc F) : JsonDoc F :=
  if d.root.hasMember key then { d with root := .obj (d.root.members.filter fun m => !decide (m.1 = key)) } else d

/-- `HasMember` (Json.h:149-152). -/
def hasMember (key : Str) (d : JsonDoc F) : Bool := d.root.hasMember key

/-- `Size` (Json.h:154-157). -/
def size (d : JsonDoc F) : Nat := d.root.size

/-- `HasError` (Json.h:159-162). -/
def hasError (d : JsonDoc F) : Bool := decide (d.err ≠ .noError)

/-- `GetErrorString` (Json.h:169-172). -/
def errorString (d : JsonDoc F) : String := d.err.message

/-- `ToString` (Json.h:179-182), and what `<<` writes with the default arguments (Json.h:227-231). -/
def toString (ops : FloatOps F) (pretty : Bool) (indent : Nat) (d : JsonDoc F) : Res Str :=
  d.root.toString ops pretty indent

/-- Move construction and assignment (Json.h:52-56, 82-92): the new document and the one moved from. -/
def move (d : JsonDoc F) : JsonDoc F × JsonDoc F := (d, ⟨.null, .noError⟩)

end JsonDoc
end Caitlyn
