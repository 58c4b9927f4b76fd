import Verif.Model.Str
import Verif.Lit

/-!
# Model of `JsonData` (__Serializing/Json/Types/JsonData.h:37-668)

A `JsonData` is a tagged union (JsonData.h:597-617). Arrays are `std::deque<JsonData*>` and objects
`std::vector<std::pair<String, JsonData*>>`, whose pointers are owned: each is made by `new` when the element is made
and belongs to no other value. The model is the tree of values; sharing and release of the nodes are modelled
separately (`Verif/Model/JsonNodes.lean`). Members are kept in insertion order.
Floating point numbers are an abstract type `F` with the two conversions the code uses.
-/

namespace Caitlyn

/-- What the code does with floating point numbers: `std::stod` followed by the conversion to `Float`, where
`.error true` is `std::out_of_range` and `.error false` is `std::invalid_argument`; printing with `<<`;
`std::to_string`; the value of `FloatingType{}`. -/
structure FloatOps (F : Type) where
  stod : List UInt8 → Except Bool F
  print : F → List UInt8
  toStdString : F → List UInt8
  zero : F

/-- A JSON value (JsonData.h:37-618). -/
inductive Json (F : Type) where
  | null
  | bool (b : Bool)
  | int (i : Int)
  | float (f : F)
  | str (s : Str)
  | arr (items : List (Json F))
  | obj (members : List (Str × Json F))

/-- `JsonClass` (JsonClass.h:26-35). -/
inductive JsonClass where
  | null | object | array | string | floating | integral | boolean
  deriving DecidableEq

namespace Json
variable {F : Type}

/-- `GetType` (JsonData.h:316-319). -/
def type : Json F → JsonClass
  | .null => .null
  | .bool _ => .boolean
  | .int _ => .integral
  | .float _ => .floating
  | .str _ => .string
  | .arr _ => .array
  | .obj _ => .object

/-- `SetType` (JsonData.h:562-595): nothing if the type is that already, otherwise the empty value of the type. -/
def setType (ops : FloatOps F) (t : JsonClass) (j : Json F) : Json F :=
  if j.type = t then j
  else match t with
    | .null => .null
    | .string => .str []
    | .floating => .float ops.zero
    | .integral => .int 0
    | .boolean => .bool false
    | .array => .arr []
    | .object => .obj []

/-- `std::find_if` by key in an object. -/
def findMember (key : Str) : List (Str × Json F) → Option (Json F)
  | [] => none
  | (k, v) :: rest => if k = key then some v else findMember key rest

/-- Assignment through the reference returned by `operator[](key)` (JsonData.h:156-171) once the value is an object:
the first member with that key is overwritten, or a new member is appended. -/
def setMember (key : Str) (v : Json F) : List (Str × Json F) → List (Str × Json F)
  | [] => [(key, v)]
  | (k, w) :: rest => if k = key then (k, v) :: rest else (k, w) :: setMember key v rest

/-- Assignment of a number, boolean or string (JsonData.h:122-153): `SetType` and the new value. -/
def assignBool (v : Bool) (_ : Json F) : Json F := .bool v
/-- See `assignBool`. -/
def assignInt (v : Int) (_ : Json F) : Json F := .int v
/-- See `assignBool`. -/
def assignFloat (v : F) (_ : Json F) : Json F := .float v
/-- See `assignBool`. -/
def assignString (v : Str) (_ : Json F) : Json F := .str v

/-- The members of an object; of other values nothing. -/
def members : Json F → List (Str × Json F)
  | .obj ms => ms
  | _ => []

/-- The items of an array; of other values nothing. -/
def items : Json F → List (Json F)
  | .arr js => js
  | _ => []

/-- The value after `operator[](key)` and then `f` on the `JsonData` it refers to (JsonData.h:156-171; non-const
`At(key)` 189-192): the value becomes an object if it is none, and the member is made, as Null, if there is none. -/
def modifyKey (ops : FloatOps F) (key : Str) (f : Json F → Json F) (j : Json F) : Json F :=
  let ms := (setType ops .object j).members
  .obj (setMember key (f ((findMember key ms).getD .null)) ms)

/-- The value after `operator[](index)` and then `f` on the `JsonData` it refers to (JsonData.h:173-186; non-const
`At(index)` 209-212). Beyond the end the array is extended by null pointers and an object is constructed at a null
pointer, which is undefined. -/
def modifyIndex (ops : FloatOps F) (i : Nat) (f : Json F → Json F) (j : Json F) : Res (Json F) :=
  let js := (setType ops .array j).items
  match js[i]? with
  | some v => .ok (.arr (js.set i (f v)))
  | none => .error .ub

/-- `At(key) const` (JsonData.h:194-207); without a test of the type: the member `object_value` of the union
is read even if another one is active, which is undefined. -/
def atKey (key : Str) : Json F → Res (Json F)
  | .obj ms =>
    match findMember key ms with
    | some v => .ok v
    | none => .error .outOfRange
  | _ => .error .ub

/-- `At(index) const` (JsonData.h:214-217); likewise without a test of the type. -/
def atIndex (i : Nat) : Json F → Res (Json F)
  | .arr js =>
    match js[i]? with
    | some v => .ok v
    | none => .error .outOfRange
  | _ => .error .ub

/-- `Append` of one value (JsonData.h:220-228). -/
def append (ops : FloatOps F) (j v : Json F) : Json F :=
  let j := if j.type ≠ .array then setType ops .array j else j
  .arr (j.items ++ [v])

/-- `Append` of several values (JsonData.h:230-235). -/
def appendAll (ops : FloatOps F) : List (Json F) → Json F → Json F
  | [], j => j
  | v :: vs, j => appendAll ops vs (append ops j v)

/-- `Size` (JsonData.h:238-249), `Length` (251-254). -/
def size : Json F → Nat
  | .arr js => js.length
  | .obj ms => ms.length
  | _ => npos

/-- `HasMember` (JsonData.h:257-269). -/
def hasMember (key : Str) : Json F → Bool
  | .obj ms => (findMember key ms).isSome
  | _ => false

/-- `GetString` (JsonData.h:321-324). -/
def getString : Json F → Str
  | .str s => s
  | _ => []

/-- `GetFloating` (JsonData.h:326-329). -/
def getFloating (ops : FloatOps F) : Json F → F
  | .float f => f
  | _ => ops.zero

/-- `GetIntegral` (JsonData.h:331-334). -/
def getIntegral : Json F → Int
  | .int i => i
  | _ => 0

/-- `GetBoolean` (JsonData.h:336-339). -/
def getBoolean : Json F → Bool
  | .bool b => b
  | _ => false

/-- `GetData` (JsonData.h:307-314). -/
def getData : Json F → Res (List (Str × Json F))
  | .obj ms => .ok ms
  | _ => .error .logicError

/-- `Make(JsonClass)` (JsonData.h:622-625, 349-354). -/
def make (ops : FloatOps F) (t : JsonClass) : Json F := setType ops t .null

/-- An integer as written by `operator<<(ostream&, int64_t)` and `std::to_string`. -/
def intChars (i : Int) : Str := (toString i).toList.map fun c => Chr.ofByte (UInt8.ofNat c.toNat)

/-- `MakeString` (JsonData.h:650-653). -/
def makeString (value : List UInt8) : Res (Json F) := do return .str (← Str.ofStdString value)
/-- `MakeFloating` (JsonData.h:655-658): a *string*. -/
def makeFloating (ops : FloatOps F) (value : F) : Res (Json F) := makeString (ops.toStdString value)
/-- `MakeIntegral` (JsonData.h:660-663): a *string*. -/
def makeIntegral (value : Int) : Res (Json F) := makeString (Str.str (intChars value))
/-- `MakeBoolean` (JsonData.h:665-668): a *string*; `std::to_string(bool)` is that of `int`. -/
def makeBoolean (value : Bool) : Res (Json F) := makeString (Str.str (intChars (if value then 1 else 0)))
/-- `MakeArray(args...)` (JsonData.h:637-643). -/
def makeArray (ops : FloatOps F) (args : List (Json F)) : Json F := appendAll ops args (make ops .array)

/-- `String(count, Def::Space)`. -/
def spaces (n : Nat) : Str := List.replicate n ⟨b!" "⟩

/-- The characters that `if (mangling) oss << s` writes. -/
def whenPretty (pretty : Bool) (s : Str) : Str := if pretty then s else []

mutual

/-- `MakeOutput` (JsonData.h:357-467): the characters written to the stream. -/
def output (ops : FloatOps F) (pretty : Bool) (base indent : Nat) : Json F → Str
  | .obj ms =>
    c!"{" ++
      (match ms with
        | [] => []
        | m :: ms => whenPretty pretty c!"\n" ++
            (outputMember ops pretty base indent m ++ outputMembers ops pretty base indent ms) ++
              whenPretty pretty c!"\n") ++
      whenPretty pretty (spaces (indent - base)) ++ c!"}"
  | .arr js =>
    c!"[" ++
      (match js with
        | [] => []
        | j :: js => whenPretty pretty c!"\n" ++
            (whenPretty pretty (spaces indent) ++ output ops pretty base (indent + base) j ++
              outputItems ops pretty base indent js) ++
              whenPretty pretty c!"\n") ++
      whenPretty pretty (spaces (indent - base)) ++ c!"]"
  | .str s => c!"\"" ++ s ++ c!"\""
  | .float f => (ops.print f).map Chr.ofByte
  | .int i => intChars i
  | .bool b => (Str.valueOfBool b).map Chr.ofByte
  | .null => Str.valueOfNull.map Chr.ofByte

/-- One member of an object (JsonData.h:385-394). -/
def outputMember (ops : FloatOps F) (pretty : Bool) (base indent : Nat) : Str × Json F → Str
  | (k, v) => whenPretty pretty (spaces indent) ++ c!"\"" ++ k ++ c!"\"" ++ c!":" ++ whenPretty pretty c!" " ++
      output ops pretty base (indent + base) v

/-- The members of an object but the first (JsonData.h:375-396). -/
def outputMembers (ops : FloatOps F) (pretty : Bool) (base indent : Nat) : List (Str × Json F) → Str
  | [] => []
  | m :: ms => c!"," ++ whenPretty pretty c!"\n" ++ outputMember ops pretty base indent m ++
      outputMembers ops pretty base indent ms

/-- The items of an array but the first (JsonData.h:419-435). -/
def outputItems (ops : FloatOps F) (pretty : Bool) (base indent : Nat) : List (Json F) → Str
  | [] => []
  | j :: js => c!"," ++ whenPretty pretty c!"\n" ++ whenPretty pretty (spaces indent) ++
      output ops pretty base (indent + base) j ++ outputItems ops pretty base indent js

end

/-- `ToString` (JsonData.h:342-347): the bytes in the stream, read as a `String`. -/
def toString (ops : FloatOps F) (pretty : Bool) (indent : Nat) (j : Json F) : Res Str :=
  Str.ofStdString (Str.str (output ops pretty indent indent j))

end Json
end Caitlyn
