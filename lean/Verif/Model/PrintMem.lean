import Verif.Model.JsonData

/-!
# What printing a JSON value needs

`MakeOutput` (JsonData.h:357-467) calls itself for every item and member, and makes a `String` of spaces at each call, before it looks at
what there is to print. This copy of the model of it (`Json.output`) has room for a number of activations of the function and for a number of
characters of such strings at a time, and counts the characters made. Strings are counted in characters; what a character takes, the room the
vector keeps in advance, the stream and its copies of the strings (each of which is written at once and let go) are not counted.
-/

namespace Caitlyn.PrintMem
open Json
variable {F : Type}

/-- The call itself and `const StringType indent_str(indent, Def::Space);` (JsonData.h:357-360): the room that is left while the function
runs. -/
def enter (d m indent : Nat) : Res Nat :=
  if d = 0 then .error .memory else if m < indent then .error .memory else .ok (m - indent)

/-- `indent - base_indent` in `SizeType` (JsonData.h:405, 440). -/
def less (base indent : Nat) : Nat := (indent + 2 ^ 64 - base) % 2 ^ 64

/-- `indent + base_indent` in `SizeType` (JsonData.h:393, 430). -/
def more (base indent : Nat) : Nat := (indent + base) % 2 ^ 64

/-- `if (mangling) oss << StringType(indent - base_indent, Def::Space);` (JsonData.h:403-406, 438-441): the number of characters made. -/
def close (pretty : Bool) (base m indent : Nat) : Res Nat :=
  if pretty then if m < less base indent then .error .memory else .ok (less base indent) else .ok 0

mutual

/-- `MakeOutput` (JsonData.h:357-467): the characters written, and how many characters the strings of spaces had. -/
def print (ops : FloatOps F) (pretty : Bool) (base d m indent : Nat) : Json F → Res (Str × Nat)
  | .obj ms => do
    let m ← enter d m indent
    let (t, n) ← (match ms with
      | [] => .ok ([], 0)
      | (k, v) :: ms => do
        let (t, n) ← print ops pretty base (d - 1) m (more base indent) v
        let (ts, ns) ← printMembers ops pretty base (d - 1) m indent ms
        .ok (whenPretty pretty c!"\n" ++ (whenPretty pretty (spaces indent) ++ c!"\"" ++ k ++ c!"\"" ++ c!":" ++
          whenPretty pretty c!" " ++ t ++ ts) ++ whenPretty pretty c!"\n", n + ns))
    let l ← close pretty base m indent
    .ok (c!"{" ++ t ++ whenPretty pretty (spaces l) ++ c!"}", indent + n + l)
  | .arr js => do
    let m ← enter d m indent
    let (t, n) ← (match js with
      | [] => .ok ([], 0)
      | j :: js => do
        let (t, n) ← print ops pretty base (d - 1) m (more base indent) j
        let (ts, ns) ← printItems ops pretty base (d - 1) m indent js
        .ok (whenPretty pretty c!"\n" ++ (whenPretty pretty (spaces indent) ++ t ++ ts) ++ whenPretty pretty c!"\n", n + ns))
    let l ← close pretty base m indent
    .ok (c!"[" ++ t ++ whenPretty pretty (spaces l) ++ c!"]", indent + n + l)
  | .str s => do let _ ← enter d m indent; .ok (c!"\"" ++ s ++ c!"\"", indent)
  | .float f => do let _ ← enter d m indent; .ok ((ops.print f).map Chr.ofByte, indent)
  | .int i => do let _ ← enter d m indent; .ok (intChars i, indent)
  | .bool b => do let _ ← enter d m indent; .ok ((Str.valueOfBool b).map Chr.ofByte, indent)
  | .null => do let _ ← enter d m indent; .ok (Str.valueOfNull.map Chr.ofByte, indent)

/-- The members of an object but the first (JsonData.h:375-396). -/
def printMembers (ops : FloatOps F) (pretty : Bool) (base d m indent : Nat) : List (Str × Json F) → Res (Str × Nat)
  | [] => .ok ([], 0)
  | (k, v) :: ms => do
    let (t, n) ← print ops pretty base d m (more base indent) v
    let (ts, ns) ← printMembers ops pretty base d m indent ms
    .ok (c!"," ++ whenPretty pretty c!"\n" ++ whenPretty pretty (spaces indent) ++ c!"\"" ++ k ++ c!"\"" ++ c!":" ++
      whenPretty pretty c!" " ++ t ++ ts, n + ns)

/-- The items of an array but the first (JsonData.h:419-435). -/
def printItems (ops : FloatOps F) (pretty : Bool) (base d m indent : Nat) : List (Json F) → Res (Str × Nat)
  | [] => .ok ([], 0)
  | j :: js => do
    let (t, n) ← print ops pretty base d m (more base indent) j
    let (ts, ns) ← printItems ops pretty base d m indent js
    .ok (c!"," ++ whenPretty pretty c!"\n" ++ whenPretty pretty (spaces indent) ++ t ++ ts, n + ns)

end

/-- `ToString(mangling, indent)` (JsonData.h:342-347) with room for `d` activations of `MakeOutput` and `m` characters of spaces, and the
characters of spaces it makes. -/
def toStringC (ops : FloatOps F) (d m : Nat) (pretty : Bool) (indent : Nat) (j : Json F) : Res (Str × Nat) := do
  let (t, n) ← print ops pretty indent d m indent j
  let s ← Str.ofStdString (Str.str t)
  .ok (s, n)

end Caitlyn.PrintMem
