import Verif.Model.File
import Verif.Model.JsonParser

/-!
# Texts built in streams when memory runs out

The library builds texts in objects of type `std::ostringstream`: `String::str` (String.h:473-482), `StringBuilder`,
`JsonData::ToString` (JsonData.h:342-347), `JsonParser::ParseString` (JsonParser.h:257-345). If the buffer of such a stream cannot
grow, the exception does not leave the insertion: formatted output functions catch it and set `badbit`
([ostream.formatted.reqmts]), the characters that fitted are in the buffer, and every later insertion does nothing. The library
never asks for the state of these streams.

How many bytes a stream can take before an allocation fails is arbitrary for every stream that is made. Runs in which another
allocation fails are not modelled: they end with `std::bad_alloc`, except in `ParseNumber`, which catches it. The four characters
behind `\u` are taken to fit into every stream.
-/

namespace Caitlyn
namespace StreamMem
variable {F : Type}

/-- How many bytes a stream can take; `none`: as many as are written. -/
abbrev Room := Option Nat

/-- A stream: what is in its buffer, and `badbit`. -/
structure Out where
  text : List UInt8 := []
  bad : Bool := false
  deriving DecidableEq, Repr

/-- `<<` of some bytes. -/
def Out.insert (room : Room) (o : Out) (bs : List UInt8) : Out :=
  if o.bad then o
  else
    match room with
    | none => { o with text := o.text ++ bs }
    | some n => if o.text.length + bs.length ≤ n then { o with text := o.text ++ bs } else ⟨(o.text ++ bs).take n, true⟩

/-- What `str()` of a new stream returns after some insertions. -/
def streamed (room : Room) (pieces : List (List UInt8)) : List UInt8 := (pieces.foldl (Out.insert room) {}).text

/-- `String::str` (String.h:473-482). -/
def str (room : Room) (s : Str) : List UInt8 := streamed room (s.map Chr.printed)

/-- `operator==(const char*)` (String.h:325-328). -/
def eqCStr (room : Room) (s : Str) (other : List UInt8) : Bool := str room s == other

/-- `operator<(const char*)` (String.h:310-313). -/
def ltCStr (room : Room) (s : Str) (other : List UInt8) : Bool := Chr.bytesLt (str room s) other

/-- The name that `File::Open` passes to `fstream::open` (File.h:57-68, 445-448). -/
def fileName (room : Room) (name : Str) : List UInt8 := str room name

/-- `File::Write(const String&)` (File.h:206-216). -/
def write (room : Room) (f : FileSys) (s : Str) : Res Unit × FileSys := File.write f (str room s)

/-! ### `StringBuilder` -/

/-- `Append(const String&)` (StringBuilder.h:63-66): the argument goes through a stream of its own. -/
def append (room : Room) (b : Out) (arg : Room × Str) : Out := b.insert room (str arg.1 arg.2)

/-- `StringBuilder()` and some calls of `Append`. -/
def appended (room : Room) (args : List (Room × Str)) : Out := args.foldl (append room) {}

/-- `str()` (StringBuilder.h:86-89). -/
def builderStr (b : Out) : Res Str := Str.ofStdString b.text

/-! ### `JsonData::ToString` -/

/-- `if (mangling) oss << s` for a `String`: `t` is what may be written if the room in streams is one of `A`. -/
def WhenPretty (A : Room → Prop) (pretty : Bool) (s : Str) (t : List UInt8) : Prop :=
  if pretty then ∃ room, A room ∧ t = str room s else t = []

/-- `if (mangling) oss << c` for a character. -/
def whenPretty (pretty : Bool) (bs : List UInt8) : List UInt8 := if pretty then bs else []

mutual
/-- `MakeOutput` (JsonData.h:357-467): `t` is what may be inserted into the stream, the texts having gone through streams of their
own. -/
def Writes (A : Room → Prop) (ops : FloatOps F) (pretty : Bool) (base indent : Nat) : Json F → List UInt8 → Prop
  | .obj [], t => ∃ e, WhenPretty A pretty (Json.spaces (indent - base)) e ∧ t = b!"{" ++ e ++ b!"}"
  | .obj (m :: ms), t => ∃ a b e, WritesMember A ops pretty base indent m a ∧ WritesMembers A ops pretty base indent ms b ∧
      WhenPretty A pretty (Json.spaces (indent - base)) e ∧
      t = b!"{" ++ whenPretty pretty b!"\n" ++ a ++ b ++ whenPretty pretty b!"\n" ++ e ++ b!"}"
  | .arr [], t => ∃ e, WhenPretty A pretty (Json.spaces (indent - base)) e ∧ t = b!"[" ++ e ++ b!"]"
  | .arr (j :: js), t => ∃ i a b e, WhenPretty A pretty (Json.spaces indent) i ∧ Writes A ops pretty base (indent + base) j a ∧
      WritesItems A ops pretty base indent js b ∧ WhenPretty A pretty (Json.spaces (indent - base)) e ∧
      t = b!"[" ++ whenPretty pretty b!"\n" ++ i ++ a ++ b ++ whenPretty pretty b!"\n" ++ e ++ b!"]"
  | .str s, t => ∃ room, A room ∧ t = b!"\"" ++ str room s ++ b!"\""
  | .float f, t => t = Str.str ((ops.print f).map Chr.ofByte)
  | .int i, t => t = Str.str (Json.intChars i)
  | .bool b, t => t = Str.str ((Str.valueOfBool b).map Chr.ofByte)
  | .null, t => t = Str.str (Str.valueOfNull.map Chr.ofByte)

/-- One member of an object (JsonData.h:385-394). -/
def WritesMember (A : Room → Prop) (ops : FloatOps F) (pretty : Bool) (base indent : Nat) : Str × Json F → List UInt8 → Prop
  | (k, v), t => ∃ i room a, A room ∧ WhenPretty A pretty (Json.spaces indent) i ∧ Writes A ops pretty base (indent + base) v a ∧
      t = i ++ b!"\"" ++ str room k ++ b!"\"" ++ b!":" ++ whenPretty pretty b!" " ++ a

/-- The members of an object but the first (JsonData.h:375-396). -/
def WritesMembers (A : Room → Prop) (ops : FloatOps F) (pretty : Bool) (base indent : Nat) : List (Str × Json F) → List UInt8 → Prop
  | [], t => t = []
  | m :: ms, t => ∃ a b, WritesMember A ops pretty base indent m a ∧ WritesMembers A ops pretty base indent ms b ∧
      t = b!"," ++ whenPretty pretty b!"\n" ++ a ++ b

/-- The items of an array but the first (JsonData.h:419-435). -/
def WritesItems (A : Room → Prop) (ops : FloatOps F) (pretty : Bool) (base indent : Nat) : List (Json F) → List UInt8 → Prop
  | [], t => t = []
  | j :: js, t => ∃ i a b, WhenPretty A pretty (Json.spaces indent) i ∧ Writes A ops pretty base (indent + base) j a ∧
      WritesItems A ops pretty base indent js b ∧ t = b!"," ++ whenPretty pretty b!"\n" ++ i ++ a ++ b
end

/-- `ToString` (JsonData.h:342-347): `r` is what it may do. -/
def ToString (A : Room → Prop) (ops : FloatOps F) (pretty : Bool) (indent : Nat) (j : Json F) (r : Res Str) : Prop :=
  ∃ t room, A room ∧ Writes A ops pretty indent indent j t ∧ r = Str.ofStdString (streamed room [t])

/-! ### `JsonDocument::Parse` -/

/-- The room in the streams that `Parse` makes, by the position where it stands. -/
structure Limits where
  /-- `escaped_stream` (JsonParser.h:260) -/
  string : Nat → Room := fun _ => none
  /-- `number_str.str()` (JsonParser.h:382, 386) -/
  number : Nat → Room := fun _ => none
  /-- an allocation in the `try` block of `ParseNumber` (JsonParser.h:376-388) fails -/
  numberThrows : Nat → Bool := fun _ => false
  /-- the first `json_.str()` (JsonParser.h:247, 349) -/
  first : Nat → Room := fun _ => none
  /-- the second (JsonParser.h:354) -/
  second : Nat → Room := fun _ => none

open JsonParser

/-- `json_.str().compare(position_, n, text) == 0` (JsonParser.h:247, 349, 354). -/
def compareAt (room : Room) (s : Str) (pos : Nat) (text : List UInt8) : Res Bool :=
  if pos > (str room s).length then .error .outOfRange
  else .ok (((str room s).drop pos).take text.length == text)

/-- `ParseNull` (JsonParser.h:245-255). -/
def parseNull (L : Limits) (s : Str) (st : PState) : Res (Json F × PState) := do
  if ← compareAt (L.first st.pos) s st.pos Str.valueOfNull then return (.null, { st with pos := st.pos + 4 })
  fail .invalidValue st.pos

/-- `ParseBoolean` (JsonParser.h:347-362). -/
def parseBoolean (L : Limits) (s : Str) (st : PState) : Res (Json F × PState) := do
  if ← compareAt (L.first st.pos) s st.pos (Str.valueOfBool true) then return (.bool true, { st with pos := st.pos + 4 })
  if ← compareAt (L.second st.pos) s st.pos (Str.valueOfBool false) then return (.bool false, { st with pos := st.pos + 5 })
  fail .invalidValue st.pos

/-- The end of `ParseString` (JsonParser.h:337-344). -/
def stringEnd (s : Str) (st : PState) (out : Out) : Res (Json F × PState) := do
  let c ← Str.index s st.pos
  if c = quote then do
    let v ← Str.ofStdString out.text
    return (.str v, { st with pos := st.pos + 1 })
  else fail .unterminatedString st.pos

/-- The loop of `ParseString` (JsonParser.h:262-336). -/
def stringLoop (room : Room) (s : Str) : Nat → PState → Out → Res (Json F × PState)
  | 0, _, _ => .error .fuel
  | n + 1, st, out =>
    if st.pos < s.length then do
      let c ← Str.index s st.pos
      if c = quote then stringEnd s st out
      else if c = backslash then
        if st.pos + 1 ≥ s.length then fail .unterminatedString (st.pos + 1)
        else do
          let d ← Str.index s (st.pos + 1)
          match ← escape s (st.pos + 1) d with
          | .ok (bytes, k) => stringLoop room s n { st with pos := st.pos + 1 + k + 1 } (out.insert room bytes)
          | .error e => fail e (st.pos + 1)
      else stringLoop room s n { st with pos := st.pos + 1 } (out.insert room c.printed)
    else stringEnd s st out

/-- `ParseString` (JsonParser.h:257-345). -/
def parseString (L : Limits) (s : Str) (st : PState) : Res (Json F × PState) :=
  stringLoop (L.string st.pos) s (s.length + 1) { st with pos := st.pos + 1 } {}

/-- `std::stod` or `std::stoll` and the handlers (JsonParser.h:376-400). -/
def convert (room : Room) (ops : FloatOps F) (number : Str) : Except JsonError (Json F) :=
  if plus ∈ number ∨ lowerE ∈ number ∨ upperE ∈ number then
    match ops.stod (str room number) with
    | .ok f => .ok (.float f)
    | .error true => .error .outOfRangeError
    | .error false => .error .invalidNumber
  else
    match StdNum.stoll 10 (str room number) with
    | .ok i => .ok (.int i)
    | .error .outOfRange => .error .outOfRangeError
    | .error _ => .error .invalidNumber

/-- `ParseNumber` (JsonParser.h:364-403): `std::bad_alloc` is a `std::exception`. -/
def parseNumber (L : Limits) (ops : FloatOps F) (s : Str) (st : PState) : Res (Json F × PState) := do
  let len ← numLen (s.drop st.pos)
  let number ← Str.substring s st.pos len
  if L.numberThrows st.pos then fail .invalidNumber st.pos
  else
    match convert (L.number st.pos) ops number with
    | .ok j => return (j, { st with pos := st.pos + len })
    | .error e => fail e st.pos

mutual

/-- `ParseValue` (JsonParser.h:81-118, 122-124, 199-201). -/
def parseValue (L : Limits) (ops : FloatOps F) (s : Str) : Nat → PState → Res (Json F × PState)
  | 0, _ => .error .fuel
  | n + 1, st => do
    let pos ← skipSpace s st.pos
    if pos ≥ s.length then return (.null, { st with pos := pos })
    let c ← Str.index s pos
    if c = quote then parseString L s { st with pos := pos }
    else if c = lbrace then do
      let pos ← skipSpace s (pos + 1)
      objectLoop L ops s n { st with pos := pos } []
    else if c = lbracket then do
      let pos ← skipSpace s (pos + 1)
      arrayLoop L ops s n { st with pos := pos } []
    else if c = lowerT ∨ c = lowerF then parseBoolean L s { st with pos := pos }
    else if c = lowerN then parseNull L s { st with pos := pos }
    else do
      let cp ← c.getCodePoint
      if CharUtil.isDigit cp ∨ c = minus ∨ c = plus then parseNumber L ops s { st with pos := pos }
      else fail .unexpectedCharacter pos

/-- The loop of `ParseObject` (JsonParser.h:126-194). -/
def objectLoop (L : Limits) (ops : FloatOps F) (s : Str) : Nat → PState → List (Str × Json F) → Res (Json F × PState)
  | 0, _, _ => .error .fuel
  | n + 1, st, members =>
    if st.pos < s.length then do
      let pos ← skipSpace s st.pos
      let c ← Str.index s pos
      if c = rbrace then return (.obj members, { st with pos := pos + 1 })
      else if c = quote then do
        match ← memberKey s (pos + 1) with
        | .error (e, pos) => fail e pos
        | .ok (key, pos) =>
          let (v, st) ← parseValue L ops s n { st with pos := pos }
          match ← afterValue s rbrace st.pos with
          | .closed pos => return (.obj (Json.setMember key v members), { st with pos := pos })
          | .more pos => objectLoop L ops s n { st with pos := pos } (Json.setMember key v members)
          | .error e pos => fail e pos
      else fail .unexpectedCharacter pos
    else fail .unterminatedObject st.pos

/-- The loop of `ParseArray` (JsonParser.h:203-242). -/
def arrayLoop (L : Limits) (ops : FloatOps F) (s : Str) : Nat → PState → List (Json F) → Res (Json F × PState)
  | 0, _, _ => .error .fuel
  | n + 1, st, items =>
    if st.pos < s.length then do
      let pos ← skipSpace s st.pos
      let c ← Str.index s pos
      if c = rbracket then return (.arr items, { st with pos := pos + 1 })
      else do
        let (v, st) ← parseValue L ops s n { st with pos := pos }
        match ← afterValue s rbracket st.pos with
        | .closed pos => return (.arr (items ++ [v]), { st with pos := pos })
        | .more pos => arrayLoop L ops s n { st with pos := pos } (items ++ [v])
        | .error e pos => fail e pos
    else fail .unterminatedArray st.pos

end

/-- `JsonParser::Parse` (JsonParser.h:32-59). -/
def parse (L : Limits) (ops : FloatOps F) (s : Str) : Res (Json F × PState) :=
  if s = [] then fail .invalidJson 0
  else do
    let first ← StrUtil.findFirstNonSpace s
    let last ← StrUtil.findLastNonSpace s
    let c ← Str.index s first
    if c ≠ lbrace then fail .invalidJson first
    else do
      let c ← Str.index s last
      if c ≠ rbrace then fail .invalidJson last
      else parseValue L ops s (2 * s.length + 2) {}

/-- `JsonDocument::Parse(const String&)` (Json.h:107-120). -/
def document (L : Limits) (ops : FloatOps F) (s : Str) : Res (Json F × JsonError) := do
  let (data, st) ← parse L ops s
  if st.err ≠ .noError then return (.null, st.err)
  return (data, .noError)

end StreamMem
end Caitlyn
