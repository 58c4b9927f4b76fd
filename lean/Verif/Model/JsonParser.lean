import Verif.Model.JsonData
import Verif.Model.StrUtil

/-!
# Model of `JsonParser` (__Serializing/Json/Types/JsonParser.h:29-434) and `JsonDocument::Parse` (Json.h:107-120)

The text is a `String`; `position_` indexes its characters. Positions stay below the length of the text plus six, so
the additions do not wrap. `errorPosition_` is written but never read, and is not modelled. `ParseValue`,
`ParseObject` and `ParseArray` call each other; the model bounds the depth of calls and loop iterations by a number,
and theorem `C53_terminates` shows that the bound used by `parse` is never reached. The C++ stack is not modelled.
-/

namespace Caitlyn

/-- `JsonError` (JsonError.h:26-42). -/
inductive JsonError where
  | noError | unexpectedCharacter | unterminatedString | unterminatedObject | unterminatedArray | expectedStringKey
  | missingColon | invalidJson | invalidValue | invalidNumber | invalidEscapeSequence | numberConversionError
  | outOfRangeError | trailingComma
  deriving DecidableEq, Repr

namespace JsonParser
variable {F : Type}

/-- `position_` and `error_` (JsonParser.h:429-433). -/
structure PState where
  pos : Nat := 0
  err : JsonError := .noError
  deriving DecidableEq

/-- The constants of `Def` (Char/Defs.h) used here. -/
def quote : Chr := ⟨b!"\""⟩
def backslash : Chr := ⟨b!"\\"⟩
def lbrace : Chr := ⟨b!"{"⟩
def rbrace : Chr := ⟨b!"}"⟩
def lbracket : Chr := ⟨b!"["⟩
def rbracket : Chr := ⟨b!"]"⟩
def colon : Chr := ⟨b!":"⟩
def comma : Chr := ⟨b!","⟩
def minus : Chr := ⟨b!"-"⟩
def plus : Chr := ⟨b!"+"⟩
def dot : Chr := ⟨b!"."⟩
def lowerE : Chr := ⟨b!"e"⟩
def upperE : Chr := ⟨b!"E"⟩
def lowerT : Chr := ⟨b!"t"⟩
def lowerF : Chr := ⟨b!"f"⟩
def lowerN : Chr := ⟨b!"n"⟩
def lowerU : Chr := ⟨b!"u"⟩

/-- `SkipSpace` (JsonParser.h:405-411) from `pos`: the new position. -/
def skipSpace (s : Str) (pos : Nat) : Res Nat := StrUtil.firstNonSpace (s.drop pos) pos

/-- `SetError`, `SetErrorPosition` and `return JsonData{}`, as in every error branch. -/
def fail (e : JsonError) (pos : Nat) : Res (Json F × PState) := .ok (.null, ⟨pos, e⟩)

/-- `json_.str().compare(position_, n, text) == 0` (JsonParser.h:247, 349, 354) with `n` the length of `text`:
a position in the *bytes* of the text; beyond the end `compare` throws. -/
def compareAt (s : Str) (pos : Nat) (text : List UInt8) : Res Bool :=
  if pos > (Str.str s).length then .error .outOfRange
  else .ok (((Str.str s).drop pos).take text.length == text)

/-- `ParseNull` (JsonParser.h:245-255). -/
def parseNull (s : Str) (st : PState) : Res (Json F × PState) := do
  if ← compareAt s st.pos Str.valueOfNull then return (.null, { st with pos := st.pos + 4 })
  fail .invalidValue st.pos

/-- `ParseBoolean` (JsonParser.h:347-362). -/
def parseBoolean (s : Str) (st : PState) : Res (Json F × PState) := do
  if ← compareAt s st.pos (Str.valueOfBool true) then return (.bool true, { st with pos := st.pos + 4 })
  if ← compareAt s st.pos (Str.valueOfBool false) then return (.bool false, { st with pos := st.pos + 5 })
  fail .invalidValue st.pos

/-- The escapes of one character (JsonParser.h:273-300). -/
def simpleEscape (c : Chr) : Option (List UInt8) :=
  if c = quote then some b!"\""
  else if c = backslash then some b!"\\"
  else if c = ⟨b!"b"⟩ then some [0x08]
  else if c = lowerF then some [0x0C]
  else if c = lowerN then some [0x0A]
  else if c = ⟨b!"r"⟩ then some [0x0D]
  else if c = lowerT then some [0x09]
  else none

/-- What an escape writes, and how many characters after the backslash it takes (JsonParser.h:273-328), with the
backslash at `pos - 1`; or an error. -/
def escape (s : Str) (pos : Nat) (c : Chr) : Res (Except JsonError (List UInt8 × Nat)) :=
  match simpleEscape c with
  | some bytes => .ok (.ok (bytes, 1))
  | none =>
    if c = lowerU then
      if pos + 4 ≥ s.length then .ok (.error .invalidEscapeSequence)
      else do
        let hex ← Str.substring s (pos + 1) 4
        match StdNum.stoul 16 (Str.str hex) with
        | .ok code => return .ok ([UInt8.ofNat code], 5)
        | .error _ => return .error .invalidEscapeSequence
    else .ok (.error .invalidEscapeSequence)

/-- The end of `ParseString` (JsonParser.h:337-344), after the loop. -/
def stringEnd (s : Str) (st : PState) (out : List UInt8) : Res (Json F × PState) := do
  let c ← Str.index s st.pos
  if c = quote then do
    let v ← Str.ofStdString out
    return (.str v, { st with pos := st.pos + 1 })
  else fail .unterminatedString st.pos

/-- The loop of `ParseString` (JsonParser.h:262-336); `out` is what has been written to `escaped_stream`. After an
escape `Next` is called twice (329, 335). -/
def stringLoop (s : Str) : Nat → PState → List UInt8 → Res (Json F × PState)
  | 0, _, _ => .error .fuel
  | n + 1, st, out =>
    if st.pos < s.length then do
      let c ← Str.index s st.pos
      if c = quote then stringEnd s st out
      else if c = backslash then
        if st.pos + 1 ≥ s.length then fail .unterminatedString (st.pos + 1)
        else do
          let d ← Str.index s (st.pos + 1)
          match ← escape s (st.pos + 1) d with
          | .ok (bytes, k) => stringLoop s n { st with pos := st.pos + 1 + k + 1 } (out ++ bytes)
          | .error e => fail e (st.pos + 1)
      else stringLoop s n { st with pos := st.pos + 1 } (out ++ c.printed)
    else stringEnd s st out

/-- `ParseString` (JsonParser.h:257-345). -/
def parseString (s : Str) (st : PState) : Res (Json F × PState) :=
  stringLoop s (s.length + 1) { st with pos := st.pos + 1 } []

/-- The condition of the loop of `ParseNumber` (JsonParser.h:369-371). -/
def isNumChar (c : Chr) : Res Bool := do
  let cp ← c.getCodePoint
  return CharUtil.isDigit cp || decide (c = dot) || decide (c = lowerE) || decide (c = upperE) ||
    decide (c = minus) || decide (c = plus)

/-- The loop of `ParseNumber` (JsonParser.h:367-374): how many characters it passes. -/
def numLen : Str → Res Nat
  | [] => .ok 0
  | c :: rest => do
    if ← isNumChar c then return (← numLen rest) + 1
    return 0

/-- `std::stod` or `std::stoll` and the handlers (JsonParser.h:376-400). -/
def convert (ops : FloatOps F) (number : Str) : Except JsonError (Json F) :=
  if plus ∈ number ∨ lowerE ∈ number ∨ upperE ∈ number then
    match ops.stod (Str.str number) with
    | .ok f => .ok (.float f)
    | .error true => .error .outOfRangeError
    | .error false => .error .invalidNumber
  else
    match StdNum.stoll 10 (Str.str number) with
    | .ok i => .ok (.int i)
    | .error .outOfRange => .error .outOfRangeError
    | .error _ => .error .invalidNumber

/-- `ParseNumber` (JsonParser.h:364-403). `number_str.Find(c) != NPosition` is membership. -/
def parseNumber (ops : FloatOps F) (s : Str) (st : PState) : Res (Json F × PState) := do
  let len ← numLen (s.drop st.pos)
  let number ← Str.substring s st.pos len
  match convert ops number with
  | .ok j => return (j, { st with pos := st.pos + len })
  | .error e => fail e st.pos

/-- What follows a value in an object or array (JsonParser.h:160-183, 215-238): the closing bracket, a comma and
something else than the closing bracket, or an error. The number is the position reached. -/
inductive After where
  | closed (pos : Nat)
  | more (pos : Nat)
  | error (e : JsonError) (pos : Nat)

def afterValue (s : Str) (close : Chr) (pos : Nat) : Res After := do
  let pos ← skipSpace s pos
  let c ← Str.index s pos
  if c = comma then do
    let pos ← skipSpace s (pos + 1)
    let c ← Str.index s pos
    if c = close then return .error .trailingComma pos
    return .more pos
  else if c = close then return .closed (pos + 1)
  else return .error .unexpectedCharacter pos

/-- The key of a member, the colon and the white space after it (JsonParser.h:137-157), from the position after the
quotation mark. -/
def memberKey (s : Str) (pos : Nat) : Res (Except (JsonError × Nat) (Str × Nat)) := do
  let keyEnd ← Str.find s [quote] pos
  if keyEnd = npos then return .error (.unterminatedString, pos)
  let key ← Str.substring s pos (keyEnd - pos)
  let pos ← skipSpace s (keyEnd + 1)
  let c ← Str.index s pos
  if c ≠ colon then return .error (.missingColon, pos)
  let pos ← skipSpace s (pos + 1)
  return .ok (key, pos)

mutual

/-- `ParseValue` (JsonParser.h:81-118), with the first statements of `ParseObject` (122-124) and `ParseArray`
(199-201). -/
def parseValue (ops : FloatOps F) (s : Str) : Nat → PState → Res (Json F × PState)
  | 0, _ => .error .fuel
  | n + 1, st => do
    let pos ← skipSpace s st.pos
    if pos ≥ s.length then return (.null, { st with pos := pos })
    let c ← Str.index s pos
    if c = quote then parseString s { st with pos := pos }
    else if c = lbrace then do
      let pos ← skipSpace s (pos + 1)
      objectLoop ops s n { st with pos := pos } []
    else if c = lbracket then do
      let pos ← skipSpace s (pos + 1)
      arrayLoop ops s n { st with pos := pos } []
    else if c = lowerT ∨ c = lowerF then parseBoolean s { st with pos := pos }
    else if c = lowerN then parseNull s { st with pos := pos }
    else do
      let cp ← c.getCodePoint
      if CharUtil.isDigit cp ∨ c = minus ∨ c = plus then parseNumber ops s { st with pos := pos }
      else fail .unexpectedCharacter pos

/-- The loop of `ParseObject` (JsonParser.h:126-194) with the members so far. -/
def objectLoop (ops : FloatOps F) (s : Str) : Nat → PState → List (Str × Json F) → Res (Json F × PState)
  | 0, _, _ => .error .fuel
  | n + 1, st, members =>
    if st.pos < s.length then do
      let pos ← skipSpace s st.pos
      let c ← Str.index s pos
      if c = rbrace then return (.obj members, { st with pos := pos + 1 })
      else if c = quote then do
        match ← memberKey s (pos + 1) with
        | .error (e, pos) => fail e pos
        | .ok (key, pos) =>
          let (v, st) ← parseValue ops s n { st with pos := pos }
          match ← afterValue s rbrace st.pos with
          | .closed pos => return (.obj (Json.setMember key v members), { st with pos := pos })
          | .more pos => objectLoop ops s n { st with pos := pos } (Json.setMember key v members)
          | .error e pos => fail e pos
      else fail .unexpectedCharacter pos
    else fail .unterminatedObject st.pos

/-- The loop of `ParseArray` (JsonParser.h:203-242) with the items so far. -/
def arrayLoop (ops : FloatOps F) (s : Str) : Nat → PState → List (Json F) → Res (Json F × PState)
  | 0, _, _ => .error .fuel
  | n + 1, st, items =>
    if st.pos < s.length then do
      let pos ← skipSpace s st.pos
      let c ← Str.index s pos
      if c = rbracket then return (.arr items, { st with pos := pos + 1 })
      else do
        let (v, st) ← parseValue ops s n { st with pos := pos }
        match ← afterValue s rbracket st.pos with
        | .closed pos => return (.arr (items ++ [v]), { st with pos := pos })
        | .more pos => arrayLoop ops s n { st with pos := pos } (items ++ [v])
        | .error e pos => fail e pos
    else fail .unterminatedArray st.pos

end

/-- `JsonParser::Parse` (JsonParser.h:32-59): `GetData()` and the final state. -/
def parse (ops : FloatOps F) (s : Str) : Res (Json F × PState) :=
  if s = [] then fail .invalidJson 0
  else do
    let first ← StrUtil.findFirstNonSpace s
    let last ← StrUtil.findLastNonSpace s
    let c ← Str.index s first
    if c ≠ lbrace then fail .invalidJson first
    else do
      let c ← Str.index s last
      if c ≠ rbrace then fail .invalidJson last
      else parseValue ops s (2 * s.length + 2) {}

/-- `JsonDocument::Parse(const String&)` (Json.h:107-120): `root_` and `error_` afterwards. -/
def document (ops : FloatOps F) (s : Str) : Res (Json F × JsonError) := do
  let (data, st) ← parse ops s
  if st.err ≠ .noError then return (.null, st.err)
  return (data, .noError)

end JsonParser
end Caitlyn
