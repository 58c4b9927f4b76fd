import Verif.Model.Str
import Verif.Model.StdNum
import Verif.Lit

/-!
# Model of `String::Format` (String.h:563-974)

The arguments are modelled after their conversion by `Formatter::ToString` (String.h:712-757), as a list
of strings; the conversion itself is modelled in `Model/FormatArgs`. Not modelled: memory exhaustion for huge widths, the `Representation` member (never
read), and the message texts of `FormatError`.
-/

namespace Caitlyn.Format

/-- `Formatter::Alignment` (String.h:668-673). -/
inductive Alignment where
  | left | right | center
  deriving DecidableEq, Repr

/-- `Formatter::ValueType` (String.h:675-680). -/
inductive ValueType where
  | string | integral | floating
  deriving DecidableEq, Repr

/-- `Formatter::FormatSpecifier` (String.h:693-701) with its defaults. -/
structure Specifier where
  align : Alignment := .left
  width : Nat := 0
  fill : Chr := ⟨b!" "⟩
  type : ValueType := .string
  precision : Int := -1
  deriving DecidableEq, Repr

/-- The three alignment characters and the alignment they select (String.h:773-787, 789-803). -/
def alignOf (c : Chr) : Option Alignment :=
  if c = ⟨b!"<"⟩ then some .left
  else if c = ⟨b!">"⟩ then some .right
  else if c = ⟨b!"^"⟩ then some .center
  else none

/-- `ParseAlignment` (String.h:765-804) with `SetFill` (760-763). The list is the part of `config` from
`pos` on; the result carries the new rest. An empty rest makes `config[pos]` (789) an
out-of-bounds access. -/
def parseAlignment (spec : Specifier) : Str → Res (Specifier × Str)
  | [] => .error .ub
  | c :: rest =>
    match rest with
    | d :: rest' =>
      match alignOf d with
      | some a => .ok ({ spec with fill := c, align := a }, rest')
      | none =>
        match alignOf c with
        | some a => .ok ({ spec with align := a }, rest)
        | none => .ok (spec, c :: rest)
    | [] =>
      match alignOf c with
      | some a => .ok ({ spec with align := a }, [])
      | none => .ok (spec, [c])

/-- The loops `while (pos < config.size() && IsDigit(config[pos].GetCodePoint())) ++pos`
(String.h:594-597, 811-814, 825-828): the digits and the rest. -/
def spanDigits : Str → Res (Str × Str)
  | [] => .ok ([], [])
  | c :: rest => do
    let cp ← c.getCodePoint
    if CharUtil.isDigit cp then do
      let (ds, r) ← spanDigits rest
      return (c :: ds, r)
    else return ([], c :: rest)

/-- `pos < config.size() && IsDigit(config[pos].GetCodePoint())`. -/
def startsWithDigit : Str → Res Bool
  | [] => .ok false
  | c :: _ => do
    let cp ← c.getCodePoint
    return CharUtil.isDigit cp

/-- `ParseWidth` (String.h:806-816). `stoul` is given the whole rest and may throw. -/
def parseWidth (spec : Specifier) (rest : Str) : Res (Specifier × Str) := do
  if ← startsWithDigit rest then do
    let w ← StdNum.stoul 10 (Str.str rest)
    let (_, r) ← spanDigits rest
    return ({ spec with width := w }, r)
  else return (spec, rest)

/-- `ParsePrecision` (String.h:818-832). -/
def parsePrecision (spec : Specifier) (rest : Str) : Res (Specifier × Str) :=
  match rest with
  | [] => .ok (spec, [])
  | c :: rest' =>
    if c = ⟨b!"."⟩ then do
      if ← startsWithDigit rest' then do
        let p ← StdNum.stoi 10 (Str.str rest')
        let (_, r) ← spanDigits rest'
        return ({ spec with precision := p }, r)
      else return (spec, rest')
    else .ok (spec, c :: rest')

/-- `ParseValueType` (String.h:834-854); the new position is not used afterwards. -/
def parseValueType (spec : Specifier) (rest : Str) : Specifier :=
  match rest with
  | [] => spec
  | c :: _ =>
    if c = ⟨b!"s"⟩ then { spec with type := .string }
    else if c = ⟨b!"d"⟩ then { spec with type := .integral }
    else if c = ⟨b!"f"⟩ then { spec with type := .floating }
    else spec

/-- `MakeSpacifier` (String.h:856-871). -/
def makeSpecifier (config : Str) : Res Specifier :=
  match config with
  | [] => .error .ub
  | c :: rest =>
    if c ≠ ⟨b!":"⟩ then .error .formatError
    else do
      let (spec, rest) ← parseAlignment {} rest
      let (spec, rest) ← parseWidth spec rest
      let (spec, rest) ← parsePrecision spec rest
      return parseValueType spec rest

/-- `ProcessAlignment` (String.h:874-896). -/
def processAlignment (value : Str) (spec : Specifier) : Res Str :=
  if value.length ≥ spec.width then .ok value
  else
    match spec.align with
    | .left => .ok (Str.appendCount value (spec.width - value.length) spec.fill)
    | .right => Str.insertCount value 0 (spec.width - value.length) spec.fill
    | .center => do
      let padding := spec.width - value.length
      let v ← Str.insertCount value 0 (padding / 2) spec.fill
      return Str.appendCount v (padding - padding / 2) spec.fill

/-- The first loop of `ProcessFloating` (String.h:923-927): at most `limit` digits of the
fraction. The code point is computed before the limit is tested. -/
def fractionDigits : Str → Nat → Res Str
  | [], _ => .ok []
  | c :: rest, limit => do
    let cp ← c.getCodePoint
    if CharUtil.isDigit cp then
      match limit with
      | 0 => return []
      | n + 1 => do
        let ds ← fractionDigits rest n
        return c :: ds
    else return []

/-- What `ProcessFloating` writes to its stream (String.h:912-947). -/
def floatingText (value : Str) (spec : Specifier) : Res (List UInt8) := do
  let dot ← Str.find value c!"." 0
  if dot ≠ npos then do
    let head ← Str.substring value 0 (dot + 1)
    if spec.precision > 0 then do
      let ds ← fractionDigits (value.drop (dot + 1)) spec.precision.toNat
      return Str.str head ++ Str.str ds ++ List.replicate (spec.precision.toNat - ds.length) 0x30
    else return Str.str head
  else if spec.precision > 0 then
    return Str.str value ++ b!"." ++ List.replicate spec.precision.toNat 0x30
  else return Str.str value

/-- `ProcessFloating` (String.h:910-951). -/
def processFloating (value : Str) (spec : Specifier) : Res Str := do
  let out ← floatingText value spec
  let result ← Str.ofStdString out
  processAlignment result spec

/-- `Process` (String.h:960-973) with `ProcessString` (903-908) and `ProcessIntegral` (953-958). -/
def process (value : Str) (spec : Specifier) : Res Str :=
  match spec.type with
  | .integral => processAlignment value spec
  | .floating => processFloating value spec
  | .string => processAlignment value spec

/-- `stoul` of the argument index (String.h:598-605): `out_of_range` becomes `FormatError`. -/
def argIndex (digits : Str) : Res Nat :=
  match StdNum.stoul 10 (Str.str digits) with
  | .error .outOfRange => .error .formatError
  | r => r

/-- One placeholder, `spec` being the text between the brackets (String.h:587-641): the bytes written and
the new `auto_index`. -/
def placeholder (args : List Str) (auto : Nat) (spec : Str) : Res (List UInt8 × Nat) := do
  if ← startsWithDigit spec then do
    let (digits, formatSpec) ← spanDigits spec
    let i ← argIndex digits
    if i > wsub args.length 1 then .error .formatError
    else
      match formatSpec with
      | [] => do
        let a ← vecGet args i
        return (Str.str a, auto)
      | c :: _ =>
        if c = ⟨b!":"⟩ then do
          let parsed ← makeSpecifier formatSpec
          let a ← vecGet args auto
          let r ← process a parsed
          return (Str.str r, auto)
        else return ([], auto)
  else if spec.head? = some ⟨b!":"⟩ then do
    let parsed ← makeSpecifier spec
    let a ← vecGet args 0
    let r ← process a parsed
    return (Str.str r, auto)
  else if args.length = 1 then do
    let a ← vecGet args 0
    return (Str.str a, auto)
  else if args.length > 1 then do
    let a ← vecGet args auto
    return (Str.str a, auto + 1)
  else .error .formatError

/-- The loop of `Format` (String.h:571-661). The list is the formatter from `pos` on; the result is
what is written to the stream from there. Every round consumes a character, so
`size() + 1` rounds suffice. `Find` from `pos` (String.h:582) is a search in the rest. -/
def loop (args : List Str) : Nat → Str → Nat → Res (List UInt8)
  | 0, _, _ => .error .fuel
  | _ + 1, [], _ => .ok []
  | n + 1, c :: rest, auto =>
    if c = ⟨b!"{"⟩ then
      if rest.head? = some ⟨b!"{"⟩ then do
        let out ← loop args n (rest.drop 1) auto
        return b!"{" ++ out
      else
        let k := Str.search (c :: rest) c!"}"
        if k = (c :: rest).length then .error .formatError
        else do
          let spec ← Str.substring (c :: rest) 1 (k - 1)
          let (bytes, auto) ← placeholder args auto spec
          let out ← loop args n ((c :: rest).drop (k + 1)) auto
          return bytes ++ out
    else if c = ⟨b!"}"⟩ then
      if rest.head? = some ⟨b!"}"⟩ then do
        let out ← loop args n (rest.drop 1) auto
        return b!"}" ++ out
      else .error .formatError
    else do
      let out ← loop args n rest auto
      return c.printed ++ out

/-- `String::Format(formatter, args...)` (String.h:563-663). -/
def format (formatter : Str) (args : List Str) : Res Str := do
  let out ← loop args (formatter.length + 1) formatter 0
  Str.ofStdString out

example : format c!"a{}b{{{1}}}{}" [c!"x", c!"yé"] = .ok c!"axb{yé}yé" := by decide +kernel
example : format c!"[{:*^9}] {:.2f}" [c!"3.14159"] = .ok c!"[*3.14159*] 3.14" := by decide +kernel

end Caitlyn.Format
