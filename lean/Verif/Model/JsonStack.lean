import Verif.Model.JsonParser

/-!
# The parser with a finite stack

A copy of the model of the recursive functions of the parser. The first number is how many activations of `ParseValue` fit on the
stack; one more is the outcome `memory` (in C++ a stack overflow: undefined behaviour, in practice a crash). That the
copy computes what the model computes as long as the stack suffices is proved (`C128_enough`). `ParseObject` and `ParseArray`
have one activation each between two of `ParseValue`.
-/

namespace Caitlyn.JsonParser
variable {F : Type}

mutual

/-- `parseValue` with room for `d` activations on the stack: `ParseValue` (JsonParser.h:81-118), with the first statements
of `ParseObject` (122-124) and `ParseArray` (199-201). -/
def parseValueL (ops : FloatOps F) (s : Str) : Nat → Nat → PState → Res (Json F × PState)
  | _, 0, _ => .error .fuel
  | 0, _ + 1, _ => .error .memory
  | d + 1, n + 1, st => do
    let pos ← skipSpace s st.pos
    if pos ≥ s.length then return (.null, { st with pos := pos })
    let c ← Str.index s pos
    if c = quote then parseString s { st with pos := pos }
    else if c = lbrace then do
      let pos ← skipSpace s (pos + 1)
      objectLoopL ops s d n { st with pos := pos } []
    else if c = lbracket then do
      let pos ← skipSpace s (pos + 1)
      arrayLoopL ops s d n { st with pos := pos } []
    else if c = lowerT ∨ c = lowerF then parseBoolean s { st with pos := pos }
    else if c = lowerN then parseNull s { st with pos := pos }
    else do
      let cp ← c.getCodePoint
      if CharUtil.isDigit cp ∨ c = minus ∨ c = plus then parseNumber ops s { st with pos := pos }
      else fail .unexpectedCharacter pos

/-- The loop of `ParseObject` (JsonParser.h:126-194) with the members so far, as `objectLoop`. -/
def objectLoopL (ops : FloatOps F) (s : Str) : Nat → Nat → PState → List (Str × Json F) → Res (Json F × PState)
  | _, 0, _, _ => .error .fuel
  | d, n + 1, st, members =>
    if st.pos < s.length then do
      let pos ← skipSpace s st.pos
      let c ← Str.index s pos
      if c = rbrace then return (.obj members, { st with pos := pos + 1 })
      else if c = quote then do
        match ← memberKey s (pos + 1) with
        | .error (e, pos) => fail e pos
        | .ok (key, pos) =>
          let (v, st) ← parseValueL ops s d n { st with pos := pos }
          match ← afterValue s rbrace st.pos with
          | .closed pos => return (.obj (Json.setMember key v members), { st with pos := pos })
          | .more pos => objectLoopL ops s d n { st with pos := pos } (Json.setMember key v members)
          | .error e pos => fail e pos
      else fail .unexpectedCharacter pos
    else fail .unterminatedObject st.pos

/-- The loop of `ParseArray` (JsonParser.h:203-242) with the items so far, as `arrayLoop`. -/
def arrayLoopL (ops : FloatOps F) (s : Str) : Nat → Nat → PState → List (Json F) → Res (Json F × PState)
  | _, 0, _, _ => .error .fuel
  | d, n + 1, st, items =>
    if st.pos < s.length then do
      let pos ← skipSpace s st.pos
      let c ← Str.index s pos
      if c = rbracket then return (.arr items, { st with pos := pos + 1 })
      else do
        let (v, st) ← parseValueL ops s d n { st with pos := pos }
        match ← afterValue s rbracket st.pos with
        | .closed pos => return (.arr (items ++ [v]), { st with pos := pos })
        | .more pos => arrayLoopL ops s d n { st with pos := pos } (items ++ [v])
        | .error e pos => fail e pos
    else fail .unterminatedArray st.pos

end

/-- `parse` (JsonParser.h:32-59) with such a stack. -/
def parseL (ops : FloatOps F) (d : Nat) (s : Str) : Res (Json F × PState) :=
  if s = [] then fail .invalidJson 0
  else do
    let first ← StrUtil.findFirstNonSpace s
    let last ← StrUtil.findLastNonSpace s
    let c ← Str.index s first
    if c ≠ lbrace then fail .invalidJson first
    else do
      let c ← Str.index s last
      if c ≠ rbrace then fail .invalidJson last
      else parseValueL ops s d (2 * s.length + 2) {}

/-- `JsonDocument::Parse` (Json.h:107-120) with such a stack. -/
def documentL (ops : FloatOps F) (d : Nat) (s : Str) : Res (Json F × JsonError) := do
  let (data, st) ← parseL ops d s
  if st.err ≠ .noError then return (.null, st.err)
  return (data, .noError)

end Caitlyn.JsonParser
