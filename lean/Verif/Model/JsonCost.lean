import Verif.Model.JsonParser

/-!
# What parsing costs

A copy of the model of the recursive functions of the parser that counts three things it does, each of which may take as long as
the text or the value concerned is: copies of the whole text, copies of nodes, comparisons of keys. That the copy computes what
the model computes is proved (`C140_same`). What is not counted takes a number of steps bounded by the number of characters
passed: every other function of the parser goes through the text once, from its position on.
-/

namespace Caitlyn.JsonParser
variable {F : Type}

/-- The copies of the whole text (`json_.str()`, JsonParser.h:247, 349, 354), the `JsonData` objects copied (`Append`,
JsonParser.h:213, and `GetData`, 71-74) and the keys compared by `operator[](key)` (JsonData.h:160-163, called in
JsonParser.h:158). -/
structure Cost where
  texts : Nat := 0
  nodes : Nat := 0
  keys : Nat := 0
  deriving DecidableEq, Repr

instance : Add Cost := ⟨fun a b => ⟨a.texts + b.texts, a.nodes + b.nodes, a.keys + b.keys⟩⟩

mutual
/-- The objects that the copy constructor of `JsonData` makes (JsonData.h:54-57 and `CopyUnion`, 469-505): the value itself and one
for each item and member, and so on. -/
def copied : Json F → Nat
  | .arr js => 1 + copiedItems js
  | .obj ms => 1 + copiedMembers ms
  | _ => 1
/-- The loop over the items (JsonData.h:490-493). -/
def copiedItems : List (Json F) → Nat
  | [] => 0
  | j :: js => copied j + copiedItems js
/-- The loop over the members (JsonData.h:497-500). -/
def copiedMembers : List (Str × Json F) → Nat
  | [] => 0
  | (_, j) :: ms => copied j + copiedMembers ms
end

/-- `result.Append(value)` (JsonParser.h:213): the parameter is passed by value and copied once more into the new node
(JsonData.h:220-228). -/
def appendCost (v : Json F) : Cost := { nodes := 2 * copied v }

/-- The keys that `operator[](key)` compares (JsonData.h:160-163): up to the first equal one. -/
def searched (key : Str) : List (Str × Json F) → Nat
  | [] => 0
  | (k, _) :: rest => if k = key then 1 else searched key rest + 1

/-- `parseNull` (JsonParser.h:245-255) with its cost. -/
def parseNullC (s : Str) (st : PState) : Res ((Json F × PState) × Cost) := do
  let r ← parseNull s st
  return (r, { texts := 1 })

/-- `parseBoolean` (JsonParser.h:347-362) with its cost: the text is copied a second time if it is not `true` that stands here. -/
def parseBooleanC (s : Str) (st : PState) : Res ((Json F × PState) × Cost) := do
  let isTrue ← compareAt s st.pos (Str.valueOfBool true)
  let r ← parseBoolean s st
  return (r, { texts := if isTrue then 1 else 2 })

mutual

/-- `parseValue` (JsonParser.h:81-118, 122-124, 199-201) with its cost. -/
def parseValueC (ops : FloatOps F) (s : Str) : Nat → PState → Res ((Json F × PState) × Cost)
  | 0, _ => .error .fuel
  | n + 1, st => do
    let pos ← skipSpace s st.pos
    if pos ≥ s.length then return ((.null, { st with pos := pos }), {})
    let c ← Str.index s pos
    if c = quote then do
      let r ← parseString s { st with pos := pos }
      return (r, {})
    else if c = lbrace then do
      let pos ← skipSpace s (pos + 1)
      objectLoopC ops s n { st with pos := pos } []
    else if c = lbracket then do
      let pos ← skipSpace s (pos + 1)
      arrayLoopC ops s n { st with pos := pos } []
    else if c = lowerT ∨ c = lowerF then parseBooleanC s { st with pos := pos }
    else if c = lowerN then parseNullC s { st with pos := pos }
    else do
      let cp ← c.getCodePoint
      if CharUtil.isDigit cp ∨ c = minus ∨ c = plus then do
        let r ← parseNumber ops s { st with pos := pos }
        return (r, {})
      else do
        let r ← fail .unexpectedCharacter pos
        return (r, {})

/-- `objectLoop` (JsonParser.h:126-194) with its cost. -/
def objectLoopC (ops : FloatOps F) (s : Str) : Nat → PState → List (Str × Json F) → Res ((Json F × PState) × Cost)
  | 0, _, _ => .error .fuel
  | n + 1, st, members =>
    if st.pos < s.length then do
      let pos ← skipSpace s st.pos
      let c ← Str.index s pos
      if c = rbrace then return ((.obj members, { st with pos := pos + 1 }), {})
      else if c = quote then do
        match ← memberKey s (pos + 1) with
        | .error (e, pos) => return ((.null, ⟨pos, e⟩), {})
        | .ok (key, pos) =>
          let ((v, st), cost) ← parseValueC ops s n { st with pos := pos }
          let cost := cost + { keys := searched key members }
          match ← afterValue s rbrace st.pos with
          | .closed pos => return ((.obj (Json.setMember key v members), { st with pos := pos }), cost)
          | .more pos => do
            let (r, rest) ← objectLoopC ops s n { st with pos := pos } (Json.setMember key v members)
            return (r, cost + rest)
          | .error e pos => return ((.null, ⟨pos, e⟩), cost)
      else return ((.null, ⟨pos, .unexpectedCharacter⟩), {})
    else return ((.null, ⟨st.pos, .unterminatedObject⟩), {})

/-- `arrayLoop` (JsonParser.h:203-242) with its cost. -/
def arrayLoopC (ops : FloatOps F) (s : Str) : Nat → PState → List (Json F) → Res ((Json F × PState) × Cost)
  | 0, _, _ => .error .fuel
  | n + 1, st, items =>
    if st.pos < s.length then do
      let pos ← skipSpace s st.pos
      let c ← Str.index s pos
      if c = rbracket then return ((.arr items, { st with pos := pos + 1 }), {})
      else do
        let ((v, st), cost) ← parseValueC ops s n { st with pos := pos }
        let cost := cost + appendCost v
        match ← afterValue s rbracket st.pos with
        | .closed pos => return ((.arr (items ++ [v]), { st with pos := pos }), cost)
        | .more pos => do
          let (r, rest) ← arrayLoopC ops s n { st with pos := pos } (items ++ [v])
          return (r, cost + rest)
        | .error e pos => return ((.null, ⟨pos, e⟩), cost)
    else return ((.null, ⟨st.pos, .unterminatedArray⟩), {})

end

/-- `parse` (JsonParser.h:32-59) with its cost. -/
def parseC (ops : FloatOps F) (s : Str) : Res ((Json F × PState) × Cost) :=
  if s = [] then .ok ((.null, ⟨0, .invalidJson⟩), {})
  else do
    let first ← StrUtil.findFirstNonSpace s
    let last ← StrUtil.findLastNonSpace s
    let c ← Str.index s first
    if c ≠ lbrace then return ((.null, ⟨first, .invalidJson⟩), {})
    else do
      let c ← Str.index s last
      if c ≠ rbrace then return ((.null, ⟨last, .invalidJson⟩), {})
      else parseValueC ops s (2 * s.length + 2) {}

/-- `JsonDocument::Parse` (Json.h:107-120) with its cost: `GetData` returns a copy of the value. -/
def documentC (ops : FloatOps F) (s : Str) : Res ((Json F × JsonError) × Cost) := do
  let ((data, st), cost) ← parseC ops s
  if st.err ≠ .noError then return ((.null, st.err), cost)
  return ((data, .noError), cost + { nodes := copied data })

end Caitlyn.JsonParser
