import Verif.Model.JsonDoc

/-!
# Model of JSON written in the source

`JSON_STRING(...)` (`__Serializing/Json/Defs.h:21`) is `Caitlyn::Json::MakeDocument(#__VA_ARGS__)`. What reaches
`MakeDocument` is made by the preprocessor: ISO C++ 5.2 (phases of translation) and 15.6.3 (the `#` operator). The
characters between the parentheses of the macro are given; the result is the value of the string literal. The
spelling of literals is kept, since `#` writes a `\` before each `"` and `\` of a literal and the compiler removes it.

Simplifications: `none` stands for source the model says nothing about. That is: literals that are not closed on
their line, line splices, raw literals, and the characters `'`, `\`, `#`, `(`, `)` outside literals. The macro is
called directly, not from an argument of another macro.
-/

namespace Caitlyn.JsonMacro

/-- What a character means in the place of the third character of a trigraph. -/
def trigraphs : List (Chr × Chr) :=
  [(⟨[0x3D]⟩, ⟨[0x23]⟩), (⟨[0x2F]⟩, ⟨[0x5C]⟩), (⟨[0x27]⟩, ⟨[0x5E]⟩), (⟨[0x28]⟩, ⟨[0x5B]⟩), (⟨[0x29]⟩, ⟨[0x5D]⟩),
   (⟨[0x21]⟩, ⟨[0x7C]⟩), (⟨[0x3C]⟩, ⟨[0x7B]⟩), (⟨[0x3E]⟩, ⟨[0x7D]⟩), (⟨[0x2D]⟩, ⟨[0x7E]⟩)]

/-- Phase 1 of C++11 and C++14: trigraphs are replaced. -/
def replace : Str → Str
  | a :: b :: c :: s =>
    if a = ⟨[0x3F]⟩ ∧ b = ⟨[0x3F]⟩ then
      match trigraphs.lookup c with
      | some d => d :: replace s
      | none => a :: replace (b :: c :: s)
    else a :: replace (b :: c :: s)
  | s => s

/-- Where the preprocessor is: between tokens, with white space seen or not; in a literal; after a `\` in one; in a
comment up to the end of the line; at the `*` that begins a comment; in a comment. -/
inductive Mode where
  | code (space : Bool)
  | literal
  | escape
  | line
  | opening
  | block
deriving DecidableEq

/-- White space of the source. -/
def white : Str := c!"\x09\x0A\x0B\x0C\x0D "

/-- The ends of lines. -/
def newline : Str := c!"\x0A\x0D"

/-- What the model says nothing about, outside literals: `'`, `\`, `#`, `(`, `)`. -/
def unmodelled : Str := c!"'\\#()"

/-- The space before a token, if white space was seen there. -/
def gap (space : Bool) : Str := if space then c!" " else []

/-- The characters of the literal made by `#__VA_ARGS__` from the rest of the source: each run of white space and
comments between tokens is one space, and those at the end are none. -/
def scan : Mode → Str → Option Str
  | .code _, [] => some []
  | .code space, c :: s =>
    if c ∈ white then scan (.code true) s
    else if c = ⟨[0x2F]⟩ ∧ s.head? = some ⟨[0x2F]⟩ then scan .line s
    else if c = ⟨[0x2F]⟩ ∧ s.head? = some ⟨[0x2A]⟩ then scan .opening s
    else if c ∈ unmodelled ∨ c = ⟨[0x52]⟩ ∧ s.head? = some ⟨[0x22]⟩ then none
    else if c = ⟨[0x22]⟩ then (scan .literal s).map fun t => gap space ++ c :: t
    else (scan (.code false) s).map fun t => gap space ++ c :: t
  | .literal, [] => none
  | .literal, c :: s =>
    if c ∈ newline then none
    else if c = ⟨[0x5C]⟩ then (scan .escape s).map (c :: ·)
    else if c = ⟨[0x22]⟩ then (scan (.code false) s).map (c :: ·)
    else (scan .literal s).map (c :: ·)
  | .escape, [] => none
  | .escape, c :: s => if c ∈ newline then none else (scan .literal s).map (c :: ·)
  | .line, [] => some []
  | .line, c :: s => if c ∈ newline then scan (.code true) s else scan .line s
  | .opening, [] => none
  | .opening, _ :: s => scan .block s
  | .block, [] => none
  | .block, c :: s =>
    if c = ⟨[0x2A]⟩ ∧ s.head? = some ⟨[0x2F]⟩ then
      match s with
      | _ :: s' => scan (.code true) s'
      | [] => none
    else scan .block s

/-- `#__VA_ARGS__`: white space before the first token is none as well. -/
def stringize (source : Str) : Option Str := scan (.code false) (source.dropWhile (· ∈ white))

variable {F : Type}

/-- `JSON_STRING(...)` (Defs.h:21) and `MakeDocument(const String&)` (Json.h:196-199); `old`: the compiler replaces
trigraphs. -/
def jsonString (ops : FloatOps F) (old : Bool) (source : Str) : Option (Res (JsonDoc F)) :=
  (stringize (if old then replace source else source)).map fun t => JsonDoc.parse ops t ⟨.null, .noError⟩

end Caitlyn.JsonMacro
