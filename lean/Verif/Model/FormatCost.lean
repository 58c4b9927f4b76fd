import Verif.Model.Format
import Verif.Model.FindCost

/-!
# The work of `String::Format` (__Core/String/String.h:563-973)

The functions of `Model/Format` with a count of steps: a round of a loop, a character compared or copied, a byte written, copied or
decoded is one step. `Substring` builds a vector and copies it into the string (String.h:419-428, 78-80), a `String` made from bytes decodes each
character twice (String.h:67-76), and each argument is converted and copied into the vector (String.h:565). Simplifications: the growth of
vectors and streams is not counted (it at most doubles the copies); `std::stoul` and `std::stoi` are counted as reading all the text they
are given; a conversion is counted by the length of its result.
-/

namespace Caitlyn.FormatCost
open Format

/-- Steps, and the result or the error. -/
abbrev Work (α : Type) := Nat × Res α

def next {α β : Type} (x : Work α) (f : α → Work β) : Work β :=
  match x.2 with
  | .ok a => (x.1 + (f a).1, (f a).2)
  | .error e => (x.1, .error e)

/-- Steps of `Substring` with a result of `n` characters (String.h:419-428). -/
def cutting (n : Nat) : Nat := 2 * n

/-- Steps of `Substring(pos).str()` and of the conversion to a number (String.h:600, 810, 824). -/
def reading (n : Nat) : Nat := cutting n + n + n

/-- The loops over digits (String.h:594-597, 811-814, 825-828). -/
def spanDigitsC : Str → Work (Str × Str)
  | [] => (1, .ok ([], []))
  | c :: rest =>
    next (1, c.getCodePoint) fun cp =>
      if CharUtil.isDigit cp then next (spanDigitsC rest) fun p => (0, .ok (c :: p.1, p.2))
      else (0, .ok ([], c :: rest))

/-- `ParseWidth` (String.h:806-816). -/
def parseWidthC (spec : Specifier) (rest : Str) : Work (Specifier × Str) :=
  next (1, startsWithDigit rest) fun b =>
    if b then
      next (reading rest.length, StdNum.stoul 10 (Str.str rest)) fun w =>
        next (spanDigitsC rest) fun p => (0, .ok ({ spec with width := w }, p.2))
    else (0, .ok (spec, rest))

/-- `ParsePrecision` (String.h:818-832). -/
def parsePrecisionC (spec : Specifier) (rest : Str) : Work (Specifier × Str) :=
  match rest with
  | [] => (1, .ok (spec, []))
  | c :: rest' =>
    if c = ⟨b!"."⟩ then
      next (2, startsWithDigit rest') fun b =>
        if b then
          next (reading rest'.length, StdNum.stoi 10 (Str.str rest')) fun n =>
            next (spanDigitsC rest') fun p => (0, .ok ({ spec with precision := n }, p.2))
        else (0, .ok (spec, rest'))
    else (1, .ok (spec, c :: rest'))

/-- `MakeSpacifier` (String.h:856-871); at most six comparisons for the alignment and three for the type. -/
def makeSpecifierC (config : Str) : Work Specifier :=
  match config with
  | [] => (1, .error .ub)
  | c :: rest =>
    if c ≠ ⟨b!":"⟩ then (1, .error .formatError)
    else
      next (7, parseAlignment {} rest) fun p =>
        next (parseWidthC p.1 p.2) fun q =>
          next (parsePrecisionC q.1 q.2) fun r => (3, .ok (parseValueType r.1 r.2))

/-- `ProcessAlignment` (String.h:874-896): characters appended; inserting at the front moves the others. -/
def processAlignmentC (value : Str) (spec : Specifier) : Work Str :=
  if value.length ≥ spec.width then (1, .ok value)
  else
    match spec.align with
    | .left => (1 + (spec.width - value.length), .ok (Str.appendCount value (spec.width - value.length) spec.fill))
    | .right => (1 + (spec.width - value.length) + value.length, Str.insertCount value 0 (spec.width - value.length) spec.fill)
    | .center =>
      let padding := spec.width - value.length
      next (1 + padding / 2 + value.length, Str.insertCount value 0 (padding / 2) spec.fill) fun v =>
        (padding - padding / 2, .ok (Str.appendCount v (padding - padding / 2) spec.fill))

/-- The first loop of `ProcessFloating` (String.h:923-927). -/
def fractionDigitsC : Str → Nat → Work Str
  | [], _ => (1, .ok [])
  | c :: rest, limit =>
    next (1, c.getCodePoint) fun cp =>
      if CharUtil.isDigit cp then
        match limit with
        | 0 => (0, .ok [])
        | n + 1 => next (fractionDigitsC rest n) fun ds => (0, .ok (c :: ds))
      else (0, .ok [])

/-- `Find` (String.h:392-397) as counted in `Model/FindCost`. -/
def findC (s sub : Str) (pos : Nat) : Work Nat :=
  match FindCost.findC s sub pos with
  | .ok (n, r) => (n, .ok r)
  | .error e => (0, .error e)

/-- What `ProcessFloating` writes to its stream (String.h:912-947). -/
def floatingTextC (value : Str) (spec : Specifier) : Work (List UInt8) :=
  next (findC value c!"." 0) fun dot =>
    if dot ≠ npos then
      next (cutting (dot + 1) + (dot + 1), Str.substring value 0 (dot + 1)) fun head =>
        if spec.precision > 0 then
          next (fractionDigitsC (value.drop (dot + 1)) spec.precision.toNat) fun ds =>
            let text := Str.str head ++ Str.str ds ++ List.replicate (spec.precision.toNat - ds.length) 0x30
            (text.length, .ok text)
        else ((Str.str head).length, .ok (Str.str head))
    else if spec.precision > 0 then
      let text := Str.str value ++ b!"." ++ List.replicate spec.precision.toNat 0x30
      (value.length + text.length, .ok text)
    else (value.length + (Str.str value).length, .ok (Str.str value))

/-- `ProcessFloating` (String.h:910-951): the text is copied from the stream and decoded. -/
def processFloatingC (value : Str) (spec : Specifier) : Work Str :=
  next (floatingTextC value spec) fun out =>
    next (3 * out.length, Str.ofStdString out) fun result => processAlignmentC result spec

/-- `Process` (String.h:960-973) with `ProcessString` (903-908) and `ProcessIntegral` (953-958), which copy the value. -/
def processC (value : Str) (spec : Specifier) : Work Str :=
  match spec.type with
  | .integral => next (value.length, .ok value) fun v => processAlignmentC v spec
  | .floating => processFloatingC value spec
  | .string => next (value.length, .ok value) fun v => processAlignmentC v spec

/-- `result << Formatter::Process(arguments[i], parsed_spec).str()` without the writing (String.h:618-620, 629-631). -/
def formattedC (args : List Str) (i : Nat) (config : Str) : Work (List UInt8) :=
  next (makeSpecifierC config) fun parsed =>
    next (1, vecGet args i) fun a =>
      next (processC a parsed) fun r => (r.length, .ok (Str.str r))

/-- What a placeholder with an index writes; `formatSpec` is the text after the index (String.h:610-627). -/
def indexedC (args : List Str) (auto i : Nat) (formatSpec : Str) : Work (List UInt8 × Nat) :=
  match formatSpec with
  | [] => next (1, vecGet args i) fun a => (a.length, .ok (Str.str a, auto))
  | c :: t =>
    if c = ⟨b!":"⟩ then next (formattedC args auto (c :: t)) fun r => (1, .ok (r, auto))
    else (1, .ok ([], auto))

/-- One placeholder (String.h:588-641). -/
def placeholderC (args : List Str) (auto : Nat) (spec : Str) : Work (List UInt8 × Nat) :=
  next (1, startsWithDigit spec) fun b =>
    if b then
      next (spanDigitsC spec) fun p =>
        next (reading p.1.length, argIndex p.1) fun i =>
          if i > wsub args.length 1 then (1, .error .formatError)
          else next (cutting p.2.length, .ok p.2) (indexedC args auto i)
    else if spec.head? = some ⟨b!":"⟩ then next (formattedC args 0 spec) fun r => (1, .ok (r, auto))
    else if args.length = 1 then next (1, vecGet args 0) fun a => (a.length, .ok (Str.str a, auto))
    else if args.length > 1 then next (1, vecGet args auto) fun a => (a.length, .ok (Str.str a, auto + 1))
    else (1, .error .formatError)

/-- The work of the loop: steps, bytes written to the stream, and the result. -/
structure Loop where
  steps : Nat
  written : Nat
  result : Res (List UInt8)

/-- Write these bytes to the stream after some steps, and go on. -/
def Loop.after (steps : Nat) (bytes : List UInt8) (l : Loop) : Loop :=
  { steps := steps + bytes.length + l.steps
    written := bytes.length + l.written
    result := l.result.map (bytes ++ ·) }

/-- The loop of `Format` (String.h:571-661); up to four comparisons with a bracket in a round. -/
def loopC (args : List Str) : Nat → Str → Nat → Loop
  | 0, _, _ => ⟨0, 0, .error .fuel⟩
  | _ + 1, [], _ => ⟨1, 0, .ok []⟩
  | n + 1, c :: rest, auto =>
    if c = ⟨b!"{"⟩ then
      if rest.head? = some ⟨b!"{"⟩ then (loopC args n (rest.drop 1) auto).after 4 b!"{"
      else
        let k := FindCost.searchC (c :: rest) c!"}"
        if k.2 = (c :: rest).length then ⟨4 + k.1, 0, .error .formatError⟩
        else
          match Str.substring (c :: rest) 1 (k.2 - 1) with
          | .error e => ⟨4 + k.1, 0, .error e⟩
          | .ok spec =>
            match placeholderC args auto spec with
            | (m, .error e) => ⟨4 + k.1 + cutting spec.length + m, 0, .error e⟩
            | (m, .ok (bytes, auto)) =>
              (loopC args n ((c :: rest).drop (k.2 + 1)) auto).after (4 + k.1 + cutting spec.length + m) bytes
    else if c = ⟨b!"}"⟩ then
      if rest.head? = some ⟨b!"}"⟩ then (loopC args n (rest.drop 1) auto).after 4 b!"}"
      else ⟨4, 0, .error .formatError⟩
    else (loopC args n rest auto).after 4 c.printed

/-- The work of `String::Format(formatter, args...)` (String.h:563-663). -/
structure Total where
  steps : Nat
  written : Nat
  result : Res Str

def formatC (formatter : Str) (args : List Str) : Total :=
  let l := loopC args (formatter.length + 1) formatter 0
  let before := (args.map fun a => 2 * a.length).sum
  match l.result with
  | .error e => ⟨before + l.steps, l.written, .error e⟩
  | .ok out => ⟨before + l.steps + 3 * out.length, l.written, Str.ofStdString out⟩

end Caitlyn.FormatCost
