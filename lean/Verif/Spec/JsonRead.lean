import Verif.Spec.Json
import Verif.Spec.Unicode
import Verif.Spec.FormatFull
import Verif.Model.JsonParser

/-!
# Specification of what `Parse` does with every text

The text is read from left to right; every function gives what it has read, the error recorded so far and the text that
remains. There are no positions: only the literals `true`, `false` and `null` are looked up in the bytes of the whole text.
`.error .ub` stands for a character read after the end of the text.
-/

namespace Caitlyn.Spec.JsonText
open Unicode
variable {F : Type}

instance : DecidablePred WhiteSpace := fun cp => by unfold WhiteSpace; infer_instance

/-- White space of Unicode. -/
def white (c : Chr) : Bool :=
  match c.getCodePoint with
  | .ok cp => decide (WhiteSpace cp)
  | .error _ => false

/-- The text after its leading white space. -/
def trim (t : Str) : Str := t.dropWhile white

/-- A value, the error recorded so far, and the remaining text. -/
structure Reading (F : Type) where
  value : Json F
  err : JsonError
  rest : Str

/-- An error in front of `rest`: the value is null, and reading goes on there. -/
def wrong (e : JsonError) (rest : Str) : Res (Reading F) := .ok ⟨.null, e, rest⟩

/-- The bytes of the whole text, from the place whose number is that of the first character of `t`, spell `word`. -/
def spells (whole t : Str) (word : List UInt8) : Bool :=
  ((Str.str whole).drop (whole.length - t.length)).take word.length == word

/-- The byte an escape of one character writes. -/
def escaped (c : Chr) : Option UInt8 := (escapes.find? fun p => p.1 = c).map Prod.snd

/-- Four hexadecimal digits and what `stoul` makes of them. -/
def codeUnit (t : Str) : Option UInt8 :=
  if t.length < 4 then none
  else match StdNum.stoul 16 (Str.str (t.take 4)) with
    | .ok n => some (UInt8.ofNat n)
    | .error _ => none

/-- A string from behind its opening quotation mark; `out` has been written so far. After an escape one character is
passed over. -/
def readString (e : JsonError) (out : List UInt8) : Str → Res (Reading F)
  | [] => .error .ub
  | c :: t =>
    if c = chr 0x22 then (Str.ofStdString out).map fun v => ⟨.str v, e, t⟩
    else if c = chr 0x5C then
      match t with
      | [] => wrong .unterminatedString []
      | d :: u =>
        match escaped d with
        | some b => readString e (out ++ [b]) (u.drop 1)
        | none =>
          if d = chr 0x75 then
            match codeUnit u with
            | some b => readString e (out ++ [b]) (u.drop 5)
            | none => wrong .invalidEscapeSequence (d :: u)
          else wrong .invalidEscapeSequence (d :: u)
    else readString e (out ++ c.printed) t
termination_by t => t.length
decreasing_by all_goals (subst_vars; simp; try omega)

/-- The characters of a number. -/
def numeric (c : Chr) : Bool := anyDigit c || decide (c ∈ c!".eE-+")

/-- The number written by the ASCII digits at the start of a text, if there are any. -/
def naturalAt (t : Str) : Option Nat :=
  if t.takeWhile (· ∈ digitChrs) = [] then none else some (numeral (t.takeWhile (· ∈ digitChrs)))

/-- The integer at the start of a text: an optional minus sign and ASCII digits. -/
def integerAt (t : Str) : Option Int :=
  if t.head? = some (chr 0x2D) then (naturalAt t.tail).map fun n : Nat => -(n : Int) else (naturalAt t).map Int.ofNat

/-- What a number denotes: with a plus sign or an exponent what `stod` makes of it, otherwise the integer it starts with. -/
def numberValue (ops : FloatOps F) (t : Str) : Except JsonError (Json F) :=
  if t.any (· ∈ c!"+eE") then
    match ops.stod (Str.str t) with
    | .ok f => .ok (.float f)
    | .error outOfRange => .error (if outOfRange then .outOfRangeError else .invalidNumber)
  else
    match integerAt t with
    | none => .error .invalidNumber
    | some i => if -(2 ^ 63) ≤ i ∧ i < 2 ^ 63 then .ok (.int i) else .error .outOfRangeError

/-- A number: the longest run of its characters. -/
def readNumber (ops : FloatOps F) (e : JsonError) (t : Str) : Res (Reading F) :=
  match numberValue ops (t.takeWhile numeric) with
  | .ok j => .ok ⟨j, e, t.dropWhile numeric⟩
  | .error x => wrong x t

/-- `true` or `false`. -/
def readBoolean (whole : Str) (e : JsonError) (t : Str) : Res (Reading F) :=
  if spells whole t b!"true" then .ok ⟨.bool true, e, t.drop 4⟩
  else if spells whole t b!"false" then .ok ⟨.bool false, e, t.drop 5⟩
  else wrong .invalidValue t

/-- `null`. -/
def readNull (whole : Str) (e : JsonError) (t : Str) : Res (Reading F) :=
  if spells whole t b!"null" then .ok ⟨.null, e, t.drop 4⟩ else wrong .invalidValue t

/-- What follows a value in an object or array: the closing bracket, a comma and another value or member, or an error. -/
inductive Next where
  | closed (rest : Str)
  | more (rest : Str)
  | wrong (e : JsonError) (rest : Str)

/-- The character after the comma. -/
def afterComma (close : Chr) : Str → Res Next
  | [] => .error .ub
  | c :: t => if c = close then .ok (.wrong .trailingComma (c :: t)) else .ok (.more (c :: t))

/-- The character after the value. -/
def afterItem (close : Chr) : Str → Res Next
  | [] => .error .ub
  | c :: t =>
    if c = chr 0x2C then afterComma close (trim t)
    else if c = close then .ok (.closed t)
    else .ok (.wrong .unexpectedCharacter (c :: t))

/-- The text after the key of a member: a colon and the value. -/
def afterKey : Str → Res (Except (JsonError × Str) Str)
  | [] => .error .ub
  | c :: t => if c = chr 0x3A then .ok (.ok (trim t)) else .ok (.error (.missingColon, c :: t))

/-- The key and what follows it, from behind the opening quotation mark: the key and the text of the value. -/
def readKey (t : Str) : Res (Except (JsonError × Str) (Str × Str)) :=
  if chr 0x22 ∈ t then
    (afterKey (trim (t.dropWhile (· ≠ chr 0x22)).tail)).map fun r => r.map fun u => (t.takeWhile (· ≠ chr 0x22), u)
  else .ok (.error (.unterminatedString, t))

mutual

/-- A value; `whole` is the whole text. -/
def readValue (ops : FloatOps F) (whole : Str) : Nat → JsonError → Str → Res (Reading F)
  | 0, _, _ => .error .fuel
  | n + 1, e, t =>
    match trim t with
    | [] => .ok ⟨.null, e, []⟩
    | c :: u =>
      if c = chr 0x22 then readString e [] u
      else if c = chr 0x7B then readMembers ops whole n e [] (trim u)
      else if c = chr 0x5B then readElements ops whole n e [] (trim u)
      else if c = chr 0x74 ∨ c = chr 0x66 then readBoolean whole e (c :: u)
      else if c = chr 0x6E then readNull whole e (c :: u)
      else if anyDigit c ∨ c = chr 0x2D ∨ c = chr 0x2B then readNumber ops e (c :: u)
      else wrong .unexpectedCharacter (c :: u)

/-- The members of an object after those in `ms`, up to the closing bracket. -/
def readMembers (ops : FloatOps F) (whole : Str) : Nat → JsonError → List (Str × Json F) → Str → Res (Reading F)
  | 0, _, _, _ => .error .fuel
  | n + 1, e, ms, t =>
    if t = [] then wrong .unterminatedObject []
    else
      match trim t with
      | [] => .error .ub
      | c :: u =>
        if c = chr 0x7D then .ok ⟨.obj (collapse ms), e, u⟩
        else if c = chr 0x22 then
          match readKey u with
          | .error x => .error x
          | .ok (.error (x, rest)) => wrong x rest
          | .ok (.ok (key, u)) =>
            match readValue ops whole n e u with
            | .error x => .error x
            | .ok r =>
              match afterItem (chr 0x7D) (trim r.rest) with
              | .error x => .error x
              | .ok (.closed rest) => .ok ⟨.obj (collapse (ms ++ [(key, r.value)])), r.err, rest⟩
              | .ok (.more rest) => readMembers ops whole n r.err (ms ++ [(key, r.value)]) rest
              | .ok (.wrong x rest) => wrong x rest
        else wrong .unexpectedCharacter (c :: u)

/-- The elements of an array after those in `js`, up to the closing bracket. -/
def readElements (ops : FloatOps F) (whole : Str) : Nat → JsonError → List (Json F) → Str → Res (Reading F)
  | 0, _, _, _ => .error .fuel
  | n + 1, e, js, t =>
    if t = [] then wrong .unterminatedArray []
    else
      match trim t with
      | [] => .error .ub
      | c :: u =>
        if c = chr 0x5D then .ok ⟨.arr js, e, u⟩
        else
          match readValue ops whole n e (c :: u) with
          | .error x => .error x
          | .ok r =>
            match afterItem (chr 0x5D) (trim r.rest) with
            | .error x => .error x
            | .ok (.closed rest) => .ok ⟨.arr (js ++ [r.value]), r.err, rest⟩
            | .ok (.more rest) => readElements ops whole n r.err (js ++ [r.value]) rest
            | .ok (.wrong x rest) => wrong x rest

end

/-- The last character that is not white space. -/
def lastVisible (t : Str) : Option Chr := (t.reverse.dropWhile white).head?

/-- The root and the error of a document after `Parse`. -/
def result (r : Reading F) : Json F × JsonError := if r.err = .noError then (r.value, .noError) else (.null, r.err)

/-- What `Parse` does with `text`. A text whose only visible character is its first one is read beyond its end. The number
bounds the depth of the reading; it is never reached (`C53_terminates`). -/
def document (ops : FloatOps F) (text : Str) : Res (Json F × JsonError) :=
  if text = [] then .ok (.null, .invalidJson)
  else if trim text = [] then .error .ub
  else if (trim text).head? ≠ some (chr 0x7B) then .ok (.null, .invalidJson)
  else if trim text.tail = [] then .error .ub
  else if lastVisible text ≠ some (chr 0x7D) then .ok (.null, .invalidJson)
  else (readValue ops text (2 * text.length + 2) .noError text).map result

end Caitlyn.Spec.JsonText
