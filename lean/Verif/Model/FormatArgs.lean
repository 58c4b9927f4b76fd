import Verif.Model.Format
import Verif.Model.Double
import Verif.Model.BigInt
import Verif.Model.Traits

/-!
# Model of the conversion of arguments: `Formatter::ToString` (String.h:711-757)

An argument is given by its type and its value; which of the eight functions is called is decided by the traits and
by overload resolution, both modelled here. A member function that is not `const` is found by the trait (it asks
`std::declval<T>()`, Traits/Constraints/String.h:25-67) but cannot be called on the `const T&`. Not modelled: arguments of
an array type other than arrays of `char`, and classes whose member functions throw.
-/

namespace Caitlyn.FormatArgs
open Caitlyn Traits

/-- A member function without parameters that returns a text. -/
structure Member where
  const : Bool
  text : Str
  deriving DecidableEq, Repr

/-- What a class offers: the members the traits ask for and an implicit conversion to `String`. -/
structure Members where
  /-- `to_string()` -/
  to_string : Option Member := none
  /-- `str()` -/
  str : Option Member := none
  /-- `ToString()` -/
  toString : Option Member := none
  /-- a conversion to `String` -/
  conversion : Option Str := none
  deriving DecidableEq, Repr

/-- An argument. -/
inductive Arg where
  /-- `bool`, a character or an integer -/
  | integral (b : Base) (volatile : Bool) (value : Int)
  | floating (b : Base) (volatile : Bool) (value : Dbl)
  | nullptr
  /-- `const char*`, `char*` or an array of `char`: the memory from its start on -/
  | chars (mem : List UInt8)
  | string (s : Str)
  | stdString (bytes : List UInt8)
  /-- an object of any other class -/
  | object (m : Members)
  /-- a pointer to anything else, an enumeration, a function, a pointer to a member -/
  | other

/-- The type `T` deduced for `const T&`: `const` is not part of it, `volatile` is. The class types are numbered. -/
def Arg.type : Arg → Ty
  | .integral b v _ => .base { v := v } b
  | .floating b v _ => .base { v := v } b
  | .nullptr => .base {} .nullptr
  | .chars _ => .ptr {} (.base { c := true } .char)
  | .string _ => .base {} (.class 0)
  | .stdString _ => .base {} (.class 1)
  | .object _ => .base {} (.class 2)
  | .other => .ptr {} (.base {} .void)

/-- The members of a class type; `String` has `str()`, `std::string` none of them. -/
def Arg.members : Arg → Members
  | .string s => { str := some ⟨true, s⟩ }
  | .object m => m
  | _ => {}

/-- The function templates (String.h:717-757). -/
inductive Template where
  | integer | floating | character | boolean | has_to_string | has_str | convertible
  deriving DecidableEq, Repr

/-- The condition `Required<...>` of a template: `HasToString`, `HasStr` and `ConvertibleToString` are those of
Traits/Constraints/String.h:71-94. -/
def Template.viable (a : Arg) : Template → Bool
  | .integer => isInteger a.type
  | .floating => isFloating a.type
  | .character => isCharacter a.type
  | .boolean => isBoolean a.type
  | .has_to_string => a.members.to_string.isSome
  | .has_str => a.members.str.isSome
  | .convertible => a.members.toString.isSome

/-- All templates, in the order of the source. -/
def templates : List Template :=
  [.integer, .floating, .character, .boolean, .has_to_string, .has_str, .convertible]

/-- The conversion of an argument to `const String&` for `ToString(const String&)` (String.h:712-715), `none` if there is
none: `String(const char*)` (55-63) also takes a null pointer and dereferences it. -/
def Arg.conversion : Arg → Option (Res Str)
  | .chars mem => some (Str.ofCStr mem)
  | .nullptr => some (.error .ub)
  | .string s => some (.ok s)
  | .stdString bytes => some (Str.ofStdString bytes)
  | .object m => m.conversion.map .ok
  | _ => none

/-- What happens to a call: rejected because two templates fit equally well, because none fits, because the body of the
selected one is ill-formed, or compiled with a result. -/
inductive Outcome where
  | ambiguous | noMatch | illFormed
  | result (r : Res Str)

/-- A call of a member function on a `const T&`. -/
def callMember : Option Member → Outcome
  | some m => if m.const then .result (.ok m.text) else .illFormed
  | none => .illFormed

/-- The body of a template (String.h:717-757). `std::to_string` of a character is that of `int` or `unsigned`, to which it
is promoted. -/
def Template.body (a : Arg) : Template → Outcome
  | .integer | .character =>
    match a with
    | .integral _ _ v => .result (Str.ofStdString (stdToString v))
    | _ => .illFormed
  | .floating =>
    match a with
    | .floating _ _ d => .result (Str.ofStdString d.text)
    | _ => .illFormed
  | .boolean =>
    match a with
    | .integral _ _ v => .result (Str.ofCStr (Str.valueOfBool (v ≠ 0) ++ [0]))
    | _ => .illFormed
  | .has_to_string => callMember a.members.to_string
  | .has_str => callMember a.members.str
  | .convertible => callMember a.members.toString

/-- `Formatter::ToString(argument)`. For a `String` the function that is not a template is as good as any template and
preferred; otherwise a template needs no conversion and is better than that function. Of two templates, which have the same
parameter, none is better. -/
def toString (a : Arg) : Outcome :=
  match a with
  | .string s => .result (.ok s)
  | a =>
    match templates.filter (Template.viable a) with
    | [t] => t.body a
    | _ :: _ :: _ => .ambiguous
    | [] =>
      match a.conversion with
      | some r => .result r
      | none => .noMatch

/-- The strings of the arguments (String.h:565), evaluated from left to right; `none`: the program does not compile. -/
def toStrings : List Arg → Option (Res (List Str))
  | [] => some (.ok [])
  | a :: as =>
    match toString a, toStrings as with
    | .result r, some rs => some (do return (← r) :: (← rs))
    | _, _ => none

/-- `String::Format(formatter, args...)` (String.h:562-663) with its arguments. -/
def format (formatter : Str) (args : List Arg) : Option (Res Str) :=
  (toStrings args).map fun rs => do Format.format formatter (← rs)

example : format c!"{}, {}" [.integral .int false (-5), .integral .bool false 1] = some (.ok c!"-5, true") := by
  decide +kernel

end Caitlyn.FormatArgs
