import Verif.Model.Convert
import Verif.Model.Special

/-!
# Model of the assignment of values of other types, and of `Assignable`

`x = g` for a variable `x` of a class of the library: overload resolution among its assignment operators, with the rules of
Model/Convert. Of two operators that take an object of the class (by reference to const and by rvalue reference), both need the same
conversion and the second is better; they are one entry here. `JsonDocument` has a constructor with one parameter `const String&`
(Json.h:38), beside one for `std::ifstream`, which is left out like the assignment from a stream (Json.h:67).
-/

namespace Caitlyn.Assign
open Caitlyn Convert Traits

/-- The type of the variable. -/
inductive Target where
  | cls (c : Class)
  /-- `JsonData` -/
  | json
  /-- `JsonDocument` -/
  | document
  deriving DecidableEq, Repr

/-- The assignment operators: Char.h:67-97 and the implicit ones of `Char`; String.h:121-138; BigInteger.h:91-110; BigFloat.h:81-103;
Json.h:61-65. `StringBuilder` declares a move constructor (StringBuilder.h:58), so that its assignment is deleted. -/
def overloads : Target → List Param
  | .cls .char => [.arith .char, .arith .uint, .cstr, .stdString, .cls .char]
  | .cls .string => [.cls .string]
  | .cls .bigInteger => [.cls .bigInteger]
  | .cls .bigFloat => [.cls .bigFloat]
  | .cls .builder => []
  | .document => [.cls .string]
  | .json => []

/-- The kinds of `JsonData` that are made from a value. -/
inductive Kind where
  | boolean | integral | floating | string
  deriving DecidableEq, Repr

/-- Which of the templates takes an expression (JsonData.h:64-90 for the constructor, 122-153 for the assignment): the conditions are
about the type to which the parameter `T value` is deduced; the literal `0` is an `int`. `std::nullptr_t` converts to `std::string`
until C++20; since C++23 that is deleted. No class of the library converts to `std::string`. -/
def template (cxx23 : Bool) : Given → Option Kind
  | .value b =>
    if b = .bool then some .boolean
    else if (integer b).isSome then some .integral
    else if b ∈ [.float, .double, .ldouble] then some .floating
    else none
  | .zero => some .integral
  | .null => if cxx23 then none else some .string
  | .cstr => some .string
  | .stdString => some .string
  | .object _ => none

/-- Whether `x = g` compiles. -/
def compiles (cxx23 : Bool) (t : Target) (g : Given) : Bool :=
  match t with
  | .json => (template cxx23 g).isSome
  | t => (call g (overloads t)).isSome

/-- Whether `T x(g)` compiles; an object of the class itself can be given too (Special). -/
def constructs (cxx23 : Bool) (t : Target) (g : Given) : Bool :=
  match t with
  | .json => (template cxx23 g).isSome
  | .document => (call g [.cls .string]).isSome
  | .cls c => g = .object c || (direct c g).isSome

/-- Whether `x = g` reads through a null pointer: the operator takes `const char*` (Char.h:79-87), or a constructor that does converts
the argument, or `String(nullptr)` is called (JsonData.h:151). -/
def readsNull (cxx23 : Bool) (t : Target) (g : Given) : Bool :=
  (g = .zero || g = .null) &&
  match t with
  | .json => template cxx23 g == some .string
  | t =>
    match call g (overloads t) with
    | some .cstr => true
    | some (.cls c) => implicit c g == some .cstr
    | _ => false

/-- The types of expressions: all but the literal `0`, whose type is `int`. -/
def typeOf : Given → Given
  | .zero => .value .int
  | g => g

/-- `Assignable<T&, U>()` for the type of an expression (Operations.h:97-101): `std::is_assignable`. -/
def assignable (cxx23 : Bool) (t : Target) (g : Given) : Bool := compiles cxx23 t (typeOf g)

/-- The class in the terms of Model/Special. -/
def special : Target → Special.Typ
  | .cls .char => .char
  | .cls .string => .string
  | .cls .bigInteger => .bigInteger
  | .cls .bigFloat => .bigFloat
  | .cls .builder => .stringBuilder
  | .json => .jsonData
  | .document => .jsonDocument

/-- Which special operation assigns an object of the class itself. -/
def operation (moved : Bool) : Special.Op := if moved then .moveAssign else .copyAssign

/-- `TriviallyAssignable<T&, U>()` (Operations.h:103-107), for an object `moved` or not: a special member function that is trivial; all
the other operators have a body. -/
def triviallyAssignable (t : Target) (g : Given) (moved : Bool) : Bool :=
  match g with
  | .object c => t = .cls c && Special.trivially (Special.ops (special t)) (operation moved)
  | _ => false

/-- `NothrowAssignable<T&, U>()` (Operations.h:109-113): conversion and operator are `noexcept`. Of the operators only the special
ones are declared so, and no constructor that converts. -/
def nothrowAssignable (t : Target) (g : Given) (moved : Bool) : Bool :=
  match g with
  | .object c => t = .cls c && Special.nothrow (Special.ops (special t)) (operation moved)
  | _ => false

end Caitlyn.Assign
