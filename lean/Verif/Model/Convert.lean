import Verif.Model.Traits
import Verif.Model.BigFloat
import Verif.Model.Double
import Verif.Model.JsonData
import Verif.Model.BuilderProg

/-!
# Model of the conversion of built-in values to objects of the library

`T x(v)` and `f(v)` for an expression `v` of a built-in type: which constructor or function overload resolution chooses, and what it
is given. The rules are those of the C++ standard: [conv] (standard conversions), [over.ics.rank] (ranks of conversions),
[over.match.ctor] and [over.match.copy] (candidates), [over.best.ics] (a constructor that converts an argument takes no converted
argument itself; an ambiguous conversion counts like a conversion). Sizes are those of LP64, `char` and `wchar_t` are signed.

Left out: enumerations, `volatile`, bit fields, extended integer types, `char8_t`, braces (`T x{v}`: the same candidates, but
narrowing conversions do not compile), values of floating point types (their types are there).
-/

namespace Caitlyn.Convert
open Caitlyn Traits

/-- The classes of the library that have constructors with one parameter of a built-in type. -/
inductive Class where
  | char | string | bigInteger | bigFloat | builder
  deriving DecidableEq, Repr

/-- What an expression is, as far as overload resolution looks at it. -/
inductive Given where
  /-- an expression of an arithmetic type that is not the literal zero -/
  | value (b : Base)
  /-- the literal `0`: of type `int`, and a null pointer constant -/
  | zero
  /-- `nullptr` -/
  | null
  /-- a `const char*`, a `char*`, a string literal -/
  | cstr
  /-- a `std::string` -/
  | stdString
  /-- an object of the library -/
  | object (c : Class)
  deriving DecidableEq, Repr

/-- The parameter of a function; classes are taken by reference to const. -/
inductive Param where
  | arith (b : Base)
  | cstr
  | stdString
  /-- `std::vector<Char>` -/
  | chars
  | cls (c : Class)
  deriving DecidableEq, Repr

/-- The rank of a conversion ([over.ics.rank], [over.ics.scs]): exact match, promotion, conversion, user-defined conversion. -/
inductive Rank where
  | exact | promotion | conversion | user
  deriving DecidableEq, Repr

/-- The order of the ranks. -/
def Rank.order : Rank → Nat
  | .exact => 0
  | .promotion => 1
  | .conversion => 2
  | .user => 3

/-- The arithmetic types. -/
def arithmetic : Base → Bool
  | .bool | .char | .schar | .uchar | .wchar | .char16 | .char32 | .short | .ushort | .int | .uint | .long | .ulong | .llong
  | .ullong | .float | .double | .ldouble => true
  | _ => false

/-- The type a type is promoted to ([conv.prom], [conv.fpprom]): the first of `int`, `unsigned int` that holds every value. -/
def promoted : Base → Option Base
  | .bool | .char | .schar | .uchar | .wchar | .char16 | .short | .ushort => some .int
  | .char32 => some .uint
  | .float => some .double
  | _ => none

/-- The rank of the conversion of an arithmetic type to another. -/
def between (a b : Base) : Option Rank :=
  if arithmetic a && arithmetic b then
    some (if a = b then .exact else if promoted a = some b then .promotion else .conversion)
  else none

/-- The standard conversion of an expression to a parameter ([conv]); null pointer constants convert to pointers. -/
def standard : Given → Param → Option Rank
  | .value a, .arith b => between a b
  | .zero, .arith b => between .int b
  | .zero, .cstr => some .conversion
  | .null, .cstr => some .conversion
  | .cstr, .cstr => some .exact
  | .stdString, .stdString => some .exact
  | .object c, .cls d => if c = d then some .exact else none
  | _, _ => none

/-- The constructors with one parameter, without those from an object of the class: Char.h:39-64 (`StdChar` is `char` and `CodePoint`
`unsigned int`, Types.h:84, 122), String.h:55-80, BigInteger.h:39-51 (`int64_t` is `long`), BigFloat.h:33-41,
StringBuilder.h:33-46 (the template of StringBuilder.h:48-52 has the parameter `const String&` too and is never better). -/
def constructors : Class → List Param
  | .char => [.arith .char, .arith .uint, .cstr, .stdString]
  | .string => [.cstr, .stdString, .chars]
  | .bigInteger => [.arith .long, .arith .ulong, .cstr, .cls .string]
  | .bigFloat => [.arith .double, .cstr, .cls .string]
  | .builder => [.arith .char, .cstr, .cls .string]

/-- The best candidates: none is better. -/
def best (cs : List (Param × Rank)) : List (Param × Rank) :=
  cs.filter fun c => cs.all fun d => c.2.order ≤ d.2.order

/-- Overload resolution: one best candidate, or the program does not compile. -/
def pick (cs : List (Param × Rank)) : Option Param :=
  match best cs with
  | [c] => some c.1
  | _ => none

/-- The candidates among functions with these parameters, when only standard conversions count. -/
def plain (g : Given) (ps : List Param) : List (Param × Rank) := ps.filterMap fun p => (standard g p).map (p, ·)

/-- Whether an expression converts to a class by a constructor of it, perhaps by several equally good ones. `std::string` has
constructors from `const char*`; `std::vector` none that converts. -/
def converts (g : Given) : Param → Bool
  | .cls c => !(plain g (constructors c)).isEmpty
  | .stdString => !(plain g [.cstr]).isEmpty
  | _ => false

/-- The conversion of an expression to a parameter. -/
def rank (g : Given) (p : Param) : Option Rank :=
  match standard g p with
  | some r => some r
  | none => if converts g p then some .user else none

/-- A call of one of the functions with these parameters. If the argument has to be converted to a class, the constructor must be
clear too. -/
def call (g : Given) (ps : List Param) : Option Param := do
  let p ← pick (ps.filterMap fun p => (rank g p).map (p, ·))
  match standard g p, p with
  | none, .cls c => let _ ← pick (plain g (constructors c)); return p
  | _, _ => return p

/-- `T x(g);` for an expression that is no `T`. The constructors from a `T` itself are never better than those listed: to convert the
argument for them takes one of these. -/
def direct (c : Class) (g : Given) : Option Param := call g (constructors c)

/-- The constructor by which `g` is converted to a parameter of class type, in `f(g)` and in `T x = g`. -/
def implicit (c : Class) (g : Given) : Option Param := pick (plain g (constructors c))

/-! ## The values -/

/-- The integer types: whether signed, and their bits. -/
def integer : Base → Option (Bool × Nat)
  | .bool => some (false, 1)
  | .char => some (true, 8)
  | .schar => some (true, 8)
  | .uchar => some (false, 8)
  | .wchar => some (true, 32)
  | .char16 => some (false, 16)
  | .char32 => some (false, 32)
  | .short => some (true, 16)
  | .ushort => some (false, 16)
  | .int => some (true, 32)
  | .uint => some (false, 32)
  | .long => some (true, 64)
  | .ulong => some (false, 64)
  | .llong => some (true, 64)
  | .ullong => some (false, 64)
  | _ => none

/-- The values of an integer type. -/
def Holds (b : Base) (v : Int) : Prop :=
  match integer b with
  | some (true, n) => -2 ^ (n - 1) ≤ v ∧ v < 2 ^ (n - 1)
  | some (false, n) => 0 ≤ v ∧ v < 2 ^ n
  | none => False

/-- Conversion to an integer type ([conv.integral]). -/
def toInteger (b : Base) (v : Int) : Int :=
  match integer b with
  | some (true, n) => Int.bmod v (2 ^ n)
  | some (false, n) => v % 2 ^ n
  | none => v

/-- Conversion of an integer to `double` ([conv.fpint]): to the nearest, of two to the even one (IEC 60559). -/
def toDouble (v : Int) : Dbl :=
  let n := v.natAbs
  let k := n.log2 - 52
  let m := Dbl.roundEven n (2 ^ k)
  if m = 2 ^ 53 then .finite (decide (v < 0)) (2 ^ 52) (k + 1) else .finite (decide (v < 0)) m k

/-- `Char(v)` (Char.h:39-46). `none`: does not compile. -/
def makeChar (b : Base) (v : Int) : Option Chr :=
  match direct .char (.value b) with
  | some (.arith .char) => some (Chr.ofByte (UInt8.ofNat (toInteger .uchar (toInteger .char v)).toNat))
  | some (.arith .uint) => some (Chr.ofCodePoint (toInteger .uint v).toNat)
  | _ => none

/-- `BigInteger(v)` (BigInteger.h:39-45). -/
def makeBigInteger (b : Base) (v : Int) : Option (Res BigInt) :=
  match direct .bigInteger (.value b) with
  | some (.arith t) => some (BigInt.ofInt (toInteger t v))
  | _ => none

/-- `BigFloat(v)` (BigFloat.h:33-35). -/
def makeBigFloat (b : Base) (v : Int) : Option (Res BigFloat) :=
  match direct .bigFloat (.value b) with
  | some (.arith .double) => some (BigFloat.ofDouble (toDouble v).text)
  | _ => none

/-- `StringBuilder(v)` (StringBuilder.h:33-36). -/
def makeBuilder (b : Base) (v : Int) : Option (Res BuilderProg.Obj) :=
  match direct .builder (.value b) with
  | some (.arith .char) => some (BuilderProg.make (.char (UInt8.ofNat (toInteger .uchar (toInteger .char v)).toNat)))
  | _ => none

/-- `JsonData(v)` (JsonData.h:64-78): of the templates the one whose condition is fulfilled; `IntegralType` is `long`
(JsonData.h:45). Assignment (JsonData.h:122-138) makes the same value. -/
def makeJson {F : Type} (b : Base) (v : Int) : Option (Json F) :=
  if b = .bool then some (.bool (decide (v ≠ 0)))
  else if (integer b).isSome then some (.int (toInteger .long v))
  else none

/-- `T x(p)` for a null pointer (`nullptr`, or the literal `0` where it compiles): String.h:57, Char.h:50, BigInteger.h:47,
BigFloat.h:37 read through it; a stream notes the error (StringBuilder.h:40). -/
def ofNull (c : Class) (g : Given) : Option (Res Unit) :=
  match direct c g with
  | some .cstr =>
    match c with
    | .builder => some ((BuilderProg.make (.cstr none)).map fun _ => ())
    | _ => some (.error .ub)
  | _ => none

/-- Functions with overloads or parameters of class type, by the parameter that an argument is given for. -/
inductive Function where
  /-- `==`, `!=`, `<`, `>`, `<=`, `>=` of `String` (String.h:305-363) -/
  | compareString
  /-- `+`, `+=`, `StartsWith`, `EndsWith`, `Contains`, `Find`, `ReverseFind` of `String` (String.h:242-263, 366-417) -/
  | withString
  /-- `String::Append` (String.h:270-278) -/
  | append
  /-- `String::Insert` (String.h:485-507) -/
  | insert
  /-- `String::PushBack` (String.h:265-268), the comparisons of `Char` (Char.h:134-162) -/
  | withChar
  /-- `String::Append(n, c)` (String.h:280-298) -/
  | appendMany
  /-- the operators of `BigInteger` (BigInteger.h:411-464) and the named functions (113-368) -/
  | withBigInteger
  /-- the operators of `BigFloat` (BigFloat.h:363-411) and the named functions (105-335) -/
  | withBigFloat
  deriving DecidableEq, Repr

/-- The parameters of the overloads. -/
def Function.params : Function → List Param
  | .compareString => [.cstr, .cls .string]
  | .withString => [.cls .string]
  | .append => [.cstr]
  | .insert => [.cstr, .cls .string]
  | .withChar => [.cls .char]
  | .appendMany => [.cstr, .cls .char]
  | .withBigInteger => [.cls .bigInteger]
  | .withBigFloat => [.cls .bigFloat]

/-- Whether the call reads through a null pointer: the function does, or the constructor that converts the argument. -/
def readsNull (f : Function) (g : Given) : Bool :=
  (g = .zero || g = .null) &&
  match call g f.params with
  | some .cstr => true
  | some (.cls c) => implicit c g == some .cstr
  | _ => false

end Caitlyn.Convert
