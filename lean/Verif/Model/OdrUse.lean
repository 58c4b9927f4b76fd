import Verif.Basic

/-!
# Uses of the constants of the library

`String::NPosition` (__Core/String/String.h:559, `static constexpr auto NPosition{static_cast<SizeType>(-1)};`) and
`BooleanConstant<B>::Value` (__Core/Traits/Types/Base.h:65, `static constexpr Bool Value = B;`) are declared in their classes and defined
nowhere. Since C++17 such a declaration is a definition; before, a program that odr-uses the constant has none, and does not link
([basic.def.odr]; no diagnostic is required, and an optimiser that removes the use hides it). The library is built as C++11
(CMakeLists.txt:25) and a program that includes its headers as C++11 or later.

Which uses are odr-uses, by the rules of C++11 ("unless … the lvalue-to-rvalue conversion is immediately applied", so an lvalue that is
the result of a conditional or comma operator odr-uses its operands) and of C++14 (potential results; discarded values). Left out: `sizeof`,
`decltype` and template arguments (no evaluation, never odr-uses), and taking the address (an odr-use, as binding a reference).
-/

namespace Caitlyn.OdrUse

inductive Standard where
  | cpp11 | cpp14
  /-- and later -/
  | cpp17
  deriving DecidableEq, Repr

/-- An expression with the constant in it. -/
inductive Expr where
  /-- the constant: `String::NPosition`, `TrueType::Value` -/
  | const
  /-- another lvalue of the same type -/
  | var
  /-- a value: a literal, the result of a call, a variable of another arithmetic type -/
  | value
  /-- `(e)` -/
  | paren (e : Expr)
  /-- `c ? a : b`, the condition without the constant -/
  | cond (a b : Expr)
  /-- `l, r` -/
  | comma (l r : Expr)
  /-- `a == b`, `a + b`, … -/
  | arith (a b : Expr)
  /-- `+e`, `!e`, `static_cast<SizeType>(e)`, `SizeType{e}` -/
  | unary (e : Expr)
  deriving DecidableEq, Repr

def Expr.isLvalue : Expr → Bool
  | const | var => true
  | value | arith _ _ | unary _ => false
  | paren e => e.isLvalue
  | cond a b => a.isLvalue && b.isLvalue
  | comma _ r => r.isLvalue

/-- What becomes of the value of an expression. -/
inductive Ctx where
  /-- it is read (lvalue-to-rvalue conversion): a parameter by value, an operand, a returned value -/
  | read
  /-- a reference to the type of the expression is bound to it -/
  | bound
  /-- it is thrown away -/
  | discarded
  deriving DecidableEq, Repr

/-- Whether an expression odr-uses the constant ([basic.def.odr]/2-3). -/
def odrUses (s : Standard) : Ctx → Expr → Bool
  | .read, .const => false
  | .bound, .const => true
  | .discarded, .const => s == .cpp11
  | _, .var | _, .value => false
  | c, .paren e => odrUses s c e
  | c, .cond a b =>
    let d := if a.isLvalue && b.isLvalue then (if s = .cpp11 then .bound else c) else .read
    odrUses s d a || odrUses s d b
  | c, .comma l r =>
    odrUses s .discarded l || odrUses s (if s = .cpp11 ∧ r.isLvalue then .bound else c) r
  | _, .arith a b => odrUses s .read a || odrUses s .read b
  | _, .unary e => odrUses s .read e

/-- Whether a use links: the constant is defined, or need not be. -/
def links (s : Standard) (c : Ctx) (e : Expr) : Bool :=
  match s with
  | .cpp17 => true
  | .cpp11 | .cpp14 => !odrUses s c e

/-- Where a program can hand a value of type `SizeType` or `Bool` to the library. -/
inductive Place where
  /-- positions, counts, indices of strings (__Core/String/String.h:83, 91, 152-178, 280, 290, 392, 400, 419, 443, 451, 485, 500, 509) -/
  | position
  /-- indices and indents of JSON (__Serializing/Json/Types/JsonData.h:173, 209, 214, 342; Json.h:179) -/
  | jsonIndex
  /-- a JSON value of a boolean or of a number, `T value` (JsonData.h:64-78) -/
  | jsonValue
  /-- `BigInteger(const uint64_t)` (__Numeric/Types/BigInteger.h:43) -/
  | bigInteger
  /-- `cmp_eq(T t, U u)`, `cmp_less(T t, U u)` (__Core/Utility/Comparators.h:26-81) -/
  | comparator
  /-- `Unexpected(E error)`, `MakeError(E error)` (__Core/Error/Unexpected.h:29, 43) -/
  | makeError
  /-- `ASSERT_EQ`, `ASSERT_NE` and the others: built-in comparison, and `<<` of streams, by value for arithmetic types
  (__Testing/Macro/Assert.h:32-46) -/
  | assertion
  /-- `String::Format(const String&, Args&&...)` (String.h:563) -/
  | format
  /-- `StringBuilder`, `Append`, `AppendLine`, `MakeText` with `Args&&...` (__Core/String/StringBuilder.h:49, 69, 80, 111) -/
  | builder
  /-- `File`, `Write`, `WriteLine`, `Append`, `AppendLine` with `Args&&...` (__Core/File/File.h:40, 230, 294, 363, 433) -/
  | file
  /-- `ReadLine`, `ReadChar`, `Write`, `WriteLine` with `Args&&...` (__Core/IO/Stream.h:45, 56, 89, 123) -/
  | console
  /-- `Expected(const ValueType&)` (__Core/Error/Expected.h:38-41) -/
  | expected
  /-- `UnwrapOr(const U&)`, `Fold(U&&, …)`, `Inspect(…, Args&&...)` (Expected.h:201, 261, 307) -/
  | expectedCall
  /-- `TestFailMessage::operator<<(const T&)`: `FAIL() << …` (__Testing/Types/TestFailMessage.h:36) -/
  | failMessage
  deriving DecidableEq, Repr

/-- The kind of the parameter. -/
def Place.ctx : Place → Ctx
  | position | jsonIndex | jsonValue | bigInteger | comparator | makeError | assertion => .read
  | format | builder | file | console | expected | expectedCall | failMessage => .bound

/-- The uses of the constants in the library itself. -/
def ownUses : List (Ctx × Expr) :=
  [ -- String.h:396, 415, 446, 454: `return c ? std::distance(…) : NPosition;` (two types of numbers: converted)
    (.read, .cond .value .const),
    (.read, .cond (.arith .value .value) .const),
    (.read, .cond .value .const),
    (.read, .cond .value .const),
    -- String.h:400, 419: default arguments by value
    (.read, .const),
    (.read, .const),
    -- String.h:404: `return NPosition;`
    (.read, .const),
    -- String.h:583, 915, JsonParser.h:140, BigFloat.h:48: comparisons
    (.read, .arith .var .const),
    (.read, .arith .var .const),
    (.read, .arith .var .const),
    (.read, .arith .var .const),
    -- JsonParser.h:378-380
    (.read, .arith (.arith (.arith .value .const) (.arith .value .const)) (.arith .value .const)),
    -- Traits/Types/Base.h:56, 61: `return Value;`; Traits/Constraints/*.h: `return IsVoidType<T>::Value;`
    (.read, .const)]

end Caitlyn.OdrUse
