import Verif.Model.Traits

/-!
# Model of `MakeMovable`, `Forward` (__Core/Traits.h) and `IsSigned`, `IsUnsigned`

An expression is its value category and its type. Temporaries count as xvalues. Not modelled: conversions of the argument, that
is arguments of another type than the one the template asks for, up to qualifiers.
-/

namespace Caitlyn.Traits
open Ty

/-- Value categories. -/
inductive Cat where
  | lvalue | xvalue
  deriving DecidableEq, Repr

/-- An expression: its category and its type, which is no reference. -/
structure Expr where
  cat : Cat
  ty : Ty
  deriving DecidableEq, Repr

/-- Does a reference to `p` bind to the type `t`? The same type with more qualifiers. -/
def compatible (p t : Ty) : Bool :=
  removeCV p = removeCV t && (!t.quals.c || p.quals.c) && (!t.quals.v || p.quals.v)

/-- The expression that a function with a reference as result type gives; an rvalue reference to a function gives an lvalue. -/
def resultOf : Ty → Expr
  | lref t => ⟨.lvalue, t⟩
  | rref (fn f r) => ⟨.lvalue, fn f r⟩
  | rref t => ⟨.xvalue, t⟩
  | t => ⟨.xvalue, t⟩

/-- `Forward<T>(e)` (Traits.h:31-43): the first overload takes lvalues, the second rvalues and does not compile for `T` an
lvalue reference; the result is `static_cast<T&&>`. `none`: the call does not compile. -/
def forward (t : Ty) (e : Expr) : Option Expr :=
  if compatible (removeReference t) e.ty then
    match e.cat with
    | .lvalue => some (resultOf t.mkRref)
    | .xvalue => if isLref t then none else some (resultOf t.mkRref)
  else none

/-- The argument deduced for a parameter `T&&` and an argument. -/
def deduceForwarding (e : Expr) : Ty :=
  match e.cat with
  | .lvalue => lref e.ty
  | .xvalue => e.ty

/-- `MakeMovable(e)` (Traits.h:25-29): the parameter is `T&`; a temporary binds to it only if its type is `const`. -/
def makeMovable (e : Expr) : Option Expr :=
  match e.cat with
  | .lvalue => some (resultOf (mkRref e.ty))
  | .xvalue => if e.ty.quals.c && !e.ty.quals.v then some (resultOf (mkRref e.ty)) else none

/-- What the platform decides: is `char` signed, is `wchar_t`? -/
structure Platform where
  charSigned : Bool
  wcharSigned : Bool

/-- The value of `T(-1)` for an arithmetic type with this representation: signed, unsigned of some width, `bool`. -/
def minusOne (p : Platform) : Base → Option Int
  | .bool => some 1
  | .char => some (if p.charSigned then -1 else 2 ^ 8 - 1)
  | .schar => some (-1)
  | .uchar => some (2 ^ 8 - 1)
  | .wchar => some (if p.wcharSigned then -1 else 2 ^ 32 - 1)
  | .char16 => some (2 ^ 16 - 1)
  | .char32 => some (2 ^ 32 - 1)
  | .short => some (-1)
  | .ushort => some (2 ^ 16 - 1)
  | .int => some (-1)
  | .uint => some (2 ^ 32 - 1)
  | .long => some (-1)
  | .ulong => some (2 ^ 64 - 1)
  | .llong => some (-1)
  | .ullong => some (2 ^ 64 - 1)
  | .float => some (-1)
  | .double => some (-1)
  | .ldouble => some (-1)
  | _ => none

/-- `IsSigned<T>()` (Types/Properties.h:26-29, Constraints/Properties.h:74-77) for types that are not built from others;
`valid` says for which classes and unions `T(-1) < T(0)` is a valid expression; for enumerations it is. `none`: the program
does not compile, because the second operand of `&&` is compiled in any case. -/
def isSigned (p : Platform) (valid : Base → Bool) (b : Base) : Option Bool :=
  match minusOne p b with
  | some m => some (m < 0)
  | none =>
    match b with
    | .enum _ => some false
    | .class n => if valid (.class n) then some false else none
    | .union n => if valid (.union n) then some false else none
    | _ => none

/-- `IsUnsigned<T>()` (Types/Properties.h:31-34, Constraints/Properties.h:80-83). -/
def isUnsigned (p : Platform) (valid : Base → Bool) (b : Base) : Option Bool :=
  match minusOne p b with
  | some m => some (0 < m)
  | none =>
    match b with
    | .enum _ => some false
    | .class n => if valid (.class n) then some false else none
    | .union n => if valid (.union n) then some false else none
    | _ => none

end Caitlyn.Traits
