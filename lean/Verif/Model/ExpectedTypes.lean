import Verif.Basic

/-!
# Model of the types of `Expected`'s member functions (__Core/Error/Expected.h:158-315)

When a use of a member function compiles: all its `return` statements are instantiated, whichever of them runs, so that each must be
able to convert what it returns to the type that the function returns. Conversions are those of the C++ standard ([over.best.ics]): a
standard conversion, or one conversion by a constructor or conversion function, whose argument takes a standard conversion only. The
types of users and their conversions are arbitrary. Not modelled: references and `const`, which do not matter for conversions from
values; function objects that cannot be called with the argument they get.
-/

namespace Caitlyn.ExpectedTypes

/-- Types: those of users and of the language, `void`, `Expected<T, E>`, `Unexpected<E>`. -/
inductive Ty where
  | base (n : Nat)
  | void
  | expected (t e : Ty)
  | unexpected (e : Ty)
  deriving DecidableEq, Repr

/-- The conversions of users' types and of types of the language. -/
structure Rules where
  /-- standard conversions between different types -/
  standard : Nat → Nat → Bool
  /-- by a constructor that is not `explicit`, or a conversion function -/
  user : Ty → Nat → Bool

/-- Nothing but a standard conversion is needed. -/
def Rules.standardly (r : Rules) (a b : Ty) : Bool :=
  a == b || match a, b with
    | .base m, .base n => r.standard m n
    | _, _ => false

/-- `return a;` in a function that returns `b` compiles. The constructors of `Expected<T, E>` take a `T` or an `Unexpected<E>`
(Expected.h:37-67); that of `Unexpected` is `explicit` (Unexpected.h:28). -/
def Rules.returns (r : Rules) (a b : Ty) : Bool :=
  a == b || match b with
    | .base n => r.standardly a b || (a != .void && r.user a n)
    | .expected t e => r.standardly a t || a == .unexpected e
    | .void => false
    | .unexpected _ => false

/-- The class `Expected<t, e>` can be instantiated: the union has members (Expected.h:350-365), and the constructors differ
(Expected.h:37-55). -/
def instantiable (t e : Ty) : Bool := t != .void && e != .void && t != .unexpected e

/-- The uses of the member functions of `Expected<T, E>`, with the types that the functions passed to them return. -/
inductive Use where
  /-- `x.Map(f)` -/
  | map (res : Ty)
  /-- `x.MapError(f)` -/
  | mapError (res : Ty)
  /-- `x.AndThen(f)`, `x.Then(f)` -/
  | andThen (res : Ty)
  /-- `x.OrElse(f)`, `x.CatchError(f)` -/
  | orElse (res : Ty)
  /-- `x.UnwrapOr(u)` -/
  | unwrapOr (arg : Ty)
  /-- `x.UnwrapOrElse(f)` -/
  | unwrapOrElse (res : Ty)
  /-- `x.UnwrapOrDefault()`, `x.UnwrapOrDefault(d)` -/
  | unwrapOrDefault
  /-- `x.Filter(f)` -/
  | filter
  /-- `x.Fold(init, f)` -/
  | fold (init res : Ty)
  /-- `x.OnError(f)` -/
  | onError (res : Ty)
  /-- `x.Customize(f)` -/
  | customize (res : Ty)
  /-- `x.Inspect(f, g)` -/
  | inspect (res err : Ty)
  deriving DecidableEq, Repr

/-- The type of a use of a member function of `Expected<t, e>`, if it compiles. -/
def typeOf (r : Rules) (t e : Ty) : Use → Option Ty
  -- Expected.h:158-167: the result type is `Expected<res, e>`; both branches construct it from a `res` and an `Unexpected<e>`
  | .map res => if instantiable res e then some (.expected res e) else none
  -- Expected.h:169-179: `return *this;`
  | .mapError res => if instantiable t res && r.returns (.expected t e) (.expected t res) then some (.expected t res) else none
  -- Expected.h:181-189, 271-279
  | .andThen res => if r.returns res (.expected t e) then some (.expected t e) else none
  -- Expected.h:191-199, 281-289
  | .orElse res => if r.returns res (.expected t e) then some (.expected t e) else none
  -- Expected.h:201-209
  | .unwrapOr arg => if r.returns arg t then some t else none
  -- Expected.h:211-218: the type is that of the function's result
  | .unwrapOrElse res => if r.returns t res then some res else none
  -- Expected.h:220-229: `unwrap_or` is not declared
  | .unwrapOrDefault => none
  -- Expected.h:250-258: `result_t` is not declared
  | .filter => none
  -- Expected.h:260-268: the type is that of the function's result; `return std::forward<U>(init);`
  | .fold init res => if r.returns init res then some res else none
  -- Expected.h:291-299
  | .onError _ => some (.expected t e)
  -- Expected.h:301-304
  | .customize res => some res
  -- Expected.h:306-315: the type is that of the first function's result
  | .inspect res err => if r.returns err res then some res else none

end Caitlyn.ExpectedTypes
