import Verif.Basic

/-!
# Model of the detectors of members (__Core/Traits/Types/Collections.h, __Core/Traits/Constraints/String.h)

`Has_begin_Type<T>` and its relatives are true exactly if the expression `std::declval<T>().begin()` is well-formed
(Collections.h:26-136): the object expression is an lvalue if `T` is an lvalue reference, otherwise an rvalue; overload resolution
picks one of the members of that name, which must be accessible. A class is given by the overloads of each name that accept the
arguments. Not modelled: template members, inherited members, and `volatile`.
-/

namespace Caitlyn.Detect

/-- The members asked for. -/
inductive Name where
  | begin | «end» | push_back | pop_back | size | front | back | data | clear | resize | empty
  deriving DecidableEq, Repr

/-- The reference qualifier of a member function. -/
inductive Ref where
  | none | lvalue | rvalue
  deriving DecidableEq, Repr

/-- A member function that accepts the arguments. -/
structure Overload where
  const : Bool
  ref : Ref := .none
  accessible : Bool := true
  deriving DecidableEq, Repr

/-- A class: its members, and whether it has accessible types `value_type` and `size_type`. -/
structure Class where
  members : Name → List Overload
  value_type : Bool := true
  size_type : Bool := true

/-- The argument of a detector. -/
inductive Ty where
  /-- a class, possibly `const` -/
  | object (const : Bool) (c : Class)
  /-- an lvalue reference to one -/
  | lref (const : Bool) (c : Class)
  /-- an rvalue reference to one -/
  | rref (const : Bool) (c : Class)
  /-- any other type: a number, a pointer, `void`, an array -/
  | other

/-- The function can be called on an object that is `const` or not, as an lvalue or not. -/
def viable (const lvalue : Bool) (o : Overload) : Bool :=
  (o.const || !const) &&
    match o.ref with
    | .none => true
    | .lvalue => lvalue || o.const
    | .rvalue => !lvalue

/-- The function is a better match than another: a reference to an rvalue is bound to an rvalue first ([over.ics.rank]), then less
`const` is better. -/
def better (lvalue : Bool) (a b : Overload) : Bool :=
  if !lvalue && a.ref == .rvalue && b.ref == .lvalue then true
  else if !lvalue && a.ref == .lvalue && b.ref == .rvalue then false
  else b.const && !a.const

/-- Overload resolution: the function better than every other that can be called. -/
def resolve (const lvalue : Bool) (os : List Overload) : Option Overload :=
  (os.filter (viable const lvalue)).find? fun a =>
    (os.filter (viable const lvalue)).all fun b => a == b || better lvalue a b

/-- The member call is well-formed. -/
def call (const lvalue : Bool) (c : Class) (n : Name) : Bool :=
  match resolve const lvalue (c.members n) with
  | some o => o.accessible
  | none => false

/-- The nested type used for the argument (Collections.h:53, 124) exists; a reference has no nested types. -/
def argument (c : Class) : Name → Bool
  | .push_back => c.value_type
  | .resize => c.size_type
  | _ => true

/-- The detector has an argument in its call. -/
def takes : Name → Bool
  | .push_back | .resize => true
  | _ => false

/-- `Has_..._Type<T>` (Collections.h:26-136). -/
def has (n : Name) : Ty → Bool
  | .object const c => argument c n && call const false c n
  | .lref const c => !takes n && call const true c n
  | .rref const c => !takes n && call const false c n
  | .other => false

/-- `String`: the members of these names (String.h:142, 181-199, 468-471). -/
def string : Class where
  members
    | .begin | .end => [⟨false, .none, true⟩, ⟨true, .none, true⟩]
    | .size | .data => [⟨true, .none, true⟩]
    | _ => []
  value_type := false
  size_type := false

end Caitlyn.Detect
