import Verif.Basic

/-!
# Model of variables of type `Expected` whose values contain further objects of type `Expected`

For a class `struct Node { N name; std::vector<Expected<Node, E>> kids; };` the variables are of type `Expected<Node, E>`. An object
is a tree; its place is named by a variable and the indices that lead to it through `Get().kids.at(i)`. `Get` returns a reference to
a constant (Expected.h:140-147), so that only variables are assigned, but what is assigned may be a part of any variable. Constructors of
`N` and `E` do not throw here (for those that do see C67 and C114).
-/

namespace Caitlyn.Parts
open Caitlyn

/-- An object `Expected<Node, E>`: the flag `hasValue_` and what is alive in the union `data_` (Expected.h:354-369). -/
inductive Obj (N E : Type) where
  | nothing (flag : Bool)
  | value (flag : Bool) (name : N) (kids : List (Obj N E))
  | error (flag : Bool) (e : E)

variable {N E : Type}

/-- `hasValue_`. -/
def Obj.flag : Obj N E → Bool
  | .nothing f | .value f _ _ | .error f _ => f

mutual

/-- The copy constructor (Expected.h:58-68): it copies the member of the union that the flag of the source names, which is undefined if
this is not alive. -/
def copy : Obj N E → Res (Obj N E)
  | .value flag n kids => if flag then do return .value true n (← copyAll kids) else .error .ub
  | .error flag e => if flag then .error .ub else return .error false e
  | .nothing _ => .error .ub

/-- The copy constructor of `std::vector`. -/
def copyAll : List (Obj N E) → Res (List (Obj N E))
  | [] => .ok []
  | o :: os => do return (← copy o) :: (← copyAll os)

end

mutual

/-- The destructor (Expected.h:120-123, 336-347): it destroys the member that the flag names. -/
def destroy : Obj N E → Res Unit
  | .value flag _ kids => if flag then destroyAll kids else .error .ub
  | .error flag _ => if flag then .error .ub else .ok ()
  | .nothing _ => .error .ub

/-- The destructor of `std::vector`. -/
def destroyAll : List (Obj N E) → Res Unit
  | [] => .ok ()
  | o :: os => do destroy o; destroyAll os

end

/-- `o.Get().kids.at(i).Get().kids.at(j)…`: `Get` throws `std::logic_error` for an error (Expected.h:140-147). -/
def walk (o : Obj N E) : List Nat → Res (Obj N E)
  | [] => .ok o
  | i :: path =>
    if o.flag then
      match o with
      | .value _ _ kids => if h : i < kids.length then walk kids[i] path else .error .outOfRange
      | _ => .error .ub
    else .error .logicError

/-- What a reference obtained by `walk` refers to at a later time: undefined if there is no object at the place any more. -/
def deref (o : Obj N E) : List Nat → Res (Obj N E)
  | [] => .ok o
  | i :: path =>
    match o with
    | .value _ _ kids => if h : i < kids.length then deref kids[i] path else .error .ub
    | _ => .error .ub

/-- The variables in scope. -/
abbrev Vars (N E : Type) := Nat → Option (Obj N E)

def Vars.set (w : Vars N E) (x : Nat) (o : Option (Obj N E)) : Vars N E := fun y => if y = x then o else w y

/-- A place: a variable and a way into it. -/
structure Place where
  var : Nat
  path : List Nat
  deriving DecidableEq

/-- The reference to the object at a place. -/
def refer (w : Vars N E) (p : Place) : Res (Obj N E) :=
  match w p.var with
  | some o => walk o p.path
  | none => .error .ub

def derefAt (w : Vars N E) (p : Place) : Res (Obj N E) :=
  match w p.var with
  | some o => deref o p.path
  | none => .error .ub

/-- Copies of the objects at some places, as the elements of a new vector. -/
def copies (w : Vars N E) : List Place → Res (List (Obj N E))
  | [] => .ok []
  | p :: ps => do
    let o ← refer w p
    return (← copy o) :: (← copies w ps)

/-- Statements. -/
inductive Op (N E : Type) where
  /-- `Expected<Node, E> x{Node{n, {p₁, …}}}` (Expected.h:38-46) -/
  | makeValue (x : Nat) (n : N) (kids : List Place)
  /-- `Expected<Node, E> x{MakeError(e)}` (Expected.h:48-56) -/
  | makeError (x : Nat) (e : E)
  /-- `Expected<Node, E> x{p}` (Expected.h:58-68) -/
  | makeFrom (x : Nat) (p : Place)
  /-- `x = p` (Expected.h:70-86) -/
  | assign (x : Nat) (p : Place)
  /-- the end of the scope of `x` (Expected.h:120-123) -/
  | drop (x : Nat)

/-- `operator=` (Expected.h:70-86) for an existing object `self`, in the order of the code. -/
def assign (w : Vars N E) (x : Nat) (self : Obj N E) (p : Place) : Res (Vars N E) := do
  let _ ← refer w p
  if p = ⟨x, []⟩ then return w
  destroy self
  let w := w.set x (some (.nothing self.flag))
  let other ← derefAt w p
  let w := w.set x (some (.nothing other.flag))
  let o ← copy (← derefAt w p)
  return w.set x (some o)

/-- Execute a statement. A declaration of a variable that exists and other statements on variables that do not exist are no
programs: they are undefined here. -/
def exec (w : Vars N E) : Op N E → Res (Vars N E)
  | .makeValue x n kids =>
    match w x with
    | some _ => .error .ub
    | none => do
      let os ← copies w kids
      return w.set x (some (.value true n os))
  | .makeError x e =>
    match w x with
    | some _ => .error .ub
    | none => .ok (w.set x (some (.error false e)))
  | .makeFrom x p =>
    match w x with
    | some _ => .error .ub
    | none => do
      let o ← copy (← refer w p)
      return w.set x (some o)
  | .assign x p =>
    match w x with
    | some self => assign w x self p
    | none => .error .ub
  | .drop x =>
    match w x with
    | some o => do
      destroy o
      return w.set x none
    | none => .error .ub

/-- A program: a statement that throws an exception (`Get` on an error, `at` out of range) is caught and has no effect. -/
def run (w : Vars N E) : List (Op N E) → Res (Vars N E)
  | [] => .ok w
  | op :: ops =>
    match exec w op with
    | .ok w => run w ops
    | .error .ub => .error .ub
    | .error _ => run w ops

end Caitlyn.Parts
