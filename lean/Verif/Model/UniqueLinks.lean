import Verif.Basic

/-!
# Model of `UniquePtr` as a member of the objects it owns (__Core/Memory/Types/UniquePointer.h)

`Model/Ptr` has objects without members. Here an object made by `new T` has any number of members of type
`UniquePtr<T>`, as the nodes of lists and trees have. Objects have identities counted from 0, which are not used again.
A program is a list of statements (one thread) about variables and about members reached from them with `->`. A
statement about variables or members that do not exist, or a declaration of a variable that does, is not executed. The
exception that `operator->` throws for null is caught and the program goes on.
Not modelled: constructors and destructors of `T` that do anything else; pointers obtained from `Get()`.
-/

namespace Caitlyn.Links

/-- The living objects: the values `data_` (UniquePointer.h:135) of the members of each. -/
abbrev Cells := Nat → Option (List (Option Nat))

structure World where
  vars : Nat → Option (Option Nat) := fun _ => none
  cells : Cells := fun _ => none
  next : Nat := 0

/-- Where a `UniquePtr` is stored: in a variable, or as the `i`-th member of an object. -/
inductive Loc where
  | var (x : Nat)
  | field (id i : Nat)
  deriving DecidableEq

/-- The value `data_` of the `UniquePtr` stored there; `none` if there is none (any more). -/
def World.get (w : World) : Loc → Option (Option Nat)
  | .var x => w.vars x
  | .field id i => (w.cells id).bind fun fs => fs[i]?

/-- Reading `data_`. -/
def World.read (w : World) (l : Loc) : Res (Option Nat) :=
  match w.get l with
  | none => .error .ub
  | some d => .ok d

/-- Overwrite one member of one object. -/
def Cells.set (c : Cells) (id i : Nat) (d : Option Nat) : Cells :=
  fun a => if a = id then (c id).map fun fs => fs.set i d else c a

/-- Store `d` in `data_`. -/
def World.set (w : World) (l : Loc) (d : Option Nat) : World :=
  match l with
  | .var x => { w with vars := fun y => if y = x then some d else w.vars y }
  | .field id i => { w with cells := w.cells.set id i d }

/-- Assigning to `data_`. -/
def World.write (w : World) (l : Loc) (d : Option Nat) : Res World :=
  match w.get l with
  | none => .error .ub
  | some _ => .ok (w.set l d)

/-- An expression for a `UniquePtr`: a variable, followed by members reached with `->`. -/
structure Place where
  var : Nat
  path : List Nat := []

/-- `operator->` (UniquePointer.h:81-88) and the choice of a member, again and again. `none`: there is no such member. -/
def World.walk (w : World) : Loc → List Nat → Res (Option Loc)
  | l, [] => .ok (some l)
  | l, i :: is => do
    match ← w.read l with
    | none => .error .runtimeError
    | some id =>
      match w.cells id with
      | none => .error .ub
      | some fs => if i < fs.length then w.walk (.field id i) is else .ok none

/-- The place that an expression denotes; `none` if the statement is not executed or is left by the exception. -/
def World.locate (w : World) (p : Place) : Res (Option Loc) :=
  if (w.vars p.var).isSome then
    match w.walk (.var p.var) p.path with
    | .error .runtimeError => .ok none
    | r => r
  else .ok none

/-- `delete` of the objects in the list, one after the other. The destructor of an object runs the destructors of its
members (UniquePointer.h:48-51), last member first. The life of an object ends when its destructor starts; to
`delete` it again is undefined. An object is removed once at most, so `n` above the number of objects is enough. -/
def del : Nat → Cells → List Nat → Res Cells
  | _, c, [] => .ok c
  | 0, _, _ :: _ => .error .fuel
  | n + 1, c, id :: s =>
    match c id with
    | none => .error .ub
    | some fs => del n (fun a => if a = id then none else c a) (fs.reverse.filterMap (fun d => d) ++ s)

/-- The greatest number of destructors of objects that are running at the same time while `del` is executed; the list
contains with each object the number of them that will be running then. -/
def nesting : Nat → Cells → List (Nat × Nat) → Res Nat
  | _, _, [] => .ok 0
  | 0, _, _ :: _ => .error .fuel
  | n + 1, c, (id, k) :: s =>
    match c id with
    | none => .error .ub
    | some fs => do
      let d ← nesting n (fun a => if a = id then none else c a)
        ((fs.reverse.filterMap (fun d => d)).map (fun b => (b, k + 1)) ++ s)
      return max k d

/-- `delete data_`. -/
def World.delete (w : World) (d : Option Nat) : Res World := do
  let c ← del (w.next + 1) w.cells d.toList
  return { w with cells := c }

/-- `new T`, where `T` has `k` members of type `UniquePtr<T>`. -/
def World.new (w : World) (k : Nat) : World :=
  { w with
    cells := fun a => if a = w.next then some (List.replicate k none) else w.cells a
    next := w.next + 1 }

/-- `operator=(UniquePtr&&)` (UniquePointer.h:60-69): `this` is stored at `p`, `other` at `q`. -/
def World.moveAssign (w : World) (p q : Loc) : Res World :=
  if p ≠ q then do
    let w ← w.delete (← w.read p)
    let w ← w.write p (← w.read q)
    w.write q none
  else .ok w

/-- `Reset(d)` (UniquePointer.h:118-125). -/
def World.reset (w : World) (p : Loc) (d : Option Nat) : Res World := do
  let old ← w.read p
  if old ≠ d then do
    let w ← w.delete old
    w.write p d
  else return w

inductive Op where
  /-- `UniquePtr<T> x{new T}` (UniquePointer.h:37-39) -/
  | make (x k : Nat)
  /-- `UniquePtr<T> x` (UniquePointer.h:35) -/
  | makeEmpty (x : Nat)
  /-- `UniquePtr<T> x{std::move(p)}` (UniquePointer.h:43-46) -/
  | moveNew (x : Nat) (p : Place)
  /-- `p = std::move(q)` -/
  | moveAssign (p q : Place)
  /-- `p.Reset()` -/
  | reset (p : Place)
  /-- `p.Reset(new T)` -/
  | resetNew (p : Place) (k : Nat)
  /-- the end of the scope of `x` (UniquePointer.h:48-51) -/
  | destroy (x : Nat)

/-- How many destructors of objects run inside one another at the end of the scope of `x`. -/
def World.nesting (w : World) (x : Nat) : Res Nat :=
  match w.vars x with
  | some (some r) => Links.nesting (w.next + 1) w.cells [(r, 1)]
  | _ => .ok 0

def step (w : World) : Op → Res World
  | .make x k => .ok (if (w.vars x).isSome then w else (w.new k).set (.var x) (some w.next))
  | .makeEmpty x => .ok (if (w.vars x).isSome then w else w.set (.var x) none)
  | .moveNew x p => do
    match ← w.locate p with
    | none => return w
    | some l =>
      if (w.vars x).isSome then return w
      else do
        let w := w.set (.var x) (← w.read l)
        w.write l none
  | .moveAssign p q => do
    match ← w.locate p, ← w.locate q with
    | some l, some l' => w.moveAssign l l'
    | _, _ => return w
  | .reset p => do
    match ← w.locate p with
    | some l => w.reset l none
    | none => return w
  | .resetNew p k => do
    match ← w.locate p with
    | some l => (w.new k).reset l (some w.next)
    | none => return w
  | .destroy x =>
    match w.vars x with
    | some d => do
      let w ← w.delete d
      return { w with vars := fun y => if y = x then none else w.vars y }
    | none => .ok w

def run : World → List Op → Res World
  | w, [] => .ok w
  | w, op :: ops => do run (← step w op) ops

end Caitlyn.Links
