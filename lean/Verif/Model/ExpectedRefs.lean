import Verif.Model.ExpectedProg

/-!
# References to the value and the error of an `Expected` (__Core/Error/Expected.h)

`Get`, `GetError`, `Expect` and `ExpectError` return references into the union of the object (Expected.h:140-156, 231-248). Programs with
variables of type `Expected<T, E>` and with reference variables. Objects in the union are told apart by the number of the time at which
the union last began to hold an object of their kind: an assignment destroys the object and makes a new one in the same place
(Expected.h:70-86, 101-118); if it is of the same type the references to the old one refer to the new one, else they are invalid for ever
([basic.life], for `T` and `E` without `const` and reference members, which this rule excludes before C++20). Constructors
do not throw here. `T` and `E` are different types or not; what a moved-from object holds is theirs to say (`moved`). A statement on a variable
that does not exist, or the declaration of one that does, is no C++ and is skipped.
-/

namespace Caitlyn.ExpectedRefs
open ExpectedProg (Moved)

variable {T E : Type}

/-- A variable: what it holds, and since when an object of this kind. -/
structure Cell (T E : Type) where
  content : T ⊕ E
  since : Nat

/-- The `Expected` of which a reference is taken: a variable, or a temporary, as a call returns it. -/
inductive Source (T E : Type) where
  | var (x : Nat)
  | temp (c : T ⊕ E)

inductive Stmt (T E : Type) where
  /-- `Expected<T, E> x{c};` (Expected.h:38-56) -/
  | make (x : Nat) (c : T ⊕ E)
  /-- the end of the scope of `x` (Expected.h:120-123) -/
  | leave (x : Nat)
  /-- `x = y;` (Expected.h:70-86) -/
  | assign (x y : Nat)
  /-- `x = std::move(y);` (Expected.h:101-118) -/
  | move (x y : Nat)
  /-- `x = Expected<T, E>{c};` (Expected.h:101-118) -/
  | set (x : Nat) (c : T ⊕ E)
  /-- `const T& r = e.Get();` or `e.Expect(m)` (`value`, Expected.h:140-147, 231-238), `const E& r = e.GetError();` or `e.ExpectError(m)`
  (Expected.h:149-156, 240-248). -/
  | bind (r : Nat) (value : Bool) (e : Source T E)
  /-- reading `r` -/
  | get (r : Nat)

inductive Out (T E : Type) where
  | done
  /-- no statement of C++ -/
  | skipped
  /-- an exception (`std::logic_error`, `std::runtime_error`), caught -/
  | thrown
  /-- what was read -/
  | read (c : T ⊕ E)

structure State (T E : Type) where
  vars : Nat → Option (Cell T E) := fun _ => none
  /-- the references: not declared, or the variable and the object in it; `some none`: an object that does not exist any more -/
  refs : Nat → Option (Option (Nat × Nat)) := fun _ => none
  clock : Nat := 0

/-- The variable `x` holds `c` from now on: another object of the same kind in the same place, or one of the other kind. -/
def State.put (st : State T E) (x : Nat) (old : Cell T E) (c : T ⊕ E) : State T E :=
  if old.content.isLeft = c.isLeft then { st with vars := fun z => if z = x then some ⟨c, old.since⟩ else st.vars z }
  else { st with vars := fun z => if z = x then some ⟨c, st.clock⟩ else st.vars z, clock := st.clock + 1 }

/-- Execute a statement. -/
def step (moved : Moved T E) (st : State T E) : Stmt T E → Res (Out T E × State T E)
  | .make x c =>
    match st.vars x with
    | some _ => .ok (.skipped, st)
    | none => .ok (.done, { st with vars := fun z => if z = x then some ⟨c, st.clock⟩ else st.vars z, clock := st.clock + 1 })
  | .leave x =>
    match st.vars x with
    | some _ => .ok (.done, { st with vars := fun z => if z = x then none else st.vars z })
    | none => .ok (.skipped, st)
  | .assign x y =>
    match st.vars x, st.vars y with
    | some old, some c => if x = y then .ok (.done, st) else .ok (.done, st.put x old c.content)
    | _, _ => .ok (.skipped, st)
  | .move x y =>
    match st.vars x, st.vars y with
    | some old, some c =>
      if x = y then .ok (.done, st)
      else
        let st := st.put x old c.content
        .ok (.done, { st with vars := fun z => if z = y then some ⟨moved.sum c.content, c.since⟩ else st.vars z })
    | _, _ => .ok (.skipped, st)
  | .set x c =>
    match st.vars x with
    | some old => .ok (.done, st.put x old c)
    | none => .ok (.skipped, st)
  | .bind r value (.var x) =>
    match st.vars x with
    | some c =>
      if c.content.isLeft = value then
        .ok (.done, { st with refs := fun q => if q = r then some (some (x, c.since)) else st.refs q })
      else .ok (.thrown, st)
    | none => .ok (.skipped, st)
  | .bind r value (.temp c) =>
    if c.isLeft = value then .ok (.done, { st with refs := fun q => if q = r then some none else st.refs q })
    else .ok (.thrown, st)
  | .get r =>
    match st.refs r with
    | none => .ok (.skipped, st)
    | some none => .error .ub
    | some (some (x, s)) =>
      match st.vars x with
      | none => .error .ub
      | some c => if c.since = s then .ok (.read c.content, st) else .error .ub

/-- A program: what its statements give, and the state after it. -/
def run (moved : Moved T E) : State T E → List (Stmt T E) → Res (List (Out T E) × State T E)
  | st, [] => .ok ([], st)
  | st, s :: p => do
    let (o, st) ← step moved st s
    let (os, st) ← run moved st p
    return (o :: os, st)

end Caitlyn.ExpectedRefs
