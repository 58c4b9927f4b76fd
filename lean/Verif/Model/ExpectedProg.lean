import Verif.Model.Expected

/-!
# Programs with variables of type `Expected<T, E>` (__Core/Error/Expected.h:37-156, 336-353)

The variables with the objects in their unions. What a move leaves behind of an object is given by `movedT` and
`movedE`, which are those of `T` and `E`. Whether the constructor of a contained object throws is part of the
statement.
-/

namespace Caitlyn.ExpectedProg

variable {T E : Type}

/-- A variable: the flag `hasValue_` and the object alive in the union `data_`, if any (Expected.h:349-353). -/
structure Slot (T E : Type) where
  hasValue : Bool
  data : Option (T ⊕ E)

/-- The variables in scope. -/
abbrev Vars (T E : Type) := Nat → Option (Slot T E)

/-- Write variable `x`. -/
def Vars.set (w : Vars T E) (x : Nat) (s : Option (Slot T E)) : Vars T E := fun y => if y = x then s else w y

/-- `data_.value`: undefined unless it is the member alive. -/
def Slot.value (s : Slot T E) : Res T :=
  match s.data with
  | some (.inl v) => .ok v
  | _ => .error .ub

/-- `data_.error`. -/
def Slot.error (s : Slot T E) : Res E :=
  match s.data with
  | some (.inr e) => .ok e
  | _ => .error .ub

/-- The member the flag names, as an argument of a constructor. -/
def Slot.named (s : Slot T E) : Res (T ⊕ E) :=
  if s.hasValue then do return .inl (← s.value) else do return .inr (← s.error)

/-- `DestroyUnion` (Expected.h:336-347). -/
def Slot.destroyUnion (s : Slot T E) : Res Unit :=
  if s.hasValue then do let _ ← s.value else do let _ ← s.error

/-- What is left of an object that was moved from. -/
structure Moved (T E : Type) where
  value : T → T
  error : E → E

/-- What is left of the contents. -/
def Moved.sum (m : Moved T E) : T ⊕ E → T ⊕ E
  | .inl v => .inl (m.value v)
  | .inr e => .inr (m.error e)

/-- Statements. `throws` says whether the constructor of the contained object throws. -/
inductive Op (T E : Type) where
  /-- `Expected x{value}` or `Expected x{Unexpected}` -/
  | make (x : Nat) (c : T ⊕ E) (throws : Bool)
  /-- `Expected x{y}` -/
  | copy (x y : Nat) (throws : Bool)
  /-- `Expected x{std::move(y)}` -/
  | move (x y : Nat) (throws : Bool)
  /-- `x = y` -/
  | assign (x y : Nat) (throws : Bool)
  /-- `x = std::move(y)` -/
  | moveAssign (x y : Nat) (throws : Bool)
  /-- the end of the lifetime of `x` -/
  | destroy (x : Nat)
  /-- `x.Get()` -/
  | get (x : Nat)
  /-- `x.GetError()` -/
  | getError (x : Nat)
  /-- `x.HasValue()` -/
  | hasValue (x : Nat)

/-- What a statement gives. -/
inductive Out (T E : Type) where
  | unit
  | value (v : T)
  | error (e : E)
  | flag (b : Bool)
  /-- `std::logic_error` -/
  | logicError
  /-- the exception of a contained object's constructor -/
  | thrown
  deriving DecidableEq

/-- Constructors from a value and from an error (Expected.h:37-55). -/
def ofContents (c : T ⊕ E) : Slot T E :=
  match c with
  | .inl v => ⟨true, some (.inl v)⟩
  | .inr e => ⟨false, some (.inr e)⟩

/-- Copy construction (Expected.h:57-67). -/
def copy (w : Vars T E) (x : Nat) (other : Slot T E) (throws : Bool) : Res (Out T E × Vars T E) := do
  let c ← other.named
  if throws then return (.thrown, w)
  return (.unit, w.set x (some ⟨other.hasValue, some c⟩))

/-- Move construction (Expected.h:88-99). -/
def move (m : Moved T E) (w : Vars T E) (x y : Nat) (other : Slot T E) (throws : Bool) : Res (Out T E × Vars T E) := do
  let c ← other.named
  if throws then return (.thrown, w)
  return (.unit, (w.set y (some ⟨other.hasValue, some (m.sum c)⟩)).set x (some ⟨other.hasValue, some c⟩))

/-- Copy assignment (Expected.h:70-86): the own contents are destroyed before the copy is made. -/
def assign (w : Vars T E) (x y : Nat) (self other : Slot T E) (throws : Bool) : Res (Out T E × Vars T E) :=
  if x = y then .ok (.unit, w)
  else do
    self.destroyUnion
    let w := w.set x (some ⟨other.hasValue, none⟩)
    let c ← other.named
    if throws then return (.thrown, w)
    return (.unit, w.set x (some ⟨other.hasValue, some c⟩))

/-- Move assignment (Expected.h:101-117). -/
def moveAssign (m : Moved T E) (w : Vars T E) (x y : Nat) (self other : Slot T E) (throws : Bool) :
    Res (Out T E × Vars T E) :=
  if x = y then .ok (.unit, w)
  else do
    self.destroyUnion
    let w := w.set x (some ⟨other.hasValue, none⟩)
    let c ← other.named
    if throws then return (.thrown, w)
    return (.unit, (w.set y (some ⟨other.hasValue, some (m.sum c)⟩)).set x (some ⟨other.hasValue, some c⟩))

/-- Execute a statement. Statements about variables that are not in scope (for declarations: are in scope already)
do nothing. -/
def step (m : Moved T E) (w : Vars T E) : Op T E → Res (Out T E × Vars T E)
  | .make x c throws =>
    match w x with
    | some _ => .ok (.unit, w)
    | none => if throws then .ok (.thrown, w) else .ok (.unit, w.set x (some (ofContents c)))
  | .copy x y throws =>
    match w x, w y with
    | none, some other => copy w x other throws
    | _, _ => .ok (.unit, w)
  | .move x y throws =>
    match w x, w y with
    | none, some other => move m w x y other throws
    | _, _ => .ok (.unit, w)
  | .assign x y throws =>
    match w x, w y with
    | some self, some other => assign w x y self other throws
    | _, _ => .ok (.unit, w)
  | .moveAssign x y throws =>
    match w x, w y with
    | some self, some other => moveAssign m w x y self other throws
    | _, _ => .ok (.unit, w)
  | .destroy x =>
    match w x with
    | none => .ok (.unit, w)
    | some self => do
      self.destroyUnion
      return (.unit, w.set x none)
  | .get x =>
    match w x with
    | none => .ok (.unit, w)
    | some s => if s.hasValue then do return (.value (← s.value), w) else .ok (.logicError, w)
  | .getError x =>
    match w x with
    | none => .ok (.unit, w)
    | some s => if !s.hasValue then do return (.error (← s.error), w) else .ok (.logicError, w)
  | .hasValue x =>
    match w x with
    | none => .ok (.unit, w)
    | some s => .ok (.flag s.hasValue, w)

/-- A program: what the statements give, and the variables after it. -/
def run (m : Moved T E) : Vars T E → List (Op T E) → Res (List (Out T E) × Vars T E)
  | w, [] => .ok ([], w)
  | w, op :: ops => do
    let (o, w) ← step m w op
    let (os, w) ← run m w ops
    return (o :: os, w)

end Caitlyn.ExpectedProg
