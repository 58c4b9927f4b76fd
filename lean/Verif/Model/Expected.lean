import Verif.Basic

/-!
# Model of `Expected<T, E>` (__Core/Error/Expected.h:31-370) and `Unexpected<E>` (Unexpected.h:25-43)

First the operations on one object, then the lifetime of the objects contained in the union over a history.
Functions passed to the operations are effectful: they may read and change a world `σ` and throw.
Not modelled because they cannot be instantiated: `UnwrapOrDefault` (220-229) and `Filter` (251-259),
which name things that do not exist, and `MapError` with a function that changes the error type (170-179); which uses compile
is the subject of Model/ExpectedTypes.
-/

namespace Caitlyn

/-- An `Expected` object: the flag and what the union holds. -/
structure Expected (T E : Type) where
  hasValue : Bool
  data : T ⊕ E

/-- Effectful computations: `func(x)`. -/
abbrev Eff (σ α : Type) := StateT σ (Except Err) α

namespace Expected
variable {T E U σ : Type}

/-- `Expected(const ValueType&)`, `Expected(ValueType&&)` (Expected.h:37-45), `MakeCorrect` (Expected.h:372-376). -/
def ofValue (v : T) : Expected T E := ⟨true, .inl v⟩

/-- `Expected(const Unexpected<ErrorType>&)` and move (Expected.h:47-55), from `MakeError(e)` (Unexpected.h:43-56). -/
def ofError (e : E) : Expected T E := ⟨false, .inr e⟩

/-- `data_.value`: reading the member that is not alive is undefined. -/
def readValue (x : Expected T E) : Res T :=
  match x.data with
  | .inl v => .ok v
  | .inr _ => .error .ub

/-- `data_.error`. -/
def readError (x : Expected T E) : Res E :=
  match x.data with
  | .inl _ => .error .ub
  | .inr e => .ok e

/-- Copy construction (Expected.h:57-67) for copies that do not throw. -/
def copy (x : Expected T E) : Res (Expected T E) :=
  if x.hasValue then do return ofValue (← x.readValue) else do return ofError (← x.readError)

/-- `HasValue` and `operator bool` (Expected.h:125-133). -/
def hasValue' (x : Expected T E) : Bool := x.hasValue

/-- `HasError` (Expected.h:135-138). -/
def hasError (x : Expected T E) : Bool := !x.hasValue

/-- `Get` (Expected.h:140-147). -/
def get (x : Expected T E) : Res T := if x.hasValue then x.readValue else .error .logicError

/-- `GetError` (Expected.h:149-156). -/
def getError (x : Expected T E) : Res E := if !x.hasValue then x.readError else .error .logicError

/-- `Map` (Expected.h:158-167). -/
def map (f : T → Eff σ U) (x : Expected T E) : Eff σ (Expected U E) :=
  if x.hasValue then do return ofValue (← f (← x.readValue)) else do return ofError (← x.readError)

/-- `MapError` (Expected.h:169-179) with a function that keeps the error type. -/
def mapError (f : E → Eff σ E) (x : Expected T E) : Eff σ (Expected T E) :=
  if !x.hasValue then do return ofError (← f (← x.readError)) else x.copy

/-- `AndThen` (Expected.h:181-189) and `Then` (271-279), which is the same code. -/
def andThen (f : T → Eff σ (Expected T E)) (x : Expected T E) : Eff σ (Expected T E) :=
  if x.hasValue then do f (← x.readValue) else x.copy

/-- `OrElse` (Expected.h:191-199) and `CatchError` (281-289), which is the same code. -/
def orElse (f : E → Eff σ (Expected T E)) (x : Expected T E) : Eff σ (Expected T E) :=
  if !x.hasValue then do f (← x.readError) else x.copy

/-- `UnwrapOr` (Expected.h:201-209). -/
def unwrapOr (d : T) (x : Expected T E) : Res T := if x.hasValue then x.readValue else .ok d

/-- `UnwrapOrElse` (Expected.h:211-218). -/
def unwrapOrElse (f : E → Eff σ T) (x : Expected T E) : Eff σ T :=
  if x.hasValue then x.readValue else do f (← x.readError)

/-- `Expect` (Expected.h:231-238). -/
def expect (x : Expected T E) : Res T := if x.hasValue then x.readValue else .error .runtimeError

/-- `ExpectError` (Expected.h:240-248). -/
def expectError (x : Expected T E) : Res E := if !x.hasValue then x.readError else .error .runtimeError

/-- `Fold` (Expected.h:260-268). -/
def fold (init : U) (f : U → T → Eff σ U) (x : Expected T E) : Eff σ U :=
  if x.hasValue then do f init (← x.readValue) else pure init

/-- `OnError` (Expected.h:291-299). -/
def onError (f : E → Eff σ Unit) (x : Expected T E) : Eff σ (Expected T E) := do
  if !x.hasValue then f (← x.readError)
  x.copy

/-- `Inspect` (Expected.h:306-315). -/
def inspect (f : T → Eff σ U) (g : E → Eff σ U) (x : Expected T E) : Eff σ U :=
  if x.hasValue then do f (← x.readValue) else do g (← x.readError)

end Expected

/-! ## Lifetime of the contained objects -/

namespace Lifetime

/-- An `Expected` variable: the flag, and the contained object alive in the union, if any: whether it is a value,
and its identity. -/
structure Slot where
  hasValue : Bool
  payload : Option (Bool × Nat)
  deriving DecidableEq

/-- The `Expected` variables that exist, the contained objects alive, and those already destroyed. Identities are
numbers below `next`. -/
structure World where
  vars : List (Nat × Slot) := []
  next : Nat := 0
  live : List Nat := []
  dead : List Nat := []
  deriving DecidableEq

/-- The variable `x`. -/
def World.get (w : World) (x : Nat) : Option Slot := w.vars.lookup x

/-- Replace the contents of variable `x`. -/
def World.set (w : World) (x : Nat) (s : Slot) : World :=
  { w with vars := w.vars.map fun e => if e.1 = x then (x, s) else e }

/-- Placement `new` of a contained object. -/
def construct (w : World) (isValue : Bool) : World × Option (Bool × Nat) :=
  ({ w with next := w.next + 1, live := w.next :: w.live }, some (isValue, w.next))

/-- `DestroyUnion` (Expected.h:336-347): destroys the member the flag names; undefined if that is not the object
alive. -/
def destroyUnion (w : World) (s : Slot) : Res World :=
  match s.payload with
  | some (isValue, id) =>
    if isValue = s.hasValue ∧ id ∈ w.live then .ok { w with live := w.live.erase id, dead := id :: w.dead }
    else .error .ub
  | none => .error .ub

/-- Reading the member of `other` that the flag names, to copy or move from it. -/
def readFor (s : Slot) (w : World) : Res Unit :=
  match s.payload with
  | some (isValue, id) => if isValue = s.hasValue ∧ id ∈ w.live then .ok () else .error .ub
  | none => .error .ub

/-- Statements about `Expected` variables. `throws` says whether the constructor of the contained object throws. -/
inductive Op where
  /-- `Expected x{value}` or `Expected x{Unexpected}` (Expected.h:37-55) -/
  | make (x : Nat) (isValue throws : Bool)
  /-- `Expected x{y}` or `Expected x{std::move(y)}` (Expected.h:57-67, 87-98) -/
  | make_from (x y : Nat) (throws : Bool)
  /-- `x = y` or `x = std::move(y)` (Expected.h:70-85, 100-117) -/
  | assign (x y : Nat) (throws : Bool)
  /-- the end of the lifetime of `x` (Expected.h:119-123) -/
  | destroy (x : Nat)

/-- Execute a statement. A statement about variables that do not exist (or, for declarations, exist already) is not
executed. An exception thrown by a contained object's constructor leaves the effects of what preceded it. -/
def step (w : World) : Op → Res World
  | .make x isValue throws =>
    if (w.get x).isSome ∨ throws then .ok w
    else
      let (w, p) := construct w isValue
      .ok { w with vars := (x, ⟨isValue, p⟩) :: w.vars }
  | .make_from x y throws =>
    match w.get y with
    | none => .ok w
    | some other =>
      if (w.get x).isSome then .ok w
      else do
        readFor other w
        if throws then return w
        let (w, p) := construct w other.hasValue
        return { w with vars := (x, ⟨other.hasValue, p⟩) :: w.vars }
  | .assign x y throws =>
    match w.get x, w.get y with
    | some self, some other =>
      if x = y then .ok w
      else do
        let w ← destroyUnion w self
        let w := w.set x ⟨other.hasValue, none⟩
        readFor other w
        if throws then return w
        let (w, p) := construct w other.hasValue
        return w.set x ⟨other.hasValue, p⟩
    | _, _ => .ok w
  | .destroy x =>
    match w.get x with
    | none => .ok w
    | some self => do
      let w ← destroyUnion w self
      return { w with vars := w.vars.filter fun e => e.1 ≠ x }

/-- A history. -/
def run : World → List Op → Res World
  | w, [] => .ok w
  | w, op :: ops => do
    let w ← step w op
    run w ops

end Lifetime
end Caitlyn
