import Verif.Model.Ptr

/-!
# Specification of ownership

What a pointer variable should own, written without heap, counters or deletion: `own x` is `none` if the variable `x`
does not exist, `some none` if it is empty, `some (some i)` if it owns the object made by the `i`-th `new T`.
-/

namespace Caitlyn.Spec

structure Owners where
  next : Nat := 0
  own : Nat → Option (Option Nat) := fun _ => none

/-- The map that sends `x` to `a` and is `f` elsewhere. -/
def upd {α : Type} (f : Nat → α) (x : Nat) (a : α) : Nat → α := fun y => if y = x then a else f y

/-- An object is owned by some variable. -/
def Owners.owned (s : Owners) (id : Nat) : Prop := ∃ x, s.own x = some (some id)

/-- `x` comes to own the object made by the next `new T`. -/
def Owners.fresh (s : Owners) (x : Nat) : Owners := ⟨s.next + 1, upd s.own x (some (some s.next))⟩

def Owners.put (s : Owners) (x : Nat) (a : Option (Option Nat)) : Owners := { s with own := upd s.own x a }

/-- What the statements about `UniquePtr` variables should do. -/
def uniqueStep (s : Owners) : Unique.Op → Owners
  | .make x => if s.own x = none then s.fresh x else s
  | .makeEmpty x => if s.own x = none then s.put x (some none) else s
  | .move x y => if s.own x = none ∧ s.own y ≠ none then (s.put x (s.own y)).put y (some none) else s
  | .moveAssign x y =>
    if s.own x ≠ none ∧ s.own y ≠ none ∧ x ≠ y then (s.put x (s.own y)).put y (some none) else s
  | .reset x => if s.own x ≠ none then s.put x (some none) else s
  | .resetNew x => if s.own x ≠ none then s.fresh x else s
  | .resetSelf _ => s
  | .deref _ => s
  | .destroy x => s.put x none

def uniqueRun (ops : List Unique.Op) : Owners := ops.foldl uniqueStep {}

/-- What the statements about `SharedPtr` variables should do. -/
def sharedStep (s : Owners) : Shared.Op → Owners
  | .make x => if s.own x = none then s.fresh x else s
  | .makeEmpty x => if s.own x = none then s.put x (some none) else s
  | .copy x y => if s.own x = none then s.put x (s.own y) else s
  | .move x y => if s.own x = none ∧ s.own y ≠ none then (s.put x (s.own y)).put y (some none) else s
  | .assign x y => if s.own x ≠ none ∧ s.own y ≠ none then s.put x (s.own y) else s
  | .moveAssign x y =>
    if s.own x ≠ none ∧ s.own y ≠ none ∧ x ≠ y then (s.put x (s.own y)).put y (some none) else s
  | .reset x => if s.own x ≠ none then s.put x (some none) else s
  | .resetNew x => if s.own x ≠ none then s.fresh x else s
  | .deref _ => s
  | .destroy x => s.put x none

def sharedRun (ops : List Shared.Op) : Owners := ops.foldl sharedStep {}

/-- What `Ptr` variables point to and which objects have been deleted, in order, the last one first. -/
structure RawState where
  next : Nat := 0
  ptr : Nat → Option (Option Nat) := fun _ => none
  deleted : List Nat := []

def RawState.put (s : RawState) (x : Nat) (a : Option (Option Nat)) : RawState := { s with ptr := upd s.ptr x a }

def RawState.fresh (s : RawState) (x : Nat) : RawState :=
  { s with next := s.next + 1, ptr := upd s.ptr x (some (some s.next)) }

/-- `x` points to an object that has been deleted. -/
def RawState.dangling (s : RawState) (x : Nat) : Prop := ∃ id, s.ptr x = some (some id) ∧ id ∈ s.deleted

instance (s : RawState) (x : Nat) : Decidable (s.dangling x) :=
  match h : s.ptr x with
  | some (some id) =>
    if hd : id ∈ s.deleted then .isTrue ⟨id, h, hd⟩
    else .isFalse (by rintro ⟨i, h1, h2⟩; rw [h] at h1; cases h1; exact hd h2)
  | some none => .isFalse (by rintro ⟨i, h1, _⟩; rw [h] at h1; cases h1)
  | none => .isFalse (by rintro ⟨i, h1, _⟩; rw [h] at h1; cases h1)

/-- The pointee of `x`, if there is one, is deleted. -/
def RawState.delete (s : RawState) (x : Nat) : RawState :=
  match s.ptr x with
  | some (some id) => { s with deleted := id :: s.deleted }
  | _ => s

/-- What the statements about `Ptr` variables should do; `none` when a dangling pointer is used or deleted again. -/
def rawStep (s : RawState) : Raw.Op → Option RawState
  | .make x => some (if s.ptr x = none then s.fresh x else s)
  | .makeEmpty x => some (if s.ptr x = none then s.put x (some none) else s)
  | .copy x y => some (if s.ptr x = none then s.put x (s.ptr y) else s)
  | .assign x y => some (if s.ptr x ≠ none ∧ s.ptr y ≠ none then s.put x (s.ptr y) else s)
  | .assignNew x => some (if s.ptr x ≠ none then s.fresh x else s)
  | .reset x => if s.dangling x then none else some (if s.ptr x ≠ none then (s.delete x).put x (some none) else s)
  | .resetNew x => if s.dangling x then none else some (if s.ptr x ≠ none then (s.delete x).fresh x else s)
  | .resetSelf x => if s.dangling x then none else some (s.delete x)
  | .destroyCall x =>
    if s.dangling x then none else some (if s.ptr x ≠ none then (s.delete x).put x (some none) else s)
  | .deref x => if s.dangling x then none else some s
  | .leave x => some (s.put x none)

def rawRun (s : RawState) : List Raw.Op → Option RawState
  | [] => some s
  | op :: ops => (rawStep s op).bind fun s => rawRun s ops

end Caitlyn.Spec
