import Verif.Basic

/-!
# Model of the smart pointers (__Core/Memory/Types/UniquePointer.h, SharedPointer.h, WeakPointer.h, RawPointer.h)

Objects made by `new T` have identities counted from 0; a pointer is `none` (null) or an identity. A program is a
list of statements about named pointer variables, in the order in which they are executed (one thread). A statement
about variables that do not exist, or a declaration of one that does, is not executed. Statements throw only where
said; the exception is caught and the program goes on.
Not modelled: destructors of `T` that themselves use the pointers; `operator=(Pointer)` of `UniquePtr` and
`SharedPtr`, and `UniquePtr::Release`, which cannot be instantiated (`reset` does not exist; `const T*` is returned
as `T*`); passing a pointer obtained from `Get()` to a second owner. Comparisons, `Get` and `lock` are in `Model/PtrEq`.
-/

namespace Caitlyn

/-- The objects made with `new T`. -/
structure Heap where
  next : Nat := 0
  live : List Nat := []
  dead : List Nat := []
  deriving DecidableEq

/-- `new T`. -/
def Heap.new (h : Heap) : Heap × Option Nat := ({ h with next := h.next + 1, live := h.next :: h.live }, some h.next)

/-- `delete p`: nothing for null, undefined for an object that is not alive. -/
def Heap.delete (h : Heap) : Option Nat → Res Heap
  | none => .ok h
  | some id => if id ∈ h.live then .ok { h with live := h.live.erase id, dead := id :: h.dead } else .error .ub

/-- Using the object behind `*p` or `p->`: the pointer classes throw for null (UniquePointer.h:72-88,
SharedPointer.h:96-112, RawPointer.h:60-76); using a deleted object is undefined. -/
def Heap.deref (h : Heap) : Option Nat → Res Nat
  | none => .error .runtimeError
  | some id => if id ∈ h.live then .ok id else .error .ub

/-- An exception is caught and execution goes on with `a`; undefined behaviour stays. -/
def caught (r : Res α) (a : β) : Res β :=
  match r with
  | .error .ub => .error .ub
  | .error .fuel => .error .fuel
  | _ => .ok a

/-- The named variables. -/
abbrev Vars (α : Type) := List (Nat × α)

/-- Overwrite the variable `x`. -/
def Vars.set (v : Vars α) (x : Nat) (a : α) : Vars α := v.map fun e => if e.1 = x then (x, a) else e

/-- The scope of variable `x` ends. -/
def Vars.drop (v : Vars α) (x : Nat) : Vars α := v.filter fun e => e.1 ≠ x

/-! ## `UniquePtr` -/

namespace Unique

structure World where
  heap : Heap := {}
  vars : Vars (Option Nat) := []
  deriving DecidableEq

inductive Op where
  /-- `UniquePtr x{new T}` (UniquePointer.h:37-39) -/
  | make (x : Nat)
  /-- `UniquePtr x` (UniquePointer.h:35) -/
  | makeEmpty (x : Nat)
  /-- `UniquePtr x{std::move(y)}` (UniquePointer.h:43-46); where `T` is `const`, so that `Release` compiles, also
  `UniquePtr x{y.Release()}` (UniquePointer.h:127-132) -/
  | move (x y : Nat)
  /-- `x = std::move(y)` (UniquePointer.h:60-69); where `T` is `const` also `x.Reset(y.Release())` (UniquePointer.h:118-132) -/
  | moveAssign (x y : Nat)
  /-- `x.Reset()` (UniquePointer.h:118-125) -/
  | reset (x : Nat)
  /-- `x.Reset(new T)` (UniquePointer.h:118-125) -/
  | resetNew (x : Nat)
  /-- `x.Reset(x.Get())` (UniquePointer.h:118-125) -/
  | resetSelf (x : Nat)
  /-- use of `*x` (UniquePointer.h:72-88) -/
  | deref (x : Nat)
  /-- the end of the scope of `x` (UniquePointer.h:48-51) -/
  | destroy (x : Nat)

/-- `Reset(new_data)` on a pointer holding `data` (UniquePointer.h:118-125). -/
def reset (h : Heap) (data newData : Option Nat) : Res (Heap × Option Nat) :=
  if data ≠ newData then do
    let h ← h.delete data
    return (h, newData)
  else .ok (h, data)

def step (w : World) : Op → Res World
  | .make x =>
    if (w.vars.lookup x).isSome then .ok w
    else .ok { heap := w.heap.new.1, vars := (x, w.heap.new.2) :: w.vars }
  | .makeEmpty x => if (w.vars.lookup x).isSome then .ok w else .ok { w with vars := (x, none) :: w.vars }
  | .move x y =>
    match w.vars.lookup x, w.vars.lookup y with
    | none, some d => .ok { w with vars := (x, d) :: w.vars.set y none }
    | _, _ => .ok w
  | .moveAssign x y =>
    match w.vars.lookup x, w.vars.lookup y with
    | some dx, some dy =>
      if x ≠ y then do
        let h ← w.heap.delete dx
        return { heap := h, vars := (w.vars.set x dy).set y none }
      else .ok w
    | _, _ => .ok w
  | .reset x =>
    match w.vars.lookup x with
    | some d => do
      let (h, d) ← reset w.heap d none
      return { heap := h, vars := w.vars.set x d }
    | none => .ok w
  | .resetNew x =>
    match w.vars.lookup x with
    | some d => do
      let (h, d) ← reset w.heap.new.1 d w.heap.new.2
      return { heap := h, vars := w.vars.set x d }
    | none => .ok w
  | .resetSelf x =>
    match w.vars.lookup x with
    | some d => do
      let (h, d) ← reset w.heap d d
      return { heap := h, vars := w.vars.set x d }
    | none => .ok w
  | .deref x =>
    match w.vars.lookup x with
    | some d => caught (w.heap.deref d) w
    | none => .ok w
  | .destroy x =>
    match w.vars.lookup x with
    | some d => do
      let h ← w.heap.delete d
      return { heap := h, vars := w.vars.drop x }
    | none => .ok w

def run : World → List Op → Res World
  | w, [] => .ok w
  | w, op :: ops => do run (← step w op) ops

end Unique

/-! ## `SharedPtr` and `WeakPtr` -/

namespace Shared

/-- A `SharedPtr`: `data_` and `ref_count_` (SharedPointer.h:163-164). -/
structure Ptr where
  data : Option Nat := none
  count : Option Nat := none
  deriving DecidableEq

/-- `counters` are the counters made with `new Counter`, `none` once deleted. -/
structure World where
  heap : Heap := {}
  counters : List (Option Nat) := []
  vars : Vars Ptr := []
  deriving DecidableEq

inductive Op where
  /-- `SharedPtr x{new T}` (SharedPointer.h:40-42) -/
  | make (x : Nat)
  /-- `SharedPtr x` (SharedPointer.h:38) or `WeakPtr x` (WeakPointer.h:35-37) -/
  | makeEmpty (x : Nat)
  /-- `SharedPtr x{y}` (SharedPointer.h:44-47), `WeakPtr x{y}` (WeakPointer.h:39-45), `SharedPtr x = y.lock()` for a
  `WeakPtr y` that has not expired (WeakPointer.h:117) -/
  | copy (x y : Nat)
  /-- `SharedPtr x{std::move(y)}` (SharedPointer.h:49-53), the same for `WeakPtr` (WeakPointer.h:47-49) -/
  | move (x y : Nat)
  /-- `x = y` (SharedPointer.h:67-80), with either or both a `WeakPtr` (WeakPointer.h:52-62) -/
  | assign (x y : Nat)
  /-- `x = std::move(y)` (SharedPointer.h:82-93, WeakPointer.h:64-68) -/
  | moveAssign (x y : Nat)
  /-- `x.Reset()` (SharedPointer.h:142-150) -/
  | reset (x : Nat)
  /-- `x.Reset(new T)` (SharedPointer.h:142-150) -/
  | resetNew (x : Nat)
  /-- use of `*x` (SharedPointer.h:96-112, WeakPointer.h:71-87) -/
  | deref (x : Nat)
  /-- the end of the scope of `x` (SharedPointer.h:55-58) -/
  | destroy (x : Nat)

/-- `ref_count_->fetch_add(1)`: undefined for a null or deleted counter; otherwise also the previous count. -/
def fetchAdd (cs : List (Option Nat)) (c : Option Nat) : Res (List (Option Nat)) :=
  match c with
  | none => .error .ub
  | some c =>
    match cs[c]? with
    | some (some n) => .ok (cs.set c (some (wadd n 1)))
    | _ => .error .ub

/-- `if (ref_count_) ref_count_->fetch_add(1)` (SharedPointer.h:74-77). -/
def retain (cs : List (Option Nat)) (c : Option Nat) : Res (List (Option Nat)) :=
  if c.isSome then fetchAdd cs c else .ok cs

/-- `Release` (SharedPointer.h:153-160): deletes when the count *before* the decrement was 0. -/
def release (h : Heap) (cs : List (Option Nat)) (p : Ptr) : Res (Heap × List (Option Nat)) :=
  match p.count with
  | none => .ok (h, cs)
  | some c =>
    match cs[c]? with
    | some (some n) =>
      if n = 0 then do
        let h ← h.delete p.data
        return (h, cs.set c none)
      else .ok (h, cs.set c (some (wsub n 1)))
    | _ => .error .ub

/-- `data ? new Counter(1) : nullptr` for the pointer made from it (SharedPointer.h:40, 148). -/
def own (cs : List (Option Nat)) : Option Nat → List (Option Nat) × Ptr
  | none => (cs, {})
  | some d => (cs ++ [some 1], ⟨some d, some cs.length⟩)

/-- `Reset(data)` (SharedPointer.h:142-150). -/
def reset (h : Heap) (cs : List (Option Nat)) (p : Ptr) (data : Option Nat) : Res (Heap × List (Option Nat) × Ptr) :=
  if p.data ≠ data then do
    let (h, cs) ← release h cs p
    let (cs, p) := own cs data
    return (h, cs, p)
  else .ok (h, cs, p)

def step (w : World) : Op → Res World
  | .make x =>
    if (w.vars.lookup x).isSome then .ok w
    else
      let (cs, p) := own w.counters w.heap.new.2
      .ok { heap := w.heap.new.1, counters := cs, vars := (x, p) :: w.vars }
  | .makeEmpty x => if (w.vars.lookup x).isSome then .ok w else .ok { w with vars := (x, {}) :: w.vars }
  | .copy x y =>
    match w.vars.lookup x, w.vars.lookup y with
    | none, some p => do
      let cs ← fetchAdd w.counters p.count
      return { w with counters := cs, vars := (x, p) :: w.vars }
    | _, _ => .ok w
  | .move x y =>
    match w.vars.lookup x, w.vars.lookup y with
    | none, some p => .ok { w with vars := (x, p) :: w.vars.set y {} }
    | _, _ => .ok w
  | .assign x y =>
    match w.vars.lookup x, w.vars.lookup y with
    | some px, some py =>
      if x ≠ y then do
        let (h, cs) ← release w.heap w.counters px
        let cs ← retain cs py.count
        return { heap := h, counters := cs, vars := w.vars.set x py }
      else .ok w
    | _, _ => .ok w
  | .moveAssign x y =>
    match w.vars.lookup x, w.vars.lookup y with
    | some px, some py =>
      if x ≠ y then do
        let (h, cs) ← release w.heap w.counters px
        return { heap := h, counters := cs, vars := (w.vars.set x py).set y {} }
      else .ok w
    | _, _ => .ok w
  | .reset x =>
    match w.vars.lookup x with
    | some p => do
      let (h, cs, p) ← reset w.heap w.counters p none
      return { heap := h, counters := cs, vars := w.vars.set x p }
    | none => .ok w
  | .resetNew x =>
    match w.vars.lookup x with
    | some p => do
      let (h, cs, p) ← reset w.heap.new.1 w.counters p w.heap.new.2
      return { heap := h, counters := cs, vars := w.vars.set x p }
    | none => .ok w
  | .deref x =>
    match w.vars.lookup x with
    | some p => caught (w.heap.deref p.data) w
    | none => .ok w
  | .destroy x =>
    match w.vars.lookup x with
    | some p => do
      let (h, cs) ← release w.heap w.counters p
      return { heap := h, counters := cs, vars := w.vars.drop x }
    | none => .ok w

def run : World → List Op → Res World
  | w, [] => .ok w
  | w, op :: ops => do run (← step w op) ops

/-- `WeakPtr::expired` (WeakPointer.h:121-124) of the `SharedPtr` it holds. -/
def expired (p : Ptr) : Bool := p.data.isNone

end Shared

/-! ## `Ptr` -/

namespace Raw

structure World where
  heap : Heap := {}
  vars : Vars (Option Nat) := []
  deriving DecidableEq

inductive Op where
  /-- `Ptr x{new T}` (RawPointer.h:38-40) -/
  | make (x : Nat)
  /-- `Ptr x` (RawPointer.h:36) -/
  | makeEmpty (x : Nat)
  /-- `Ptr x{y}` (RawPointer.h:42-44) -/
  | copy (x y : Nat)
  /-- `x = y` (RawPointer.h:53-57) -/
  | assign (x y : Nat)
  /-- `x = new T` (RawPointer.h:47-51) -/
  | assignNew (x : Nat)
  /-- `x.Reset()` (RawPointer.h:106-110) -/
  | reset (x : Nat)
  /-- `x.Reset(new T)` (RawPointer.h:106-110) -/
  | resetNew (x : Nat)
  /-- `x.Reset(x.Get())` (RawPointer.h:106-110) -/
  | resetSelf (x : Nat)
  /-- `x.Destroy()` (RawPointer.h:112-116) -/
  | destroyCall (x : Nat)
  /-- use of `*x` (RawPointer.h:60-76) -/
  | deref (x : Nat)
  /-- the end of the scope of `x`, which has no destructor -/
  | leave (x : Nat)

/-- `Reset(new_data)` (RawPointer.h:106-110). -/
def reset (w : World) (x : Nat) (data newData : Option Nat) : Res World := do
  let h ← w.heap.delete data
  return { heap := h, vars := w.vars.set x newData }

def step (w : World) : Op → Res World
  | .make x =>
    if (w.vars.lookup x).isSome then .ok w
    else .ok { heap := w.heap.new.1, vars := (x, w.heap.new.2) :: w.vars }
  | .makeEmpty x => if (w.vars.lookup x).isSome then .ok w else .ok { w with vars := (x, none) :: w.vars }
  | .copy x y =>
    match w.vars.lookup x, w.vars.lookup y with
    | none, some d => .ok { w with vars := (x, d) :: w.vars }
    | _, _ => .ok w
  | .assign x y =>
    match w.vars.lookup x, w.vars.lookup y with
    | some _, some d => .ok { w with vars := w.vars.set x d }
    | _, _ => .ok w
  | .assignNew x =>
    match w.vars.lookup x with
    | some _ => .ok { heap := w.heap.new.1, vars := w.vars.set x w.heap.new.2 }
    | none => .ok w
  | .reset x =>
    match w.vars.lookup x with
    | some d => reset w x d none
    | none => .ok w
  | .resetNew x =>
    match w.vars.lookup x with
    | some d => reset { w with heap := w.heap.new.1 } x d w.heap.new.2
    | none => .ok w
  | .resetSelf x =>
    match w.vars.lookup x with
    | some d => reset w x d d
    | none => .ok w
  | .destroyCall x =>
    match w.vars.lookup x with
    | some d => do
      let h ← w.heap.delete d
      return { heap := h, vars := w.vars.set x none }
    | none => .ok w
  | .deref x =>
    match w.vars.lookup x with
    | some d => caught (w.heap.deref d) w
    | none => .ok w
  | .leave x => .ok { w with vars := w.vars.drop x }

def run : World → List Op → Res World
  | w, [] => .ok w
  | w, op :: ops => do run (← step w op) ops

end Raw
end Caitlyn
