import Verif.Model.PtrEq

/-!
# Pointers of the language beside owning pointers

The constructors of `UniquePtr`, `SharedPtr` and `WeakPtr` with one parameter are not `explicit` (UniquePointer.h:37, SharedPointer.h:40,
WeakPointer.h:39). Where an owner is expected and a plain pointer `T*` is given, the compiler makes a temporary owner of the object,
which is destroyed at the end of the statement: in `x == r` and `x != r` for a plain pointer `r` (from C++20 on also in `r == x`), and in
calls of functions that take an owner by value or by reference to const. A `WeakPtr` cannot be made from a `T*` in this way, since that
takes two conversions, but it can from a `SharedPtr`.

Not modelled: arithmetic on plain pointers, `delete r`.
-/

namespace Caitlyn.PtrTemp
open Caitlyn

/-! ## `UniquePtr` -/

/-- The variables of type `UniquePtr<T>` and their objects, the plain pointers, and the results of the comparisons, the last one
first. -/
structure World where
  objs : Unique.World := {}
  plain : Vars (Option Nat) := []
  log : List Bool := []
  deriving DecidableEq

inductive Op where
  /-- a statement about variables of type `UniquePtr<T>` alone -/
  | owner (op : Unique.Op)
  /-- `T* r = x.Get();` (UniquePointer.h:91-94) -/
  | get (r x : Nat)
  /-- `T* r = new T;` -/
  | fresh (r : Nat)
  /-- `T* r = nullptr;` -/
  | null (r : Nat)
  /-- use of `*r` -/
  | use (r : Nat)
  /-- `UniquePtr<T> x{r};` (UniquePointer.h:37-39) -/
  | adopt (x r : Nat)
  /-- `x == r` (UniquePointer.h:97-100) -/
  | equal (x r : Nat)
  /-- `x != r` (UniquePointer.h:102-105) -/
  | unequal (x r : Nat)
  /-- `f(r)` for a function `f` that takes a `const UniquePtr<T>&` and does nothing -/
  | pass (r : Nat)

/-- A new value of the plain pointer `r`. -/
def point (w : World) (r : Nat) (p : Option Nat) : World := { w with plain := (r, p) :: w.plain.drop r }

/-- The temporary owner of `p` is destroyed (UniquePointer.h:48-51). -/
def temporary (w : World) (p : Option Nat) : Res World := do
  let h ← w.objs.heap.delete p
  return { w with objs := { w.objs with heap := h } }

def step (w : World) : Op → Res World
  | .owner op => do return { w with objs := ← Unique.step w.objs op }
  | .get r x =>
    match w.objs.vars.lookup x with
    | some d => .ok (point w r (Unique.get d))
    | none => .ok w
  | .fresh r => .ok (point { w with objs := { w.objs with heap := w.objs.heap.new.1 } } r w.objs.heap.new.2)
  | .null r => .ok (point w r none)
  | .use r =>
    match w.plain.lookup r with
    | some (some d) => if d ∈ w.objs.heap.live then .ok w else .error .ub
    | some none => .error .ub
    | none => .ok w
  | .adopt x r =>
    match w.objs.vars.lookup x, w.plain.lookup r with
    | none, some p => .ok { w with objs := { w.objs with vars := (x, p) :: w.objs.vars } }
    | _, _ => .ok w
  | .equal x r =>
    match w.objs.vars.lookup x, w.plain.lookup r with
    | some d, some p => temporary { w with log := Unique.eq d p :: w.log } p
    | _, _ => .ok w
  | .unequal x r =>
    match w.objs.vars.lookup x, w.plain.lookup r with
    | some d, some p => temporary { w with log := Unique.ne d p :: w.log } p
    | _, _ => .ok w
  | .pass r =>
    match w.plain.lookup r with
    | some p => temporary w p
    | none => .ok w

def run : World → List Op → Res World
  | w, [] => .ok w
  | w, op :: ops => do run (← step w op) ops

/-! ## `SharedPtr` and `WeakPtr` -/

/-- `x == r` for a `SharedPtr` and a plain pointer: the temporary has a counter of its own (SharedPointer.h:40-42, 121-124, 55-58). -/
def sharedEqual (w : Shared.World) (p : Shared.Ptr) (r : Option Nat) : Res (Shared.World × Bool) := do
  let (cs, t) := Shared.own w.counters r
  let b := Shared.eq p t
  let (h, cs) ← Shared.release w.heap cs t
  return ({ w with heap := h, counters := cs }, b)

/-- `y == x` for a `WeakPtr` and a `SharedPtr`: the temporary `WeakPtr` holds a copy of `x` (WeakPointer.h:39-41, 90-93,
SharedPointer.h:44-47). -/
def weakEqual (w : Shared.World) (y x : Shared.Ptr) : Res (Shared.World × Bool) := do
  let cs ← Shared.fetchAdd w.counters x.count
  let b := Shared.eq y x
  let (h, cs) ← Shared.release w.heap cs x
  return ({ w with heap := h, counters := cs }, b)

end Caitlyn.PtrTemp
