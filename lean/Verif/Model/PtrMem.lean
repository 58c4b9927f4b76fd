import Verif.Model.Ptr

/-!
# Model of `SharedPtr` when `new Counter` throws (__Core/Memory/Types/SharedPointer.h)

`Verif/Model/Ptr.lean` has memory without end. Here the two functions that make a counter may fail; the program catches
`std::bad_alloc` and goes on. Everything else is as there.
-/

namespace Caitlyn.SharedMem
open Shared

inductive Op where
  /-- an operation that does not run out of memory -/
  | done (op : Shared.Op)
  /-- `SharedPtr x{new T}` where `new Counter(1)` throws (SharedPointer.h:40): the object exists, `x` does not -/
  | makeFails (x : Nat)
  /-- `x.Reset(new T)` where `new Counter(1)` throws (SharedPointer.h:142-150) -/
  | resetFails (x : Nat)

/-- `Reset(data)` up to the exception (SharedPointer.h:146-148): `data_` is the new pointer, `ref_count_` the old one. -/
def resetThrown (h : Heap) (cs : List (Option Nat)) (p : Ptr) (data : Option Nat) : Res (Heap × List (Option Nat) × Ptr) :=
  if p.data ≠ data then do
    let (h, cs) ← release h cs p
    return (h, cs, { p with data := data })
  else .ok (h, cs, p)

def step (w : World) : Op → Res World
  | .done op => Shared.step w op
  | .makeFails _ => .ok { w with heap := w.heap.new.1 }
  | .resetFails x =>
    match w.vars.lookup x with
    | some p => do
      let (h, cs, p) ← resetThrown w.heap.new.1 w.counters p w.heap.new.2
      return { heap := h, counters := cs, vars := w.vars.set x p }
    | none => .ok w

def run : World → List Op → Res World
  | w, [] => .ok w
  | w, op :: ops => do run (← step w op) ops

end Caitlyn.SharedMem
