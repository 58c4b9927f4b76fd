import Verif.Model.Ptr

/-!
# `SharedPtr` in several threads (SharedPointer.h)

Each thread has its own `SharedPtr` variables; pointers of different threads may share objects and counters. The atomic
steps are the operations on a counter (SharedPointer.h:46, 76, 155) together with what the thread then does to its own
variable, which no other thread can see. Every statement has one such step except the copy assignment
(SharedPointer.h:67-80), which has two, `Release` and `fetch_add`; between them the variable is taken to be empty (it
still holds the old pointers, but only its own thread could read it, and that thread overwrites it next).
Not modelled: several threads using the same variable, which is a data race.
-/

namespace Caitlyn.Threads
open Caitlyn Shared

/-- The world shared by all and what each thread has still to do. -/
structure State where
  w : World
  todo : List (List Op)

/-- One atomic step of the statement `op`: the world after it, and whether the statement is finished. -/
def atom (w : World) (op : Op) : Res (World × Bool) :=
  match op with
  | .assign x y =>
    match w.vars.lookup x, w.vars.lookup y with
    | some px, some _ =>
      if x ≠ y ∧ px.data ≠ none then do
        let (h, cs) ← release w.heap w.counters px
        return ({ heap := h, counters := cs, vars := w.vars.set x {} }, false)
      else do return (← step w op, true)
    | _, _ => do return (← step w op, true)
  | _ => do return (← step w op, true)

/-- Thread `i` makes a step; nothing happens if it has finished. -/
def tick (s : State) (i : Nat) : Res State :=
  match s.todo[i]? with
  | some (op :: rest) => do
    let (w, finished) ← atom s.w op
    return ⟨w, if finished then s.todo.set i rest else s.todo⟩
  | _ => .ok s

/-- The threads run as the schedule says. -/
def run : State → List Nat → Res State
  | s, [] => .ok s
  | s, i :: is => do run (← tick s i) is

end Caitlyn.Threads
