import Verif.Model.PtrMem
import Verif.Props.Ptr

/-! # Property C132: `SharedPtr` when memory runs out -/

namespace Caitlyn
open Caitlyn.Spec SharedMem

/-- C132 for operations that do not fail: the histories are those of C69 to C71. -/
theorem C132_no_failure (ops : List Shared.Op) (w : Shared.World) : SharedMem.run w (ops.map .done) = Shared.run w ops := by
  induction ops generalizing w with
  | nil => rfl
  | cons op ops ih =>
    rw [List.map_cons, SharedMem.run, Shared.run, SharedMem.step]
    cases Shared.step w op with
    | error e => rfl
    | ok w' => exact ih w'

/-- C132 is false for construction: after every history, if `SharedPtr x{new T}` runs out of memory, no variable and no counter
changes, and the object just made stays in memory (`std::shared_ptr` deletes it). -/
theorem C132_make_fails (w : Shared.World) (x : Nat) :
    ∃ w', SharedMem.step w (.makeFails x) = .ok w' ∧ w'.vars = w.vars ∧ w'.counters = w.counters ∧
      w'.heap.live = w.heap.next :: w.heap.live ∧ w'.heap.dead = w.heap.dead :=
  ⟨_, rfl, rfl, rfl, rfl, rfl⟩

/-- C132 is false for `Reset`, exactly what a failing one does to a pointer that shares an object: the pointer has the new
object but still the counter of the old one, which it has decremented already. -/
theorem C132_reset_exact (w : Shared.World) (x : Nat) (p : Shared.Ptr) (c n : Nat) (hx : w.vars.lookup x = some p)
    (hc : p.count = some c) (hn : w.counters[c]? = some (some (n + 1))) (hd : ∀ d, p.data = some d → d < w.heap.next) :
    SharedMem.step w (.resetFails x) =
      .ok { heap := w.heap.new.1, counters := w.counters.set c (some (wsub (n + 1) 1)),
            vars := w.vars.set x ⟨some w.heap.next, some c⟩ } := by
  have hne : p.data ≠ w.heap.new.2 := by
    intro h
    have := hd w.heap.next h
    omega
  unfold SharedMem.step resetThrown
  simp only [hx]
  rw [if_pos hne]
  unfold Shared.release
  simp only [hc, hn]
  rw [if_neg (by omega)]
  rfl

/-- C132 is false: a program without any wrong use of pointers deletes an object that is still owned. Three pointers share an
object; `Reset` fails twice on the first, which then goes out of scope, as the second does; the third is left with a deleted object, and
using it is undefined. -/
theorem C132_fails :
    (SharedMem.run {} [.done (.make 0), .done (.copy 1 0), .done (.copy 2 0), .resetFails 0, .resetFails 0, .done (.destroy 0),
      .done (.destroy 1)]).map (fun w => (w.vars.map fun e => (e.1, e.2.data), w.heap.dead)) = .ok ([(2, some 0)], [0]) ∧
    SharedMem.run {} [.done (.make 0), .done (.copy 1 0), .done (.copy 2 0), .resetFails 0, .resetFails 0, .done (.destroy 0),
      .done (.destroy 1), .done (.deref 2)] = .error .ub := by
  decide

end Caitlyn
