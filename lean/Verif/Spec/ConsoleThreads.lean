import Verif.Model.ConsoleThreads

/-!
# Specification: data races on the standard streams

`Application` turns `sync_with_stdio` off in every program that includes the library; then the standard streams are ordinary
objects, and using one in two threads without an order between the uses is a data race, hence undefined
([intro.races], [iostream.objects.overview]).
-/

namespace Caitlyn.Spec
open ConsoleThreads

/-- The step `i` of a trace happens before the step `j`: by the order in a thread, and because a mutex was unlocked and then
locked. -/
inductive Before (tr : List (Nat × Ev)) : Nat → Nat → Prop where
  | order {i j t e e'} : i < j → tr[i]? = some (t, e) → tr[j]? = some (t, e') → Before tr i j
  | mutex {i j t t' m} : i < j → tr[i]? = some (t, .unlock m) → tr[j]? = some (t', .lock m) → Before tr i j
  | trans {i j k} : Before tr i j → Before tr j k → Before tr i k

/-- The trace has a data race: two operations of two threads use the same stream, and neither happens before the other. -/
def Race (tr : List (Nat × Ev)) : Prop :=
  ∃ (i j s t : Nat) (a b : Op) (x : Object), i < j ∧ s ≠ t ∧ tr[i]? = some (s, .op a) ∧ tr[j]? = some (t, .op b) ∧ x ∈ a.objects ∧
    x ∈ b.objects ∧ ¬ Before tr i j

/-- The streams that a call uses. -/
def streams : Call → List Object
  | .write s _ | .writeLine s _ | .newLine s => s.objects
  | .readLine _ => [.cin, .sink .out]

/-- The calls of a thread, in their order. -/
def callsOf : List Act → List Call
  | [] => []
  | .call c :: as => c :: callsOf as
  | _ :: as => callsOf as

/-- The thread makes all its calls while it holds the mutex `m`; `f` says whether it holds it at the beginning. -/
def Guarded (m : Nat) : Bool → List Act → Prop
  | _, [] => True
  | f, .call _ :: as => f = true ∧ Guarded m f as
  | f, .lock n :: as => Guarded m (if n = m then true else f) as
  | f, .unlock n :: as => Guarded m (if n = m then false else f) as

/-- The text that a call writes to a stream. -/
def callText (s : Sink) : Call → List UInt8
  | .write s' t => if s' = s then Str.str t else []
  | .writeLine s' t => if s' = s then Str.str t ++ [0x0A] else []
  | .newLine s' => if s' = s then [0x0A] else []
  | .readLine m => if s = .out then Str.str m else []

/-- The threads' calls, put in some order that keeps the order of each thread. -/
def CallOrder (ps : Nat → List Act) (order : List (Nat × Call)) : Prop :=
  ∀ t, (order.filter fun c => c.1 = t).map Prod.snd = callsOf (ps t)

end Caitlyn.Spec
