import Verif.Model.JsonThreads

/-!
# Specification: data races on the nodes of a JSON value, and queries that only read
-/

namespace Caitlyn.Spec
open JsonThreads
variable {F : Type}

/-- The memory locations: the members `type_` and `data_` of each node. -/
inductive NodePart where
  | type (p : List Nat)
  | data (p : List Nat)

/-- What a step reads. -/
def StepReads (e : Ev) : NodePart → Prop
  | .type p => match e.step with
    | .setObject | .setArray => p = e.pos
    | .answer (.print _ _) => e.pos <+: p
    | .answer _ => p = e.pos
    | _ => False
  | .data p => match e.step with
    | .setObject | .setArray => False
    | .answer .type => False
    | .answer (.print _ _) => e.pos <+: p
    | _ => p = e.pos

/-- What a step writes: a change of the type destroys all below. -/
def StepWrites (e : Ev) : NodePart → Prop
  | .type p => e.wrote = true ∧ (match e.step with
    | .setObject | .setArray => e.pos <+: p
    | _ => False)
  | .data p => e.wrote = true ∧ (match e.step with
    | .setObject | .setArray => e.pos <+: p
    | _ => p = e.pos)

/-- A data race: two threads use a location, one writes it. As there is no synchronization, no use happens before one of another
thread. -/
def DataRace (tr : List Ev) : Prop :=
  ∃ e ∈ tr, ∃ e' ∈ tr, e.thread ≠ e'.thread ∧ ∃ l, StepWrites e l ∧ (StepReads e' l ∨ StepWrites e' l)

/-- What the lookups find in a value without changing it: `none` if they would change it or are undefined, `some none` if they
throw. -/
def lookFor : Json F → List Seek → Option (Option (Json F))
  | v, [] => some (some v)
  | .obj ms, .key k :: ss => match Json.findMember k ms with
    | some w => lookFor w ss
    | none => none
  | .arr js, .index i :: ss => match js[i]? with
    | some w => lookFor w ss
    | none => none
  | .obj ms, .atKey k :: ss => match Json.findMember k ms with
    | some w => lookFor w ss
    | none => some none
  | .arr js, .atIndex i :: ss => match js[i]? with
    | some w => lookFor w ss
    | none => some none
  | _, _ :: _ => none

/-- The query only reads. -/
def OnlyReads (v : Json F) (q : Query) : Prop := (lookFor v q.path).isSome

/-- The answer to a query that only reads. -/
def answerOf (ops : FloatOps F) (v : Json F) (q : Query) : Out F :=
  match lookFor v q.path with
  | some (some w) => q.last.of ops w
  | _ => .outOfRange

/-- `operator[](key)` changes the value: it is no object or has no such member. -/
def Absent (v : Json F) (k : Str) : Prop := ∀ ms, v = .obj ms → Json.findMember k ms = none

/-- What a query does when nothing else happens: the value after it, and the answer. `operator[]` makes the value an object or an
array, which empties it if it was none, and adds a member `null` if there is no member with the key. -/
def ask (ops : FloatOps F) (l : Last) : List Seek → Json F → Res (Json F × Out F)
  | [], v => .ok (v, l.of ops v)
  | .key k :: ss, v =>
    match v.members.findIdx? (fun m => m.1 == k) with
    | some i =>
      match v.members[i]? with
      | some m => (ask ops l ss m.2).map fun r => (.obj (v.members.set i (m.1, r.1)), r.2)
      | none => .error .ub
    | none => (ask ops l ss .null).map fun r => (.obj (v.members ++ [(k, r.1)]), r.2)
  | .index i :: ss, v =>
    match v.items[i]? with
    | some w => (ask ops l ss w).map fun r => (.arr (v.items.set i r.1), r.2)
    | none => .error .ub
  | .atKey k :: ss, .obj ms =>
    match ms.findIdx? (fun m => m.1 == k) with
    | some i =>
      match ms[i]? with
      | some m => (ask ops l ss m.2).map fun r => (.obj (ms.set i (m.1, r.1)), r.2)
      | none => .error .ub
    | none => .ok (.obj ms, .outOfRange)
  | .atIndex i :: ss, .arr js =>
    match js[i]? with
    | some w => (ask ops l ss w).map fun r => (.arr (js.set i r.1), r.2)
    | none => .ok (.arr js, .outOfRange)
  | _ :: _, _ => .error .ub

/-- Queries one after the other. -/
def askAll (ops : FloatOps F) : List Query → Json F → Res (Json F × List (Out F))
  | [], v => .ok (v, [])
  | q :: qs, v => do
    let (v, o) ← ask ops q.last q.path v
    let (v, os) ← askAll ops qs v
    return (v, o :: os)

end Caitlyn.Spec
