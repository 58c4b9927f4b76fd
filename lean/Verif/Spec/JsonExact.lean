import Verif.Spec.JsonStore

/-!
# Specification: what every statement on `JsonData` variables does, overlapping assignments and `RemoveMember` included

As `Verif/Spec/JsonStore.lean`, still without nodes, pointers or memory, but not what the statements should mean: what
they do. An assignment of a part of a value to the value is undefined. An assignment of a value to a part of it gives
something else than the value. `RemoveMember`, and moving a value into a part of it, lose values: they are released by
nothing.
-/

namespace Caitlyn.Spec
open JsonNodes

variable {F : Type}

/-- What the part at a path of a value becomes when the value is copied to it: while the items are copied one by one,
the part holds the copies made so far, and that is what is copied when its own turn comes. -/
def absorbed : List Step → Json F → Json F
  | .index i :: r, .arr js => .arr (js.modify i (put (.arr (js.take i)) r))
  | .key k :: r, .obj ms => .obj (changeKey k (put (.obj (ms.takeWhile fun m => decide (m.1 ≠ k))) r) ms)
  | _, j => j

/-- What comes of a statement: undefined behaviour, or the values of the variables and the number of `JsonData` that are
no part of any variable any more, but have not been released. -/
inductive Outcome (F : Type) where
  | undefined
  | done (vars : List (Json F)) (lost : Nat)

/-- What a statement does; `none` if a place does not exist. -/
def effect (vars : List (Json F)) : Act F → Option (Outcome F)
  | .stmt (.assign p q) =>
    (look vars p).bind fun _ => (look vars q).map fun v =>
      if p = q then .done vars 0
      else if p <+: q then .undefined
      else if q <+: p then .done (store vars p (absorbed (p.drop q.length) v)) 0
      else .done (store vars p v) 0
  | .stmt (.moveAssign p q) =>
    (look vars p).bind fun w => (look vars q).map fun v =>
      if p = q then .done vars 0
      else if p <+: q then .undefined
      else if q <+: p then .done (store vars q .null) (nodes v - nodes w)
      else .done (store (store vars q .null) p v) 0
  | .stmt s => (meaning vars s).map fun vars => .done vars 0
  | .remove i key => vars[i]?.map fun v =>
    match v with
    | .obj ms => .done (vars.set i (.obj (ms.filter fun m => !decide (m.1 = key))))
        (nodesMembers (ms.filter fun m => decide (m.1 = key)))
    | _ => .done vars 0

/-- What a program does, when `lost` values have been lost before. -/
def effects (vars : List (Json F)) (lost : Nat) : List (Act F) → Option (Outcome F)
  | [] => some (.done vars lost)
  | a :: as =>
    match effect vars a with
    | none => none
    | some .undefined => some .undefined
    | some (.done vars' l) => effects vars' (lost + l) as

/-- The variables of a program are in memory, with their values, and `lost` nodes more. -/
structure MemoryAnd (h : Heap F) (vars : List (Json F)) (lost : Nat) : Prop where
  values : ∃ ids, h.cells 0 = some (.arr ids) ∧ ids.length = vars.length ∧
    ∀ (n y : Nat) (j : Json F), ids[n]? = some y → vars[n]? = some j → Holds h y j
  nodes : ∃ alive : List Nat, alive.Nodup ∧ (∀ x, x ∈ alive ↔ h.cells x ≠ none) ∧
    alive.length = 1 + nodesList vars + lost

end Caitlyn.Spec
