import Verif.Model.JsonData

/-!
# Model of copying a `JsonData` when memory may run out (__Serializing/Json/Types/JsonData.h)

The model of `Verif/Model/JsonNodes.lean` has memory without end. Here every step that may allocate is numbered, in the order
in which the steps are tried, and `fails i` says that step `i` throws `std::bad_alloc`. The steps are: `new JsonData`, copying
a string, making an empty `std::deque` (its constructor allocates in the usual implementations; a `std::vector`'s does not),
and adding an element to a container, which may copy a key. A step that happens not to allocate is one that does not fail.
The state counts the steps tried and the nodes that exist.
-/

namespace Caitlyn.JsonMem
variable {F : Type}

/-- The steps tried so far and the nodes that exist. -/
structure Mem where
  tries : Nat
  nodes : Nat
  deriving DecidableEq, Repr

/-- A step that may allocate. -/
def attempt (fails : Nat → Bool) (m : Mem) : Bool × Mem := (!fails m.tries, { m with tries := m.tries + 1 })

mutual
/-- `new JsonData{other}` (JsonData.h:54-57, 492, 499): if the constructor throws, the new-expression returns the memory of the node
itself; the union is not destroyed. -/
def copyNode (fails : Nat → Bool) : Json F → Mem → Bool × Mem
  | j, m =>
    match attempt fails m with
    | (false, m) => (false, m)
    | (true, m) =>
      match copyUnion fails j { m with nodes := m.nodes + 1 } with
      | (true, m) => (true, m)
      | (false, m) => (false, { m with nodes := m.nodes - 1 })
/-- `CopyUnion` (JsonData.h:469-505). -/
def copyUnion (fails : Nat → Bool) : Json F → Mem → Bool × Mem
  | .str _, m => attempt fails m
  | .arr js, m =>
    match attempt fails m with
    | (false, m) => (false, m)
    | (true, m) => ((copyItems fails js m).1, (copyItems fails js m).2.2)
  | .obj ms, m => ((copyMembers fails ms m).1, (copyMembers fails ms m).2.2)
  | _, m => (true, m)
/-- The loop over the items (JsonData.h:490-493), with the number of items copied: if `emplace_back` throws, nothing refers to the
node made for it. -/
def copyItems (fails : Nat → Bool) : List (Json F) → Mem → Bool × Nat × Mem
  | [], m => (true, 0, m)
  | j :: js, m =>
    match copyNode fails j m with
    | (false, m) => (false, 0, m)
    | (true, m) =>
      match attempt fails m with
      | (false, m) => (false, 0, m)
      | (true, m) =>
        match copyItems fails js m with
        | (b, k, m) => (b, k + 1, m)
/-- The loop over the members (JsonData.h:497-500). -/
def copyMembers (fails : Nat → Bool) : List (Str × Json F) → Mem → Bool × Nat × Mem
  | [], m => (true, 0, m)
  | (_, j) :: ms, m =>
    match copyNode fails j m with
    | (false, m) => (false, 0, m)
    | (true, m) =>
      match attempt fails m with
      | (false, m) => (false, 0, m)
      | (true, m) =>
        match copyMembers fails ms m with
        | (b, k, m) => (b, k + 1, m)
end

mutual
/-- The nodes released by `DestroyUnion` (JsonData.h:539-560). -/
def released : Json F → Nat
  | .arr js => releasedItems js
  | .obj ms => releasedMembers ms
  | _ => 0
/-- `delete item` for each item (JsonData.h:544-547): the node and what its destructor releases. -/
def releasedItems : List (Json F) → Nat
  | [] => 0
  | j :: js => 1 + released j + releasedItems js
/-- `delete item.second` for each member (JsonData.h:551-554). -/
def releasedMembers : List (Str × Json F) → Nat
  | [] => 0
  | (_, j) :: ms => 1 + released j + releasedMembers ms
end

/-- What a variable holds after an assignment that threw: a value, or a union without an object of its type, so that reading
it, assigning a text to it or destroying an array is undefined. -/
inductive Held (F : Type) where
  | value (j : Json F)
  | nothing (type : JsonClass)

/-- `operator=(const JsonData&)` on another object (JsonData.h:100-109): the old value is destroyed and the type is set before
anything is copied. -/
def assign (fails : Nat → Bool) (target source : Json F) (m : Mem) : Bool × Held F × Mem :=
  let m := { m with nodes := m.nodes - released target }
  match source with
  | .str s =>
    match attempt fails m with
    | (false, m) => (false, .nothing .string, m)
    | (true, m) => (true, .value (.str s), m)
  | .arr js =>
    match attempt fails m with
    | (false, m) => (false, .nothing .array, m)
    | (true, m) =>
      match copyItems fails js m with
      | (b, k, m) => (b, .value (.arr (js.take k)), m)
  | .obj ms =>
    match copyMembers fails ms m with
    | (b, k, m) => (b, .value (.obj (ms.take k)), m)
  | j => (true, .value j, m)

end Caitlyn.JsonMem
