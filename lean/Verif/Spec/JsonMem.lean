import Verif.Spec.JsonStore

/-! # Specification: the steps of copying a JSON value that may run out of memory -/

namespace Caitlyn.Spec
variable {F : Type}

mutual
/-- How many steps of copying a value may allocate: one for the node, one for a string, one for an array and one for each element. -/
def work : Json F → Nat
  | .str _ => 2
  | .arr js => 2 + workList js
  | .obj ms => 1 + workMembers ms
  | _ => 1
/-- For the items of an array. -/
def workList : List (Json F) → Nat
  | [] => 0
  | j :: js => work j + 1 + workList js
/-- For the members of an object. -/
def workMembers : List (Str × Json F) → Nat
  | [] => 0
  | (_, j) :: ms => work j + 1 + workMembers ms
end

/-- None of the steps from `a` up to `b` fails. -/
def Clear (fails : Nat → Bool) (a b : Nat) : Prop := ∀ i, a ≤ i → i < b → fails i = false

/-- The value has an item or a member. -/
def HasParts : Json F → Prop
  | .arr js => js ≠ []
  | .obj ms => ms ≠ []
  | _ => False

end Caitlyn.Spec
