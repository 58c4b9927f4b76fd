import Verif.Model.JsonMemProg
import Verif.Spec.JsonMem

/-! # What programs that build JSON values should do -/

namespace Caitlyn.Spec
open JsonMem
variable {F : Type}

/-- The members of an object; other values have none. -/
def membersOf : Json F → List (Str × Json F)
  | .obj ms => ms
  | _ => []

/-- The items of an array; other values have none. -/
def itemsOf : Json F → List (Json F)
  | .arr js => js
  | _ => []

/-- The object with the members of a value and one with the key. -/
def keyed (key : Str) (j : Json F) : Json F :=
  if key ∈ (membersOf j).map Prod.fst then .obj (membersOf j) else .obj (membersOf j ++ [(key, .null)])

/-- The object with the members of a value and a value for the key. -/
def withMember (key : Str) (v j : Json F) : Json F := .obj (Json.setMember key v (membersOf j))

/-- What a statement does to the variables if memory does not run out. -/
def built (vars : List (Json F)) : Stmt F → List (Json F)
  | .scalar x v => vars.modify x fun _ => v.json
  | .text x s => vars.modify x fun _ => .str s
  | .member x key => vars.modify x (keyed key)
  | .memberScalar x key v => vars.modify x (withMember key v.json)
  | .append x y => ((vars[y]?).map fun v => vars.modify x fun j => .arr (itemsOf j ++ [v])).getD vars
  | .assign x y => ((vars[y]?).map fun v => vars.modify x fun _ => v).getD vars
  | .move x y =>
    ((vars[y]?).map fun v =>
      if x = y ∨ vars.length ≤ x then vars else (vars.modify x fun _ => v).set y .null).getD vars

/-- The nodes of the variables. -/
def totalNodes (vars : Vars F) : Nat := (vars.map Held.nodes).sum

/-- The variable a statement changes. -/
def changed : Stmt F → Nat
  | .scalar x _ | .text x _ | .member x _ | .memberScalar x _ _ | .append x _ | .assign x _ | .move x _ => x

/-- The statement does not change the type of the value: an object gets a member, an array an item, a text a text. -/
def SameType (vars : Vars F) : Stmt F → Prop
  | .text x _ => ∃ s, vars[x]? = some (.value (.str s))
  | .member x _ => ∃ ms, vars[x]? = some (.value (.obj ms))
  | .memberScalar x _ _ => ∃ ms, vars[x]? = some (.value (.obj ms))
  | .append x _ => ∃ js, vars[x]? = some (.value (.arr js))
  | .scalar _ _ => True
  | .move _ _ => True
  | .assign _ _ => False

end Caitlyn.Spec
