import Verif.Model.Expected

/-!
# Specification of the lifetime of `Expected` variables

What becomes of the variables, written without objects, unions or flags: a variable does not exist (`none`), holds a
value or an error (`some (some true)`, `some (some false)`), or is broken (`some none`): an assignment to it threw after
its old contents had been destroyed.
-/

namespace Caitlyn.Spec

abbrev Health := Nat → Option (Option Bool)

def Health.put (s : Health) (x : Nat) (a : Option (Option Bool)) : Health := fun y => if y = x then a else s y

/-- The state after a statement; `none` if the statement uses a broken variable. -/
def healthStep (s : Health) : Lifetime.Op → Option Health
  | .make x isValue throws => some (if s x = none ∧ throws = false then s.put x (some (some isValue)) else s)
  | .make_from x y throws =>
    match s x, s y with
    | none, some none => none
    | none, some (some b) => some (if throws then s else s.put x (some (some b)))
    | _, _ => some s
  | .assign x y throws =>
    if x = y then some s
    else
      match s x, s y with
      | some (some _), some (some b) => some (s.put x (some (if throws then none else some b)))
      | some _, some _ => none
      | _, _ => some s
  | .destroy x => if s x = some none then none else some (s.put x none)

/-- The state after a history; `none` if a broken variable is used. -/
def healthRun (s : Health) : List Lifetime.Op → Option Health
  | [] => some s
  | op :: ops => (healthStep s op).bind fun s => healthRun s ops

end Caitlyn.Spec
