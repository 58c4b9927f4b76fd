import Verif.Model.ExpectedParts

/-!
# Specification: variables of a recursive sum type

A variable holds a tree: a name and trees, or an error. Assigning copies the tree that the right side has before the assignment.
-/

namespace Caitlyn.Spec.Nested
open Caitlyn

inductive SumTree (N E : Type) where
  | node (name : N) (kids : List (SumTree N E))
  | fail (e : E)

variable {N E : Type}

/-- The part of a tree at the end of a path. -/
def SumTree.part (t : SumTree N E) : List Nat → Option (SumTree N E)
  | [] => some t
  | i :: path =>
    match t with
    | .node _ kids => if h : i < kids.length then kids[i].part path else none
    | .fail _ => none

abbrev SumState (N E : Type) := Nat → Option (SumTree N E)

/-- The tree at a place. -/
def treeAt (v : SumState N E) (p : Parts.Place) : Option (SumTree N E) := (v p.var).bind fun t => t.part p.path

/-- The trees at places. -/
def treesAt (v : SumState N E) : List Parts.Place → Option (List (SumTree N E))
  | [] => some []
  | p :: ps => do return (← treeAt v p) :: (← treesAt v ps)

/-- What a statement does: the variable it writes and what it then holds; `none`: it throws and does nothing. -/
def sumWrites (v : SumState N E) : Parts.Op N E → Option (Nat × Option (SumTree N E))
  | .makeValue x n kids => do return (x, some (.node n (← treesAt v kids)))
  | .makeError x e => some (x, some (.fail e))
  | .makeFrom x p | .assign x p => do return (x, some (← treeAt v p))
  | .drop x => some (x, none)

def after (v : SumState N E) (op : Parts.Op N E) : SumState N E :=
  match sumWrites v op with
  | some (x, t) => fun y => if y = x then t else v y
  | none => v

/-- Variables are declared before they are used and only once. -/
def Scoped (v : SumState N E) : Parts.Op N E → Prop
  | .makeValue x _ kids => v x = none ∧ ∀ p ∈ kids, v p.var ≠ none
  | .makeError x _ => v x = none
  | .makeFrom x p => v x = none ∧ v p.var ≠ none
  | .assign x p => v x ≠ none ∧ v p.var ≠ none
  | .drop x => v x ≠ none

def ScopedAll (v : SumState N E) : List (Parts.Op N E) → Prop
  | [] => True
  | op :: ops => Scoped v op ∧ ScopedAll (after v op) ops

/-- The statement assigns to a variable a proper part of what it holds. -/
def OwnPart (v : SumState N E) : Parts.Op N E → Prop
  | .assign x p => p.var = x ∧ p.path ≠ [] ∧ (treeAt v p).isSome
  | _ => False

/-- Some statement of the program does so. -/
def SomeOwnPart (v : SumState N E) : List (Parts.Op N E) → Prop
  | [] => False
  | op :: ops => OwnPart v op ∨ SomeOwnPart (after v op) ops

def afterAll (v : SumState N E) (ops : List (Parts.Op N E)) : SumState N E := ops.foldl after v

mutual

/-- The object that holds a tree. -/
def objOf : SumTree N E → Parts.Obj N E
  | .node n kids => .value true n (objsOf kids)
  | .fail e => .error false e

def objsOf : List (SumTree N E) → List (Parts.Obj N E)
  | [] => []
  | t :: ts => objOf t :: objsOf ts

end

/-- Each variable holds its tree. -/
def storeOf (v : SumState N E) : Parts.Vars N E := fun x => (v x).map objOf

end Caitlyn.Spec.Nested
