import Verif.Spec.JsonStore
import Verif.Model.JsonRefs

/-!
# Specification: references are places

A reference is a place, a variable and a path, or dangles. No nodes and no memory: a statement leaves a reference where it
is, takes it along when the value around it is moved, or leaves it dangling when the value around it is overwritten or destroyed.
-/

namespace Caitlyn.Spec
open JsonNodes

variable {F : Type}

/-- The place `p` is inside the place `q`: a proper part of it. -/
def PartOf (q p : List Step) : Prop := q <+: p ∧ q ≠ p

instance (q p : List Step) : Decidable (PartOf q p) := inferInstanceAs (Decidable (_ ∧ _))

/-- Where the place `p` is after a statement; `none` if it is nowhere. -/
def track (vars : List (Json F)) (p : List Step) : Stmt F → Option (List Step)
  | .declare _ | .declareCopy _ => some p
  | .declareMove q => if PartOf q p then some (.index vars.length :: p.drop q.length) else some p
  | .leave => if p.head? = some (.index (vars.length - 1)) then none else some p
  | .set q _ => if PartOf q p then none else some p
  | .assign q s => if q = s then some p else if PartOf q p then none else some p
  | .moveAssign q s =>
    if q = s then some p else if PartOf q p then none
    else if PartOf s p then some (q ++ p.drop s.length) else some p
  | .touch q _ => if PartOf q p ∧ (look vars q).map Json.type ≠ some .object then none else some p
  | .append q _ => if PartOf q p ∧ (look vars q).map Json.type ≠ some .array then none else some p

/-- The place of a place: `none` if it names a reference that is not bound, `some none` if the reference dangles. -/
def target (refs : List (Option (List Step))) : Place → Option (Option (List Step))
  | .var p => some (some p)
  | .ref k r => refs[k]?.map fun p => p.map (· ++ r)

def stmt1 : Unary F → List Step → Stmt F
  | .declareCopy, q => .declareCopy q
  | .declareMove, q => .declareMove q
  | .set v, p => .set p v
  | .touch key, p => .touch p key

def stmt2 : Binary → List Step → List Step → Stmt F
  | .assign, p, q => .assign p q
  | .moveAssign, p, q => .moveAssign p q
  | .append, p, q => .append p q

/-- What comes of a statement: undefined behaviour, or the values of the variables and the places of the references. -/
inductive ROutcome (F : Type) where
  | undefined
  | done (vars : List (Json F)) (refs : List (Option (List Step)))

/-- A statement on places. -/
def onPlaces (vars : List (Json F)) (refs : List (Option (List Step))) (s : Stmt F) : Option (ROutcome F) :=
  (meaning vars s).map fun vars' => .done vars' (refs.map fun p => p.bind fun p => track vars p s)

/-- A dangling reference may be bound again, which looks at nothing; a part of what it refers to may not. -/
def rebind (vars : List (Json F)) (refs : List (Option (List Step))) : Place → ROutcome F
  | .ref _ (_ :: _) => .undefined
  | _ => .done vars (refs ++ [none])

/-- What a statement means: undefined if it uses a dangling reference, otherwise what it means for the places. `none` if a
place does not exist, for an assignment between a value and a proper part of it, and if both places are dangling. -/
def rmeaning (vars : List (Json F)) (refs : List (Option (List Step))) : RStmt F → Option (ROutcome F)
  | .bind p =>
    match target refs p with
    | none => none
    | some none => some (rebind vars refs p)
    | some (some p) => (look vars p).map fun _ => .done vars (refs ++ [some p])
  | .declare v => onPlaces vars refs (.declare v)
  | .leave => onPlaces vars refs .leave
  | .one k p =>
    match target refs p with
    | none => none
    | some none => some .undefined
    | some (some p) => onPlaces vars refs (stmt1 k p)
  | .two k p q =>
    match target refs p, target refs q with
    | some (some p), some (some q) => onPlaces vars refs (stmt2 k p q)
    | some none, some (some q) => (look vars q).map fun _ => .undefined
    | some (some p), some none => (look vars p).map fun _ => .undefined
    | _, _ => none

/-- What a program means. -/
def rmeanings (vars : List (Json F)) (refs : List (Option (List Step))) : List (RStmt F) → Option (ROutcome F)
  | [] => some (.done vars refs)
  | s :: ss =>
    match rmeaning vars refs s with
    | none => none
    | some .undefined => some .undefined
    | some (.done vars refs) => rmeanings vars refs ss

/-- The references `xs` are where they should be: a reference to a place is the node of that place and holds its value; a
dangling one is not alive. -/
def Refs (h : Heap F) (vars : List (Json F)) (refs : List (Option (List Step))) (xs : List Nat) : Prop :=
  refs.length = xs.length ∧ ∀ (k : Nat) (o : Option (List Step)) (x : Nat), refs[k]? = some o → xs[k]? = some x →
    match o with
    | some p => ∃ v, look vars p = some v ∧ find h 0 p = .ok x ∧ Holds h x v
    | none => h.cells x = none

end Caitlyn.Spec
