import Verif.Model.JsonNodes

/-!
# Specification: variables with values

What the statements mean if `JsonData` has value semantics: a program has a list of variables, each with a tree as its
value; a statement changes the part of the variable it names and nothing else. No nodes, pointers or memory.
`none` where a place does not exist, and for an assignment between a value and a proper part of it.
-/

namespace Caitlyn.Spec
open JsonNodes

variable {F : Type}


/-- Change the first member with key `k`. -/
def changeKey (k : Str) (f : Json F → Json F) : List (Str × Json F) → List (Str × Json F)
  | [] => []
  | (k', v) :: ms => if k' = k then (k', f v) :: ms else (k', v) :: changeKey k f ms

/-- The part of a value at a path. -/
def part : List Step → Json F → Option (Json F)
  | [], j => some j
  | .key k :: p, .obj ms => (Json.findMember k ms).bind (part p)
  | .index i :: p, .arr js => js[i]?.bind (part p)
  | _, _ => none

/-- The value with the part at a path replaced. -/
def put (new : Json F) : List Step → Json F → Json F
  | [], _ => new
  | .key k :: p, .obj ms => .obj (changeKey k (put new p) ms)
  | .index i :: p, .arr js => .arr (js.modify i (put new p))
  | _, j => j

/-- The value at a place. -/
def look (vars : List (Json F)) : List Step → Option (Json F)
  | .index i :: p => vars[i]?.bind (part p)
  | _ => none

/-- The variables after a change of a place. -/
def store (vars : List (Json F)) (p : List Step) (new : Json F) : List (Json F) :=
  match p with
  | .index i :: p => vars.modify i (put new p)
  | _ => vars

/-- Neither place is a part of the other. -/
def Apart (p q : List Step) : Prop := ¬ p <+: q ∧ ¬ q <+: p

instance (p q : List Step) : Decidable (Apart p q) := inferInstanceAs (Decidable (_ ∧ _))

/-- The value of a scalar. -/
def value : Scalar F → Json F
  | .null => .null
  | .bool b => .bool b
  | .int i => .int i
  | .float f => .float f
  | .str s => .str s
  | .emptyArray => .arr []
  | .emptyObject => .obj []

/-- What `operator[](key)` does to a value. -/
def withKey (k : Str) : Json F → Json F
  | .obj ms => if k ∈ ms.map Prod.fst then .obj ms else .obj (ms ++ [(k, .null)])
  | _ => .obj [(k, .null)]

/-- What `Append` does to a value. -/
def withItem (v : Json F) : Json F → Json F
  | .arr js => .arr (js ++ [v])
  | _ => .arr [v]

/-- What a statement means. -/
def meaning (vars : List (Json F)) : Stmt F → Option (List (Json F))
  | .declare v => some (vars ++ [value v])
  | .declareCopy q => (look vars q).map fun v => vars ++ [v]
  | .declareMove q => (look vars q).map fun v => store vars q .null ++ [v]
  | .leave => if vars = [] then none else some vars.dropLast
  | .set p v => (look vars p).map fun _ => store vars p (value v)
  | .assign p q =>
    (look vars p).bind fun _ => (look vars q).bind fun v =>
      if p = q then some vars else if Apart p q then some (store vars p v) else none
  | .moveAssign p q =>
    (look vars p).bind fun _ => (look vars q).bind fun v =>
      if p = q then some vars else if Apart p q then some (store (store vars q .null) p v) else none
  | .touch p key => (look vars p).map fun v => store vars p (withKey key v)
  | .append p q => (look vars p).bind fun v => (look vars q).map fun w => store vars p (withItem w v)

/-- What a program means. -/
def meanings (vars : List (Json F)) : List (Stmt F) → Option (List (Json F))
  | [] => some vars
  | s :: ss => (meaning vars s).bind fun vars => meanings vars ss

/-- The node `x` holds the value `j`: what a walk through the memory from `x` finds. -/
inductive Holds (h : Heap F) : Nat → Json F → Prop where
  | null {x} : h.cells x = some .null → Holds h x .null
  | bool {x b} : h.cells x = some (.bool b) → Holds h x (.bool b)
  | int {x i} : h.cells x = some (.int i) → Holds h x (.int i)
  | float {x f} : h.cells x = some (.float f) → Holds h x (.float f)
  | str {x s} : h.cells x = some (.str s) → Holds h x (.str s)
  | arr {x} {ids : List Nat} {js : List (Json F)} : h.cells x = some (.arr ids) → ids.length = js.length →
      (∀ (n y : Nat) (j : Json F), ids[n]? = some y → js[n]? = some j → Holds h y j) → Holds h x (.arr js)
  | obj {x} {ms : List (Str × Nat)} {jms : List (Str × Json F)} : h.cells x = some (.obj ms) →
      ms.map Prod.fst = jms.map Prod.fst →
      (∀ (n : Nat) (k k' : Str) (y : Nat) (j : Json F), ms[n]? = some (k, y) → jms[n]? = some (k', j) → Holds h y j) →
      Holds h x (.obj jms)

mutual
/-- The number of `JsonData` in a value. -/
def nodes : Json F → Nat
  | .arr js => 1 + nodesList js
  | .obj ms => 1 + nodesMembers ms
  | _ => 1
/-- In several values. -/
def nodesList : List (Json F) → Nat
  | [] => 0
  | j :: js => nodes j + nodesList js
/-- In the members of an object. -/
def nodesMembers : List (Str × Json F) → Nat
  | [] => 0
  | (_, j) :: ms => nodes j + nodesMembers ms
end

mutual
/-- The number of strings in a value, not counting keys. -/
def strs : Json F → Nat
  | .str _ => 1
  | .arr js => strsList js
  | .obj ms => strsMembers ms
  | _ => 0
/-- In several values. -/
def strsList : List (Json F) → Nat
  | [] => 0
  | j :: js => strs j + strsList js
/-- In the members of an object. -/
def strsMembers : List (Str × Json F) → Nat
  | [] => 0
  | (_, j) :: ms => strs j + strsMembers ms
end

/-- The strings a statement makes: those of a value that is declared, copied or assigned; `Append` copies its argument twice. A string
assigned to a string is not a new one, and moving makes none. -/
def made (vars : List (Json F)) : Stmt F → Nat
  | .declare v => strs (value v)
  | .declareCopy q => ((look vars q).map strs).getD 0
  | .set p v => if (look vars p).map Json.type = some .string then 0 else strs (value v)
  | .assign p q => if p = q then 0 else ((look vars q).map strs).getD 0
  | .append _ q => 2 * ((look vars q).map strs).getD 0
  | _ => 0

/-- The strings a program makes. -/
def madeBy (vars : List (Json F)) : List (Stmt F) → Nat
  | [] => 0
  | s :: ss => made vars s + ((meaning vars s).map fun vars => madeBy vars ss).getD 0

/-- The variables of a program are in memory, with their values, and nothing else is: the nodes alive are as many as
the values have parts, and the one node that stands for the stack. -/
structure Memory (h : Heap F) (vars : List (Json F)) : Prop where
  values : ∃ ids, h.cells 0 = some (.arr ids) ∧ ids.length = vars.length ∧
    ∀ (n y : Nat) (j : Json F), ids[n]? = some y → vars[n]? = some j → Holds h y j
  nodes : ∃ alive : List Nat, alive.Nodup ∧ (∀ x, x ∈ alive ↔ h.cells x ≠ none) ∧ alive.length = 1 + nodesList vars

end Caitlyn.Spec
