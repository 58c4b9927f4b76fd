import Verif.Model.JsonMem

/-!
# Programs that build JSON values when memory may run out (__Serializing/Json/Types/JsonData.h)

The variables of a program are objects of type `JsonData`; a program is a sequence of statements on them, each in a `try` block
of its own that catches `std::bad_alloc`. Steps that may allocate are numbered and may fail as in `Verif/Model/JsonMem.lean`; so
may the move constructor of `std::deque`, which is allowed to allocate (it does in libstdc++ and in the library of Microsoft)
and is called in functions declared `noexcept`. A failed step may leave a variable whose type is `Array` or `String` without an
object of that type (`Held.nothing`). At the end of the program the variables are destroyed. Statements about variables that do not exist
are no statements and do nothing. Keys are objects of type `String` that exist already.
-/

namespace Caitlyn.JsonMem
variable {F : Type}

/-- Values that are stored without allocating. -/
inductive Scalar (F : Type) where
  | bool (b : Bool)
  | int (i : Int)
  | float (f : F)

/-- The value. -/
def Scalar.json : Scalar F → Json F
  | .bool b => .bool b
  | .int i => .int i
  | .float f => .float f

/-- A statement. -/
inductive Stmt (F : Type) where
  /-- `x = v;` (JsonData.h:122-145) -/
  | scalar (x : Nat) (v : Scalar F)
  /-- `x = "s";` (JsonData.h:147-153) -/
  | text (x : Nat) (s : Str)
  /-- `x[key];` (JsonData.h:156-171) -/
  | member (x : Nat) (key : Str)
  /-- `x[key] = v;` -/
  | memberScalar (x : Nat) (key : Str) (v : Scalar F)
  /-- `x.Append(y);` (JsonData.h:218-226) -/
  | append (x y : Nat)
  /-- `x = y;` (JsonData.h:100-109) -/
  | assign (x y : Nat)
  /-- `x = std::move(y);` (JsonData.h:111-120) -/
  | move (x y : Nat)

/-- Ways in which a program ends that are not the usual one: undefined behaviour and `std::terminate`. -/
inductive Halt where
  | ub
  | terminated
  deriving DecidableEq, Repr

/-- The nodes of a variable. -/
def Held.nodes : Held F → Nat
  | .value j => released j
  | .nothing _ => 0

/-- `delete` of nodes. -/
def Mem.release (m : Mem) (n : Nat) : Mem := { m with nodes := m.nodes - n }

/-- `DestroyUnion` (JsonData.h:539-560): there must be an array to destroy if the type says so. -/
def destroy (h : Held F) (m : Mem) : Except Halt Mem :=
  match h with
  | .value j => .ok (m.release (released j))
  | .nothing .array => .error .ub
  | .nothing _ => .ok m

/-- `operator=(T)` for booleans and numbers (JsonData.h:122-145). The result of this and the following functions: whether it
ended without an exception, the variable, and memory. -/
def setScalar (v : Scalar F) (h : Held F) (m : Mem) : Except Halt (Bool × Held F × Mem) := do
  let m ← destroy h m
  return (true, .value v.json, m)

/-- `operator=(T)` for texts (JsonData.h:147-153): the new text is made after `SetType`; the assignment needs a text to
assign to. -/
def setText (fails : Nat → Bool) (s : Str) (h : Held F) (m : Mem) : Except Halt (Bool × Held F × Mem) :=
  match h with
  | .nothing .string => .error .ub
  | .value (.str old) =>
    match attempt fails m with
    | (false, m) => .ok (false, .value (.str old), m)
    | (true, m) => .ok (true, .value (.str s), m)
  | h => do
    let m ← destroy h m
    match attempt fails m with
    | (false, m) => return (false, .value (.str []), m)
    | (true, m) => return (true, .value (.str s), m)

/-- The last part of `operator[](key)` (JsonData.h:160-169): `emplace_back` is called with a new node in a raw pointer. -/
def addMember (fails : Nat → Bool) (key : Str) (ms : List (Str × Json F)) (m : Mem) : Bool × Held F × Mem :=
  match Json.findMember key ms with
  | some _ => (true, .value (.obj ms), m)
  | none =>
    match attempt fails m with
    | (false, m) => (false, .value (.obj ms), m)
    | (true, m) =>
      match attempt fails { m with nodes := m.nodes + 1 } with
      | (false, m) => (false, .value (.obj ms), m)
      | (true, m) => (true, .value (.obj (ms ++ [(key, .null)])), m)

/-- `operator[](key)` (JsonData.h:156-171). -/
def index (fails : Nat → Bool) (key : Str) (h : Held F) (m : Mem) : Except Halt (Bool × Held F × Mem) :=
  match h with
  | .value (.obj ms) => .ok (addMember fails key ms m)
  | h => do
    let m ← destroy h m
    return addMember fails key [] m

/-- `x[key] = v`: the scalar replaces what the member held. -/
def indexScalar (fails : Nat → Bool) (key : Str) (v : Scalar F) (h : Held F) (m : Mem) : Except Halt (Bool × Held F × Mem) := do
  match ← index fails key h m with
  | (true, .value (.obj ms), m) =>
    return (true, .value (.obj (Json.setMember key v.json ms)),
      m.release (((Json.findMember key ms).map released).getD 0))
  | r => return r

/-- The last part of `Append` (JsonData.h:225): a new node with a copy of the argument. -/
def addItem (fails : Nat → Bool) (v : Json F) (js : List (Json F)) (m : Mem) : Bool × Held F × Mem :=
  match copyNode fails v m with
  | (false, m) => (false, .value (.arr js), m)
  | (true, m) =>
    match attempt fails m with
    | (false, m) => (false, .value (.arr js), m)
    | (true, m) => (true, .value (.arr (js ++ [v])), m)

/-- `Append(T arg)` (JsonData.h:218-226) once the argument has been copied. -/
def appendCopied (fails : Nat → Bool) (v : Json F) (h : Held F) (m : Mem) : Except Halt (Bool × Held F × Mem) :=
  match h with
  | .nothing .array => .error .ub
  | .value (.arr js) => .ok (addItem fails v js m)
  | h => do
    let m ← destroy h m
    match attempt fails m with
    | (false, m) => return (false, .nothing .array, m)
    | (true, m) => return addItem fails v [] m

/-- `Append(y)`: the argument is a copy, destroyed when the function ends. -/
def append (fails : Nat → Bool) (y h : Held F) (m : Mem) : Except Halt (Bool × Held F × Mem) :=
  match y with
  | .nothing _ => .error .ub
  | .value v =>
    match copyUnion fails v m with
    | (false, m) => .ok (false, h, m)
    | (true, m) => do
      let (b, h, m) ← appendCopied fails v h m
      return (b, h, m.release (released v))

/-- `operator=(const JsonData&)` on another object (JsonData.h:100-109). -/
def copyTo (fails : Nat → Bool) (y h : Held F) (m : Mem) : Except Halt (Bool × Held F × Mem) := do
  let m ← destroy h m
  match y with
  | .nothing _ => .error .ub
  | .value v => return JsonMem.assign fails .null v m

/-- `operator=(JsonData&&) noexcept` on another object (JsonData.h:111-120, 507-537): the variable assigned to. -/
def moveTo (fails : Nat → Bool) (y h : Held F) (m : Mem) : Except Halt (Bool × Held F × Mem) := do
  let m ← destroy h m
  match y with
  | .nothing _ => .error .ub
  | .value (.arr js) =>
    match attempt fails m with
    | (false, _) => .error .terminated
    | (true, m) => return (true, .value (.arr js), m)
  | .value v => return (true, .value v, m)

/-- The variables. -/
abbrev Vars (F : Type) := List (Held F)

/-- A statement that changes one variable. -/
def on (vars : Vars F) (x : Nat) (m : Mem) (f : Held F → Mem → Except Halt (Bool × Held F × Mem)) : Except Halt (Bool × Vars F × Mem) :=
  match vars[x]? with
  | none => .ok (true, vars, m)
  | some h => do
    let (b, h, m) ← f h m
    return (b, vars.set x h, m)

/-- A statement. -/
def step (fails : Nat → Bool) (vars : Vars F) (m : Mem) : Stmt F → Except Halt (Bool × Vars F × Mem)
  | .scalar x v => on vars x m (setScalar v)
  | .text x s => on vars x m (setText fails s)
  | .member x key => on vars x m (index fails key)
  | .memberScalar x key v => on vars x m (indexScalar fails key v)
  | .append x y =>
    match vars[y]? with
    | none => .ok (true, vars, m)
    | some y => on vars x m (append fails y)
  | .assign x y =>
    match vars[y]? with
    | none => .ok (true, vars, m)
    | some h => if x = y then .ok (true, vars, m) else on vars x m (copyTo fails h)
  | .move x y =>
    match vars[y]? with
    | none => .ok (true, vars, m)
    | some h =>
      if x = y ∨ vars.length ≤ x then .ok (true, vars, m)
      else do
        let (b, vars, m) ← on vars x m (moveTo fails h)
        return (b, vars.set y (.value .null), m)

/-- A program: which statements ended without an exception, the variables and memory. -/
def run (fails : Nat → Bool) : Vars F → Mem → List (Stmt F) → Except Halt (List Bool × Vars F × Mem)
  | vars, m, [] => .ok ([], vars, m)
  | vars, m, s :: ss => do
    let (b, vars, m) ← step fails vars m s
    let (bs, vars, m) ← run fails vars m ss
    return (b :: bs, vars, m)

/-- The destruction of the variables. -/
def finish : Vars F → Mem → Except Halt Mem
  | [], m => .ok m
  | h :: vars, m => do finish vars (← destroy h m)

/-- A program and its end. -/
def whole (fails : Nat → Bool) (vars : Vars F) (m : Mem) (ss : List (Stmt F)) : Except Halt (List Bool × Mem) := do
  let (bs, vars, m) ← run fails vars m ss
  return (bs, ← finish vars m)

end Caitlyn.JsonMem
