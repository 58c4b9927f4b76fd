import Verif.Model.JsonData

/-!
# Model of the nodes of `JsonData` (__Serializing/Json/Types/JsonData.h:37-618): ownership, copies, moves, release

`Verif/Model/JsonData.lean` takes a `JsonData` as a tree of values. Here a `JsonData` is a node in memory: its type and
the active member of its union, where arrays and objects hold *pointers* to other nodes. Reading, writing or releasing a
node that is not alive is undefined. Recursion in the C++ code goes down the pointers; the model bounds its depth by the
number of nodes ever made, and the theorems show that the bound is not reached.

The variables of a program are the items of one more node, number 0, in the order of their declaration, so that a
place, that is a variable or what `operator[]` refers to, is a path from that node. A scope ends with the last variable.
-/

namespace Caitlyn.JsonNodes
variable {F : Type}

/-- `type_` and the active member of `data_` (JsonData.h:598-617). -/
inductive Cell (F : Type) where
  | null
  | bool (b : Bool)
  | int (i : Int)
  | float (f : F)
  | str (s : Str)
  | arr (items : List Nat)
  | obj (members : List (Str × Nat))

/-- The memory: the nodes alive, the number of the next one, and how many `String`s have been constructed in unions
and neither been destroyed nor moved from. -/
structure Heap (F : Type) where
  cells : Nat → Option (Cell F)
  next : Nat
  strings : Nat

def Cell.type : Cell F → JsonClass
  | .null => .null
  | .bool _ => .boolean
  | .int _ => .integral
  | .float _ => .floating
  | .str _ => .string
  | .arr _ => .array
  | .obj _ => .object

/-- The pointers a node holds. -/
def Cell.children : Cell F → List Nat
  | .arr items => items
  | .obj members => members.map Prod.snd
  | _ => []

def upd (f : Nat → Option (Cell F)) (x : Nat) (c : Option (Cell F)) : Nat → Option (Cell F) :=
  fun y => if y = x then c else f y

def read (h : Heap F) (x : Nat) : Res (Cell F) :=
  match h.cells x with
  | some c => .ok c
  | none => .error .ub

def write (h : Heap F) (x : Nat) (c : Cell F) : Res (Heap F) :=
  match h.cells x with
  | some _ => .ok { h with cells := upd h.cells x (some c) }
  | none => .error .ub

/-- The constructor `JsonData()` (JsonData.h:49-52), on the stack or by `new`. -/
def alloc (h : Heap F) : Heap F × Nat :=
  ({ h with cells := upd h.cells h.next (some .null), next := h.next + 1 }, h.next)

/-- The memory of a node is given back. -/
def free (h : Heap F) (x : Nat) : Res (Heap F) :=
  match h.cells x with
  | some _ => .ok { h with cells := upd h.cells x none }
  | none => .error .ub

/-- `~JsonData()` (JsonData.h:92-95, 539-560) and the release of the memory: by `delete`, or at the end of a scope. -/
def deleteNode : Nat → Heap F → Nat → Res (Heap F)
  | 0, _, _ => .error .fuel
  | n + 1, h, x => do
    let c ← read h x
    let h ← c.children.foldlM (deleteNode n) h
    free h x

/-- `DestroyUnion` (JsonData.h:539-560). A `String` is not destroyed. -/
def destroyUnion (h : Heap F) (x : Nat) : Res (Heap F) := do
  let c ← read h x
  c.children.foldlM (deleteNode (h.next + 1)) h

/-- `data_.array_value.emplace_back(y)`. -/
def pushItem (h : Heap F) (x y : Nat) : Res (Heap F) := do
  match ← read h x with
  | .arr items => write h x (.arr (items ++ [y]))
  | _ => .error .ub

/-- `data_.object_value.emplace_back(key, y)`. -/
def pushMember (h : Heap F) (x : Nat) (key : Str) (y : Nat) : Res (Heap F) := do
  match ← read h x with
  | .obj members => write h x (.obj (members ++ [(key, y)]))
  | _ => .error .ub

/-- One step of the first loop of `CopyUnion` (JsonData.h:490-493): `copy` is the copy constructor. -/
def copyItem (copy : Heap F → Nat → Nat → Res (Heap F)) (dst : Nat) (h : Heap F) (item : Nat) : Res (Heap F) := do
  let y := (alloc h).2
  let h ← copy (alloc h).1 y item
  pushItem h dst y

/-- One step of the second loop of `CopyUnion` (JsonData.h:497-500). -/
def copyMember (copy : Heap F → Nat → Nat → Res (Heap F)) (dst : Nat) (h : Heap F) (m : Str × Nat) : Res (Heap F) := do
  let y := (alloc h).2
  let h ← copy (alloc h).1 y m.2
  pushMember h dst m.1 y

/-- `CopyUnion` (JsonData.h:469-505) of the node `src` into `dst`, whose union has been destroyed or not been made. -/
def copyUnion : Nat → Heap F → Nat → Nat → Res (Heap F)
  | 0, _, _, _ => .error .fuel
  | n + 1, h, dst, src => do
    match ← read h src with
    | .arr items => do
      let h ← write h dst (.arr [])
      items.foldlM (copyItem (copyUnion n) dst) h
    | .obj members => do
      let h ← write h dst (.obj [])
      members.foldlM (copyMember (copyUnion n) dst) h
    | .str s => write { h with strings := h.strings + 1 } dst (.str s)
    | c => write h dst c

/-- `MoveUnion` (JsonData.h:507-537). -/
def moveUnion (h : Heap F) (dst src : Nat) : Res (Heap F) := do
  let c ← read h src
  let h ← write h dst c
  write h src .null

/-- The copy constructor (JsonData.h:54-57). -/
def newCopy (h : Heap F) (src : Nat) : Res (Heap F × Nat) := do
  let y := (alloc h).2
  let h ← copyUnion (h.next + 1) (alloc h).1 y src
  return (h, y)

/-- The move constructor (JsonData.h:59-62). -/
def newMove (h : Heap F) (src : Nat) : Res (Heap F × Nat) := do
  let y := (alloc h).2
  let h ← moveUnion (alloc h).1 y src
  return (h, y)

/-- `operator=(const JsonData&)` (JsonData.h:100-109). -/
def assignCopy (h : Heap F) (dst src : Nat) : Res (Heap F) :=
  if dst = src then .ok h
  else do
    let h ← destroyUnion h dst
    copyUnion (h.next + 1) h dst src

/-- `operator=(JsonData&&)` (JsonData.h:111-120). -/
def assignMove (h : Heap F) (dst src : Nat) : Res (Heap F) :=
  if dst = src then .ok h
  else do
    let h ← destroyUnion h dst
    moveUnion h dst src

/-- `SetType` (JsonData.h:562-595) where `c` is what is made if the type changes. -/
def setType (h : Heap F) (x : Nat) (c : Cell F) : Res (Heap F) := do
  let old ← read h x
  if old.type = c.type then return h
  let h ← destroyUnion h x
  write h x c

/-- Values without parts, for construction and assignment. -/
inductive Scalar (F : Type) where
  | null
  | bool (b : Bool)
  | int (i : Int)
  | float (f : F)
  | str (s : Str)
  | emptyArray
  | emptyObject

def Scalar.cell : Scalar F → Cell F
  | .null => .null
  | .bool b => .bool b
  | .int i => .int i
  | .float f => .float f
  | .str s => .str s
  | .emptyArray => .arr []
  | .emptyObject => .obj []

/-- The buffers a new value holds. -/
def Scalar.strings : Scalar F → Nat
  | .str _ => 1
  | _ => 0

/-- The constructors from a value (JsonData.h:64-90) and `Make(type)` (349-354). -/
def newScalar (h : Heap F) (v : Scalar F) : Res (Heap F × Nat) := do
  let y := (alloc h).2
  let h ← write (alloc h).1 y v.cell
  return ({ h with strings := h.strings + v.strings }, y)

/-- Assignment of a number, boolean or string (JsonData.h:122-153); of `Make(type)`, by the move assignment, whose
temporary is not modelled. A string assigned to a string reuses or releases the old buffer. -/
def assignScalar (h : Heap F) (x : Nat) (v : Scalar F) : Res (Heap F) := do
  let old ← read h x
  let h ← destroyUnion h x
  let h ← write h x v.cell
  return { h with strings := if old.type = v.cell.type then h.strings else h.strings + v.strings }

/-- The first member with the key. -/
def lookup (key : Str) : List (Str × Nat) → Option Nat
  | [] => none
  | (k, y) :: rest => if k = key then some y else lookup key rest

/-- The member with the key of an object, made if there is none (JsonData.h:159-170). -/
def member (h : Heap F) (x : Nat) (key : Str) : Res (Heap F × Nat) := do
  match ← read h x with
  | .obj members =>
    match lookup key members with
    | some y => return (h, y)
    | none => do
      let y := (alloc h).2
      let h ← pushMember (alloc h).1 x key y
      return (h, y)
  | _ => .error .ub

/-- `operator[](key)` (JsonData.h:156-171): the node it refers to. -/
def touch (h : Heap F) (x : Nat) (key : Str) : Res (Heap F × Nat) := do
  let h ← setType h x (.obj [])
  member h x key

/-- `Append` (JsonData.h:220-228): the argument is passed by value, copied into a new node, and destroyed. -/
def append (h : Heap F) (x src : Nat) : Res (Heap F) := do
  let (h, arg) ← newCopy h src
  let h ← setType h x (.arr [])
  let (h, y) ← newCopy h arg
  let h ← pushItem h x y
  deleteNode (h.next + 1) h arg

/-- `RemoveMember` (Json.h:134-147) on the root `x`: the pointers are erased, the nodes are not deleted. -/
def removeMember (h : Heap F) (x : Nat) (key : Str) : Res (Heap F) := do
  match ← read h x with
  | .obj members => write h x (.obj (members.filter fun m => !decide (m.1 = key)))
  | _ => return h

/-- A step from a node to a part: `At(key)` or `At(index)`. -/
inductive Step where
  | key (k : Str)
  | index (i : Nat)
  deriving DecidableEq

/-- The node a path leads to (JsonData.h:194-217). -/
def find (h : Heap F) (x : Nat) : List Step → Res Nat
  | [] => .ok x
  | s :: path => do
    match s, ← read h x with
    | .key k, .obj members =>
      match lookup k members with
      | some y => find h y path
      | none => .error .outOfRange
    | .index i, .arr items =>
      match items[i]? with
      | some y => find h y path
      | none => .error .outOfRange
    | _, _ => .error .ub

/-- A statement; `p` and `q` are places. -/
inductive Stmt (F : Type) where
  /-- `JsonData v{...};` or `auto v = Make(...)` -/
  | declare (v : Scalar F)
  /-- `JsonData v{q};` -/
  | declareCopy (q : List Step)
  /-- `JsonData v{std::move(q)};` -/
  | declareMove (q : List Step)
  /-- the end of the scope of the last variable -/
  | leave
  /-- `p = v;` for a value without parts -/
  | set (p : List Step) (v : Scalar F)
  /-- `p = q;` -/
  | assign (p q : List Step)
  /-- `p = std::move(q);` -/
  | moveAssign (p q : List Step)
  /-- `p[key];` -/
  | touch (p : List Step) (key : Str)
  /-- `p.Append(q);` -/
  | append (p q : List Step)

/-- The last variable is destroyed. -/
def leave (h : Heap F) : Res (Heap F) := do
  match ← read h 0 with
  | .arr items =>
    match items.getLast? with
    | some y => do
      let h ← write h 0 (.arr items.dropLast)
      deleteNode (h.next + 1) h y
    | none => .error .ub
  | _ => .error .ub

/-- What a statement does. -/
def Stmt.run : Stmt F → Heap F → Res (Heap F)
  | .declare v, h => do
    let (h, y) ← newScalar h v
    pushItem h 0 y
  | .declareCopy q, h => do
    let src ← find h 0 q
    let (h, y) ← newCopy h src
    pushItem h 0 y
  | .declareMove q, h => do
    let src ← find h 0 q
    let (h, y) ← newMove h src
    pushItem h 0 y
  | .leave, h => JsonNodes.leave h
  | .set p v, h => do
    let x ← find h 0 p
    assignScalar h x v
  | .assign p q, h => do
    let x ← find h 0 p
    let src ← find h 0 q
    assignCopy h x src
  | .moveAssign p q, h => do
    let x ← find h 0 p
    let src ← find h 0 q
    assignMove h x src
  | .touch p key, h => do
    let x ← find h 0 p
    let (h, _) ← JsonNodes.touch h x key
    return h
  | .append p q, h => do
    let x ← find h 0 p
    let src ← find h 0 q
    JsonNodes.append h x src

/-- A program. -/
def run (h : Heap F) (ss : List (Stmt F)) : Res (Heap F) := ss.foldlM (fun h s => s.run h) h

/-- A statement, or a call of `RemoveMember` on the document that is the variable `i`. -/
inductive Act (F : Type) where
  | stmt (s : Stmt F)
  | remove (i : Nat) (key : Str)

/-- What it does. -/
def Act.run : Act F → Heap F → Res (Heap F)
  | .stmt s, h => s.run h
  | .remove i key, h => do
    let x ← find h 0 [.index i]
    removeMember h x key

/-- A program with calls of `RemoveMember`. -/
def runActs (h : Heap F) (as : List (Act F)) : Res (Heap F) := as.foldlM (fun h a => a.run h) h

/-- A program without variables. -/
def start : Heap F := ⟨fun x => if x = 0 then some (.arr []) else none, 1, 0⟩

end Caitlyn.JsonNodes
