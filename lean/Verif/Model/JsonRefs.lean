import Verif.Model.JsonNodes

/-!
# Model of references to `JsonData` (JsonData.h:156-217)

`operator[]` and `At` return references to nodes. A program keeps them (`auto& r = a["x"];`) and uses them later, when other
statements have changed the variables. A reference is the number of a node; nothing tells whether the node is still alive.
-/

namespace Caitlyn.JsonNodes
variable {F : Type}

/-- A place: from a variable, or from a reference `k`, by `At`. -/
inductive Place where
  | var (p : List Step)
  | ref (k : Nat) (r : List Step)

/-- The node of a place. A program cannot name a reference that it has not bound. -/
def node (h : Heap F) (refs : List Nat) : Place → Res Nat
  | .var p => find h 0 p
  | .ref k r =>
    match refs[k]? with
    | some x => find h x r
    | none => .error .logicError

/-- Statements with one place. -/
inductive Unary (F : Type) where
  /-- `JsonData v{q};` -/
  | declareCopy
  /-- `JsonData v{std::move(q)};` -/
  | declareMove
  /-- `p = v;` -/
  | set (v : Scalar F)
  /-- `p[key];` -/
  | touch (key : Str)

/-- Statements with two places. -/
inductive Binary where
  /-- `p = q;` -/
  | assign
  /-- `p = std::move(q);` -/
  | moveAssign
  /-- `p.Append(q);` -/
  | append

/-- A statement of a program with references. -/
inductive RStmt (F : Type) where
  /-- `auto& r = p;` -/
  | bind (p : Place)
  | declare (v : Scalar F)
  | leave
  | one (k : Unary F) (p : Place)
  | two (k : Binary) (p q : Place)

/-- What a statement does to a node: as `Stmt.run`. -/
def Unary.run (k : Unary F) (h : Heap F) (x : Nat) : Res (Heap F) :=
  match k with
  | .declareCopy => do
    let (h, y) ← newCopy h x
    pushItem h 0 y
  | .declareMove => do
    let (h, y) ← newMove h x
    pushItem h 0 y
  | .set v => assignScalar h x v
  | .touch key => do
    let (h, _) ← JsonNodes.touch h x key
    return h

/-- What a statement does to two nodes: as `Stmt.run`. -/
def Binary.run (k : Binary) (h : Heap F) (x src : Nat) : Res (Heap F) :=
  match k with
  | .assign => assignCopy h x src
  | .moveAssign => assignMove h x src
  | .append => JsonNodes.append h x src

/-- What a statement does to the memory and the references. -/
def RStmt.run : RStmt F → Heap F × List Nat → Res (Heap F × List Nat)
  | .bind p, (h, refs) => do
    let x ← node h refs p
    return (h, refs ++ [x])
  | .declare v, (h, refs) => do
    let (h, y) ← newScalar h v
    let h ← pushItem h 0 y
    return (h, refs)
  | .leave, (h, refs) => do
    let h ← JsonNodes.leave h
    return (h, refs)
  | .one k p, (h, refs) => do
    let x ← node h refs p
    let h ← k.run h x
    return (h, refs)
  | .two k p q, (h, refs) => do
    let x ← node h refs p
    let src ← node h refs q
    let h ← k.run h x src
    return (h, refs)

/-- A program with references. -/
def runRefs (s : Heap F × List Nat) (ss : List (RStmt F)) : Res (Heap F × List Nat) := ss.foldlM (fun s st => st.run s) s

end Caitlyn.JsonNodes
