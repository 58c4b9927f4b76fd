import Verif.Basic

/-!
# Model of the special members of the library's classes and of the traits that ask for them

For an operation of a type it matters whether overload resolution finds a function that is not deleted (which is what the traits
of `<type_traits>` test, and with them those of Operations.h), whether this function is `noexcept`, whether its body compiles, and
whether anything in its body can throw. The rules for functions that a class does not declare are those of the C++ standard
([class.default.ctor], [class.copy.ctor], [class.copy.assign], [class.dtor]).
-/

namespace Caitlyn.Special
open Caitlyn

/-- The operations: `T()`, `T(const T&)`, `T(T&&)`, `= const T&`, `= T&&`, `~T`. -/
inductive Op where
  | default
  | copy
  | move
  | copyAssign
  | moveAssign
  | destroy
  deriving DecidableEq, Repr

/-- What is known of an operation of a type. -/
structure Verdict where
  /-- overload resolution finds a function that is not deleted -/
  found : Bool
  /-- this function is `noexcept` -/
  promised : Bool
  /-- its body compiles -/
  compiles : Bool
  /-- nothing in its body throws -/
  quiet : Bool
  /-- it is trivial: it only copies bytes or does nothing -/
  trivial : Bool
  deriving DecidableEq, Repr

/-- No such function. -/
def Verdict.none : Verdict := ⟨false, false, false, false, false⟩
/-- A trivial function. -/
def Verdict.good : Verdict := ⟨true, true, true, true, true⟩
/-- A `noexcept` function that keeps its promise and does something. -/
def Verdict.safe : Verdict := ⟨true, true, true, true, false⟩
/-- A function that can throw. -/
def Verdict.throwing : Verdict := ⟨true, false, true, false, false⟩

/-- Two operations one after the other, in a function generated by the compiler. -/
def Verdict.and (a b : Verdict) : Verdict :=
  ⟨a.found && b.found, a.promised && b.promised, a.compiles && b.compiles, a.quiet && b.quiet, a.trivial && b.trivial⟩

/-- What is known of each operation of a type. -/
abbrev Ops := Op → Verdict

/-- How a class declares an operation. -/
inductive Decl where
  /-- not at all -/
  | absent
  | defaulted
  | deleted
  /-- a function with a body that performs operations of other types -/
  | body (noexcept : Bool) (uses : List Verdict)

def Decl.declared : Decl → Bool
  | .absent => false
  | _ => true

/-- A class: its declarations, whether it has further constructors, its members, and whether the declaration of a member gives it a
value. -/
structure Class where
  decl : Op → Decl
  constructors : Bool
  members : List Ops
  values : Bool := false

/-- The function that the compiler generates from the members; a default constructor that gives values is not trivial. -/
def generated (c : Class) (op : Op) : Verdict :=
  c.members.foldr (fun m v => (m op).and v) (if op = .default ∧ c.values = true then .safe else .good)

/-- A function with this body: it compiles if all it uses is found and compiles. -/
def provided (noexcept : Bool) (uses : List Verdict) : Verdict :=
  ⟨true, noexcept, uses.all (fun u => u.found && u.compiles), uses.all (·.quiet), false⟩

/-- The function that a declaration gives; `implicit`: the function if nothing is declared. -/
def declaredAs (c : Class) (op : Op) (implicit : Verdict) : Verdict :=
  match c.decl op with
  | .absent => implicit
  | .defaulted => generated c op
  | .deleted => .none
  | .body n uses => provided n uses

/-- The operations of a class. -/
def opsOf (c : Class) : Ops
  | .default =>
    declaredAs c .default
      (if c.constructors || (c.decl .copy).declared || (c.decl .move).declared then .none else generated c .default)
  | .copy => copying
  | .copyAssign => assigning
  | .move =>
    declaredAs c .move
      (if (c.decl .copy).declared || (c.decl .copyAssign).declared || (c.decl .moveAssign).declared || (c.decl .destroy).declared
          || !(generated c .move).found then copying else generated c .move)
  | .moveAssign =>
    declaredAs c .moveAssign
      (if (c.decl .copy).declared || (c.decl .copyAssign).declared || (c.decl .move).declared || (c.decl .destroy).declared
          || !(generated c .moveAssign).found then assigning else generated c .moveAssign)
  | .destroy => declaredAs c .destroy (generated c .destroy)
where
  copying := declaredAs c .copy (if (c.decl .move).declared || (c.decl .moveAssign).declared then .none else generated c .copy)
  assigning :=
    declaredAs c .copyAssign (if (c.decl .move).declared || (c.decl .moveAssign).declared then .none else generated c .copyAssign)

/-- Numbers, pointers, enumerations. -/
def scalar : Ops := fun _ => .good
/-- `std::string`, and `std::vector` of elements that can be copied: copies allocate. -/
def container : Ops
  | .copy => .throwing
  | .copyAssign => .throwing
  | _ => .safe
/-- `std::deque`: as before, but the standard does not promise that its default and its move constructor do not throw; those of
libstdc++ allocate. -/
def deque : Ops
  | .default => .throwing
  | .copy => .throwing
  | .move => .throwing
  | .copyAssign => .throwing
  | _ => .safe
/-- `std::fstream`, `std::ostringstream`: no copies; the standard promises nothing about moves and the default constructor. -/
def stream : Ops
  | .default => .throwing
  | .copy => .none
  | .move => .throwing
  | .copyAssign => .none
  | .moveAssign => .throwing
  | .destroy => .safe

/-- `Char` (Char.h:31-95): no special member declared but the default constructor; one `std::string`. -/
def char : Ops := opsOf {
  decl := fun | .default => .defaulted | _ => .absent
  constructors := true
  members := [container] }

/-- `String` (String.h:53, 111-139); its member is a vector of `Char` (String.h:1006). -/
def string : Ops := opsOf {
  decl := fun
    | .default => .defaulted
    | .copy => .body false [container .copy]
    | .move => .body true [container .move]
    | .copyAssign => .body false [container .copyAssign]
    | .moveAssign => .body true [container .moveAssign]
    | .destroy => .absent
  constructors := true
  members := [container] }

/-- `StringBuilder` (StringBuilder.h:28-60): its member is a `std::ostringstream`. The copy makes a new stream from the text. -/
def stringBuilder : Ops := opsOf {
  decl := fun
    | .default => .defaulted
    | .copy => .body false [.throwing]
    | .move => .body true [stream .move]
    | _ => .absent
  constructors := true
  members := [stream] }

/-- `File` (File.h:32-55, 450-453): copying opens the file again. -/
def file : Ops := opsOf {
  decl := fun
    | .default => .defaulted
    | .copy => .body false [string .copy, stream .default, .throwing]
    | .destroy => .body true [.safe]
    | _ => .absent
  constructors := true
  members := [string, stream, scalar]
  values := true }

/-- `BigInteger` (BigInteger.h:37, 83-110, 405-406). -/
def bigInteger : Ops := opsOf {
  decl := fun
    | .default => .defaulted
    | .copy => .defaulted
    | .move => .body true [container .move, scalar .copy]
    | .copyAssign => .body false [container .copyAssign, scalar .copyAssign]
    | .moveAssign => .body true [container .moveAssign, scalar .copyAssign]
    | .destroy => .absent
  constructors := true
  members := [container, scalar]
  values := true }

/-- `BigFloat` (BigFloat.h:31, 70-103). -/
def bigFloat : Ops := opsOf {
  decl := fun
    | .default => .defaulted
    | .copy => .defaulted
    | .move => .body true [bigInteger .move, bigInteger .move, scalar .copy]
    | .copyAssign => .body false [bigInteger .copyAssign, bigInteger .copyAssign, scalar .copyAssign]
    | .moveAssign => .body true [bigInteger .moveAssign, bigInteger .moveAssign, scalar .copyAssign]
    | .destroy => .absent
  constructors := true
  members := [bigInteger, bigInteger, scalar] }

/-- `JsonData` (JsonData.h:49-62, 94-121, 463-560): a copy makes new strings, containers and nodes; a move moves a `String`, a deque
or a vector into place. -/
def jsonData : Ops := opsOf {
  decl := fun
    | .default => .body false [scalar .default]
    | .copy => .body false [string .copy, deque .default, container .default, .throwing]
    | .move => .body true [string .move, deque .move, container .move]
    | .copyAssign => .body false [string .copy, deque .default, container .default, .throwing]
    | .moveAssign => .body true [string .move, deque .move, container .move]
    | .destroy => .body true [deque .destroy, container .destroy]
  constructors := true
  members := [scalar, scalar] }

/-- `JsonDocument` (Json.h:36, 48-95): a move leaves `MakeNull()` in the source. -/
def jsonDocument : Ops := opsOf {
  decl := fun
    | .default => .defaulted
    | .copy => .body false [jsonData .copy, scalar .copy]
    | .move => .body true [jsonData .move, scalar .copy, jsonData .default, jsonData .moveAssign]
    | .copyAssign => .body false [jsonData .copyAssign, scalar .copyAssign]
    | .moveAssign => .body true [jsonData .moveAssign, scalar .copyAssign, jsonData .default, jsonData .moveAssign]
    | .destroy => .defaulted
  constructors := true
  members := [jsonData, scalar]
  values := true }

/-- `TestCase` (TestCase.h:31-46): two texts, a function pointer and a flag; only the destructor is declared. -/
def testCase : Ops := opsOf {
  decl := fun | .destroy => .defaulted | _ => .absent
  constructors := true
  members := [string, string, scalar, scalar] }

/-- `Ptr<T>` (RawPointer.h:36-57, 119). -/
def ptr : Ops := opsOf {
  decl := fun
    | .default => .defaulted
    | .copy => .body false [scalar .copy]
    | .copyAssign => .body false [scalar .copyAssign]
    | _ => .absent
  constructors := true
  members := [scalar]
  values := true }

/-- `UniquePtr<T>` (UniquePointer.h:35-70, 135): deletes what it owns. -/
def uniquePtr (t : Ops) : Ops := opsOf {
  decl := fun
    | .default => .defaulted
    | .copy => .deleted
    | .move => .body true [scalar .copy]
    | .copyAssign => .absent
    | .moveAssign => .body true [t .destroy, scalar .copyAssign]
    | .destroy => .body true [t .destroy]
  constructors := true
  members := [scalar]
  values := true }

/-- `SharedPtr<T>` (SharedPointer.h:38-94). -/
def sharedPtr (t : Ops) : Ops := opsOf {
  decl := fun
    | .default => .defaulted
    | .copy => .body false [scalar .copy]
    | .move => .body true [scalar .copy]
    | .copyAssign => .body false [t .destroy, scalar .copyAssign]
    | .moveAssign => .body true [t .destroy, scalar .copyAssign]
    | .destroy => .body true [t .destroy]
  constructors := true
  members := [scalar, scalar]
  values := true }

/-- `WeakPtr<T>` (WeakPointer.h:35-69, 127): its member is a `SharedPtr`; the default constructor makes one from a null pointer. -/
def weakPtr (t : Ops) : Ops := opsOf {
  decl := fun
    | .default => .body false [scalar .copy]
    | .copy => .body false [sharedPtr t .copy]
    | .move => .body true [sharedPtr t .move]
    | .copyAssign => .body false [sharedPtr t .copyAssign]
    | .moveAssign => .body true [sharedPtr t .moveAssign]
    | .destroy => .absent
  constructors := true
  members := [sharedPtr t] }

/-- `Unexpected<E>` (Unexpected.h:25-39). -/
def unexpected (e : Ops) : Ops := opsOf {
  decl := fun _ => .absent
  constructors := true
  members := [e] }

/-- `Expected<T, E>` (Expected.h:54-123, 336-353): an assignment destroys what the variable holds and constructs anew, but the
`noexcept` of the move assignment asks for the assignments of the two types. -/
def expected (t e : Ops) : Ops := opsOf {
  decl := fun
    | .default => .absent
    | .copy => .body false [t .copy, unexpected e .copy]
    | .move => .body ((t .move).found && (t .move).promised && ((e .move).found && (e .move).promised)) [t .move, unexpected e .move]
    | .copyAssign => .body false [t .destroy, unexpected e .destroy, t .copy, unexpected e .copy]
    | .moveAssign =>
      .body ((t .moveAssign).found && (t .moveAssign).promised && ((e .moveAssign).found && (e .moveAssign).promised))
        [t .destroy, unexpected e .destroy, t .move, unexpected e .move]
    | .destroy => .body true [t .destroy, unexpected e .destroy]
  constructors := true
  members := [scalar, scalar] }

/-- `UniquePtr<T>::operator=(T*)`, `SharedPtr<T>::operator=(T*)` (UniquePointer.h:54-58, SharedPointer.h:61-65): they call `reset`,
which is not declared. -/
def assignPointer : Verdict := ⟨true, false, false, true, false⟩

/-- `DefaultConstructible`, `CopyConstructible`, `MoveConstructible`, `CopyAssignable`, `MoveAssignable`, `Destructible`
(Operations.h:25-29 for no arguments, 43-47, 61-65, 79-83, 115-119, 133-137, 151-155). -/
def able (t : Ops) (op : Op) : Bool := (t op).found
/-- `NothrowDefaultConstructible` and so on (Operations.h:37-41, 55-59, 73-77, 91-95, 127-131, 145-149, 163-167). -/
def nothrow (t : Ops) (op : Op) : Bool := (t op).found && (t op).promised

/-- `TriviallyDefaultConstructible` and so on (Operations.h:31-35, 49-53, 67-71, 85-89, 121-125, 139-143, 157-161). -/
def trivially (t : Ops) (op : Op) : Bool := (t op).found && (t op).trivial

/-- `IsTriviallyCopyable` (Properties.h:42-46), by [class.prop]: the destructor is trivial, and so are all ways to copy and move
that there are, of which there must be one. -/
def triviallyCopyable (t : Ops) : Bool :=
  trivially t .destroy && [Op.copy, .move, .copyAssign, .moveAssign].all (fun op => !(t op).found || (t op).trivial) &&
    [Op.copy, .move, .copyAssign, .moveAssign].any (fun op => (t op).found)

/-- `IsTrivial` (Properties.h:36-40). -/
def isTrivial (t : Ops) : Bool := triviallyCopyable t && trivially t .default

/-- Types built from the library's classes and types of users. -/
inductive Typ where
  | user (ops : Ops)
  | scalar | char | string | stringBuilder | file | bigInteger | bigFloat | jsonData | jsonDocument | testCase
  | ptr (t : Typ) | uniquePtr (t : Typ) | sharedPtr (t : Typ) | weakPtr (t : Typ)
  | unexpected (e : Typ) | expected (t e : Typ)

def ops : Typ → Ops
  | .user o => o
  | .scalar => Special.scalar
  | .char => Special.char
  | .string => Special.string
  | .stringBuilder => Special.stringBuilder
  | .file => Special.file
  | .bigInteger => Special.bigInteger
  | .bigFloat => Special.bigFloat
  | .jsonData => Special.jsonData
  | .jsonDocument => Special.jsonDocument
  | .testCase => Special.testCase
  | .ptr _ => Special.ptr
  | .uniquePtr t => Special.uniquePtr (ops t)
  | .sharedPtr t => Special.sharedPtr (ops t)
  | .weakPtr t => Special.weakPtr (ops t)
  | .unexpected e => Special.unexpected (ops e)
  | .expected t e => Special.expected (ops t) (ops e)

end Caitlyn.Special
