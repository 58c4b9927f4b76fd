import Verif.Basic

/-!
# Model of the traits of classes and of owning pointers to base classes

A class is the tree of its bases: without virtual inheritance every path from a class to a base is a subobject of its own. The
traits are those of `<type_traits>`, to which Properties.h, Operations.h and Relationships.h forward; their definitions are those of
the C++ standard ([class.virtual], [class.abstract], [class.dtor], [meta.rel], [meta.unary.prop]). Not modelled: virtual base classes,
`final`, bit-fields of width 0, destructors that are private or pure.
-/

namespace Caitlyn.Classes
open Caitlyn

/-- How a member function is declared. -/
inductive Kind where
  | plain
  /-- `virtual` -/
  | virt
  /-- `virtual … = 0` -/
  | pure
  deriving DecidableEq, Repr

/-- A member function that is not a destructor; the name stands for name and parameters. -/
structure Fn where
  name : Nat
  kind : Kind
  deriving DecidableEq, Repr

mutual
/-- A class: its name, whether it declares a virtual destructor, its member functions, its non-static data members (whether they are
public), its bases. -/
inductive Cls where
  | mk (name : Nat) (vdtor : Bool) (fns : List Fn) (fields : List Bool) (bases : Bases)
/-- Base classes in the order of their declaration, and whether they are public. -/
inductive Bases where
  | nil
  | cons (pub : Bool) (c : Cls) (rest : Bases)
end

deriving instance DecidableEq for Cls, Bases
deriving instance Repr for Cls, Bases

/-- The class declares a function of this name. -/
def declares (fns : List Fn) (n : Nat) : Bool := fns.any (·.name = n)

mutual
/-- `HasVirtualDestructor<T>()` (Operations.h:169-173): the destructor is declared virtual, or it overrides that of a base. -/
def hasVirtualDestructor : Cls → Bool
  | .mk _ v _ _ bs => v || anyVirtualDestructor bs
def anyVirtualDestructor : Bases → Bool
  | .nil => false
  | .cons _ c bs => hasVirtualDestructor c || anyVirtualDestructor bs
end

mutual
/-- `IsPolymorphic<T>()` (Properties.h:60-64): it declares or inherits a virtual function. -/
def isPolymorphic : Cls → Bool
  | .mk _ v fns _ bs => v || fns.any (·.kind != .plain) || anyPolymorphic bs
def anyPolymorphic : Bases → Bool
  | .nil => false
  | .cons _ c bs => isPolymorphic c || anyPolymorphic bs
end

mutual
/-- The functions whose final overrider is pure: the pure ones of the class and those of the bases that the class does not override. -/
def pures : Cls → List Nat
  | .mk _ _ fns _ bs => (fns.filter (·.kind = .pure)).map (·.name) ++ (puresOf bs).filter (fun n => !declares fns n)
def puresOf : Bases → List Nat
  | .nil => []
  | .cons _ c bs => pures c ++ puresOf bs
end

/-- `IsAbstract<T>()` (Properties.h:66-70). -/
def isAbstract (c : Cls) : Bool := !(pures c).isEmpty

mutual
/-- `IsEmpty<T>()` (Properties.h:54-58): no data members, no virtual functions, and all bases are empty. -/
def isEmpty : Cls → Bool
  | .mk _ v fns fields bs => fields.isEmpty && !v && !fns.any (·.kind != .plain) && allEmpty bs
def allEmpty : Bases → Bool
  | .nil => true
  | .cons _ c bs => isEmpty c && allEmpty bs
end

mutual
/-- The places of class `b` in an object of a class, each as the numbers of the bases on the way, and whether all these are public. -/
def places (b : Cls) : Cls → List (List Nat × Bool)
  | .mk n v fns fields bs => (if b = .mk n v fns fields bs then [([], true)] else []) ++ placesOf b bs 0
def placesOf (b : Cls) : Bases → Nat → List (List Nat × Bool)
  | .nil, _ => []
  | .cons pub c bs, i => (places b c).map (fun p => (i :: p.1, pub && p.2)) ++ placesOf b bs (i + 1)
end

mutual
/-- The classes of all subobjects. -/
def subobjects : Cls → List Cls
  | .mk n v fns fields bs => .mk n v fns fields bs :: subobjectsOf bs
def subobjectsOf : Bases → List Cls
  | .nil => []
  | .cons _ c bs => subobjects c ++ subobjectsOf bs
end

/-- The data members. -/
def Cls.fields : Cls → List Bool
  | .mk _ _ _ fields _ => fields

/-- `IsStandardLayout<T>()` (Properties.h:48-52), by [class.prop]: no virtual functions, no class with public and other data members,
data members in at most one of the classes, and no class twice. -/
def isStandardLayout (c : Cls) : Bool :=
  !isPolymorphic c && (subobjects c).all (fun d => d.fields.all id || d.fields.all not) &&
    decide (((subobjects c).filter (fun d => !d.fields.isEmpty)).length ≤ 1) && decide (subobjects c).Nodup

/-- `BaseOf<Base, Derived>()` (Relationships.h:37-41) for classes. -/
def baseOf (b d : Cls) : Bool := !(places b d).isEmpty

/-- `Convertible<Derived*, Base*>()` (Relationships.h:43-47) for classes: there is exactly one subobject of the class, and the way to it
is public. Gives its place. -/
def upcast (d b : Cls) : Option (List Nat) :=
  match places b d with
  | [(p, true)] => some p
  | _ => none

mutual
/-- The destructors that run for a complete object, by the place of the subobject: first that of the class, then those of the bases
in the reverse order of their declaration ([class.dtor]). -/
def destroyed : Cls → List (List Nat)
  | .mk _ _ _ _ bs => [] :: destroyedOf bs 0
def destroyedOf : Bases → Nat → List (List Nat)
  | .nil, _ => []
  | .cons _ c bs, i => destroyedOf bs (i + 1) ++ (destroyed c).map (i :: ·)
end

mutual
/-- The class of the subobject at a place. -/
def classAt : Cls → List Nat → Option Cls
  | c, [] => some c
  | .mk _ _ _ _ bs, i :: p => classAtOf bs i p
def classAtOf : Bases → Nat → List Nat → Option Cls
  | .nil, _, _ => none
  | .cons _ c _, 0, p => classAt c p
  | .cons _ _ bs, i + 1, p => classAtOf bs i p
end

/-- `delete q` where `q` points to the subobject at place `p` of an object of class `d` ([expr.delete]): if the static type is not the
dynamic type, it must have a virtual destructor; the destructor of the dynamic type runs. -/
def deleteAt (d : Cls) (p : List Nat) : Res (List (List Nat)) :=
  match classAt d p with
  | none => .error .ub
  | some c => if p = [] ∨ hasVirtualDestructor c = true then .ok (destroyed d) else .error .ub

/-- An object on the heap: its number, its class, and the place of the subobject to which `data_` points. -/
structure Obj where
  id : Nat
  cls : Cls
  place : List Nat

/-- Variables of type `UniquePtr<B>`, the destructors that ran for each object, the number of objects made. -/
structure State where
  slots : List (Option Obj)
  log : List (Nat × List (List Nat))
  next : Nat

/-- `delete data_` (UniquePointer.h:48-51, 64, 122). -/
def State.delete (s : State) : Option Obj → Res State
  | none => .ok s
  | some o => do
    let l ← deleteAt o.cls o.place
    .ok { s with log := s.log ++ [(o.id, l)] }

/-- Statements on variables of type `UniquePtr<B>`. -/
inductive Op where
  /-- `UniquePtr<B> x{new D};` -/
  | make (d : Cls)
  /-- `UniquePtr<B> x;` -/
  | none
  /-- `x.Reset(new D);` -/
  | reset (x : Nat) (d : Cls)
  /-- `x.Reset();` -/
  | clear (x : Nat)
  /-- `UniquePtr<B> x{std::move(y)};` -/
  | take (y : Nat)
  /-- `x = std::move(y);` -/
  | move (x y : Nat)
  /-- the variable declared last goes out of scope -/
  | leave

/-- `new D` as an argument for a parameter of type `B*`: compiles if `D` is not abstract and `D*` converts to `B*`. -/
def argument (b d : Cls) : Option (List Nat) := if isAbstract d = true then none else upcast d b

/-- The class of the object that a statement makes. -/
def Op.new : Op → Option Cls
  | .make d => some d
  | .reset _ d => some d
  | _ => Option.none

/-- The statement compiles. -/
def Op.compiles (b : Cls) (op : Op) : Prop := ∀ d, op.new = some d → (argument b d).isSome = true

/-- A statement; a variable that does not exist is an error of the model. -/
def step (b : Cls) (s : State) : Op → Res State
  -- UniquePointer.h:37-39
  | .make d => .ok { s with slots := s.slots ++ [some ⟨s.next, d, (argument b d).getD []⟩], next := s.next + 1 }
  -- UniquePointer.h:35
  | .none => .ok { s with slots := s.slots ++ [Option.none] }
  -- UniquePointer.h:118-125; a new object has a new address
  | .reset x d => do
    let o ← vecGet s.slots x
    let t ← s.delete o
    .ok { t with slots := t.slots.set x (some ⟨s.next, d, (argument b d).getD []⟩), next := s.next + 1 }
  | .clear x => do
    let o ← vecGet s.slots x
    let t ← s.delete o
    .ok { t with slots := t.slots.set x Option.none }
  -- UniquePointer.h:43-46
  | .take y => do
    let o ← vecGet s.slots y
    .ok { s with slots := s.slots.set y Option.none ++ [o] }
  -- UniquePointer.h:60-69
  | .move x y => do
    let o ← vecGet s.slots x
    let p ← vecGet s.slots y
    if x = y then .ok s
    else do
      let t ← s.delete o
      .ok { t with slots := (t.slots.set x p).set y Option.none }
  -- UniquePointer.h:48-51
  | .leave => do
    let o ← vecGet s.slots (s.slots.length - 1)
    let t ← s.delete o
    .ok { t with slots := t.slots.take (s.slots.length - 1) }

/-- A program. -/
def run (b : Cls) : List Op → State → Res State
  | [], s => .ok s
  | op :: ops, s => do run b ops (← step b s op)

/-- The class that `TEST_F(Fixture, Name)` declares (TestFixture.h:24-27); `0` is the function `void Run()`. -/
def fixtureClass (name : Nat) (fixture : Cls) : Cls := .mk name false [⟨0, .plain⟩] [] (.cons true fixture .nil)

/-- The body of the registered function, `Name_Fixture().Run();` (TestFixture.h:35): compiles if the class is not abstract. -/
def fixtureCompiles (name : Nat) (fixture : Cls) : Bool := !isAbstract (fixtureClass name fixture)

/-- The temporary object's destructors, after `Run`. -/
def fixtureEnds (name : Nat) (fixture : Cls) : List (List Nat) := destroyed (fixtureClass name fixture)

end Caitlyn.Classes
