import Verif.Basic

/-!
# What `ValueType{value}` makes (__Core/Error/Expected.h:38-117, __Core/Error/Unexpected.h:29)

`Expected` makes its contents with braces: `new (&data_.value) ValueType{value}`. For a class that is not an aggregate the constructors that
take a `std::initializer_list` are tried first ([over.match.list], [dcl.init.list] with CWG 2137), and the copy constructor only if none of
them can be called with the list `{value}`. The types here are enough for all the cases of this rule: classes without such a constructor,
classes with one whose elements cannot be made from the class, and classes with one whose elements can.
-/

namespace Caitlyn.ExpectedBrace

/-- Types of values and of errors. -/
inductive Ty where
  /-- numbers, `Char`, `String`, `JsonData`, pointers, aggregates: no constructor takes a `std::initializer_list` -/
  | plain
  /-- `std::string`: there is one for lists of `char` -/
  | text
  /-- `std::any`: none that takes a list alone; every type can be converted to it -/
  | any
  /-- `std::vector` (`std::deque`, `std::list`, `std::set`): there is one for lists of its elements -/
  | vec (t : Ty)
  /-- a class for trees with a constructor for lists of trees, made also from plain values, texts and vectors of trees (the JSON classes of
  other libraries are like this) -/
  | tree
  deriving DecidableEq

/-- Values. -/
inductive Val where
  | plain (n : Nat)
  | text (s : List Char)
  | any (v : Val)
  | vec (vs : List Val)
  /-- a tree made from a value of another type -/
  | leaf (v : Val)
  /-- a tree made from a list of trees -/
  | node (vs : List Val)

/-- The elements of the lists that a constructor of the class takes. -/
inductive Elem where
  | char
  | of (t : Ty)

/-- The constructor that takes a `std::initializer_list`, if there is one. -/
def listConstructor : Ty → Option Elem
  | .plain => none
  | .text => some .char
  | .any => none
  | .vec t => some (.of t)
  | .tree => some (.of .tree)

/-- Values of the type are converted to trees. -/
def treeLike : Ty → Bool
  | .plain | .text | .tree => true
  | .any => false
  | .vec t => t == .tree

/-- The implicit conversion from one type to another. -/
def convert (s : Ty) : Elem → Option (Val → Val)
  | .char => if s = .plain then some id else none
  | .of t =>
    if s = t then some id
    else if t = .any then some .any
    else if t = .tree ∧ treeLike s = true then some .leaf
    else none

/-- A value made from a list of one element. -/
def single : Ty → Val → Val
  | .tree, v => .node [v]
  | _, v => .vec [v]

/-- `T{value}` for a `value` of type `T`. -/
def brace (t : Ty) (v : Val) : Val :=
  match listConstructor t with
  | none => v
  | some e =>
    match convert t e with
    | none => v
    | some f => single t (f v)

/-- Variables of type `Expected<T, E>`. -/
abbrev Vars := Nat → Option (Val ⊕ Val)

def Vars.set (w : Vars) (x : Nat) (c : Option (Val ⊕ Val)) : Vars := fun y => if y = x then c else w y

/-- Statements. The names on the left of a declaration are new; those that are moved from are not used any more. -/
inductive Op where
  /-- `Expected<T, E> x{value};` (Expected.h:38-46) -/
  | make (x : Nat) (v : Val)
  /-- `Expected<T, E> x{MakeError(error)};` (Expected.h:48-56; Unexpected.h:29, 44-48) -/
  | fail (x : Nat) (e : Val)
  /-- `Expected<T, E> x{y};` (Expected.h:58-68) -/
  | copy (x y : Nat)
  /-- `Expected<T, E> x{std::move(y)};` (Expected.h:88-99) -/
  | move (x y : Nat)
  /-- `x = y;` (Expected.h:70-86) -/
  | assign (x y : Nat)
  /-- `x = std::move(y);` (Expected.h:101-118) -/
  | moveAssign (x y : Nat)
  /-- `x = y.Map(function)` (Expected.h:158-167) for a function from `T` to `T` -/
  | map (x y : Nat) (f : Val → Val)

/-- The constructor of the contents: a value with braces, an error as a copy of the `Unexpected`, which has no such constructor. -/
def contents (t : Ty) : Val ⊕ Val → Val ⊕ Val
  | .inl v => .inl (brace t v)
  | .inr e => .inr e

/-- Execute a statement on variables of type `Expected<t, e>`. -/
def step (t e : Ty) (w : Vars) : Op → Vars
  | .make x v => w.set x (some (.inl (brace t v)))
  | .fail x v => w.set x (some (.inr (brace e v)))
  | .copy x y => w.set x ((w y).map (contents t))
  | .move x y => (w.set y none).set x ((w y).map (contents t))
  | .assign x y => if x = y then w else w.set x ((w y).map (contents t))
  | .moveAssign x y => if x = y then w else (w.set y none).set x ((w y).map (contents t))
  | .map x y f =>
    -- `return Expected{func(data_.value)}` is one construction, and the temporary is then moved into `x`
    let r := (w y).map fun c => match c with
      | .inl v => .inl (brace t (f v))
      | .inr e => .inr e
    w.set x (r.map (contents t))

def run (t e : Ty) (w : Vars) (ps : List Op) : Vars := ps.foldl (step t e) w

end Caitlyn.ExpectedBrace
