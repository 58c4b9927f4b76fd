import Verif.Model.Classes

/-! # What the traits of classes and owning pointers to base classes are to say -/

namespace Caitlyn.Spec.Hier
open Caitlyn Classes

/-- The virtual members that a class declares itself. -/
def OwnVirtual : Cls → Prop
  | .mk _ v fns _ _ => v = true ∨ ∃ f ∈ fns, f.kind ≠ .plain

/-- The class declares its destructor virtual itself. -/
def OwnVirtualDestructor : Cls → Prop
  | .mk _ v _ _ _ => v = true

/-- The class declares a function of this name itself. -/
def Declares (n : Nat) : Cls → Prop
  | .mk _ _ fns _ _ => ∃ f ∈ fns, f.name = n

/-- The class declares a pure function of this name itself. -/
def DeclaresPure (n : Nat) : Cls → Prop
  | .mk _ _ fns _ _ => ∃ f ∈ fns, f.name = n ∧ f.kind = .pure

mutual
/-- All steps on the way to a place are public. -/
def Public : Cls → List Nat → Prop
  | _, [] => True
  | .mk _ _ _ _ bs, i :: p => PublicOf bs i p
def PublicOf : Bases → Nat → List Nat → Prop
  | .nil, _, _ => False
  | .cons pub c _, 0, p => pub = true ∧ Public c p
  | .cons _ _ bs, i + 1, p => PublicOf bs i p
end

/-- The order in which the parts of an object are destroyed: a class before its bases, later bases before earlier ones. -/
inductive Before : List Nat → List Nat → Prop where
  | whole (i : Nat) (q : List Nat) : Before [] (i :: q)
  | later {i j : Nat} (p q : List Nat) (h : j < i) : Before (i :: p) (j :: q)
  | within (i : Nat) {p q : List Nat} (h : Before p q) : Before (i :: p) (i :: q)

/-- The parts of an object, each once, in this order. -/
def Wholly (c : Cls) (l : List (List Nat)) : Prop :=
  (∀ p, p ∈ l ↔ (classAt c p).isSome = true) ∧ l.Pairwise Before

/-- Variables that own objects, whatever their classes; the objects that were let go of. -/
structure Owners where
  slots : List (Option (Nat × Cls))
  gone : List (Nat × Cls)
  next : Nat

/-- What a statement is to do; nothing if a variable does not exist. -/
def Owners.step (o : Owners) : Op → Option Owners
  | .make d => some { o with slots := o.slots ++ [some (o.next, d)], next := o.next + 1 }
  | .none => some { o with slots := o.slots ++ [none] }
  | .reset x d => do
    let v ← o.slots[x]?
    some ⟨o.slots.set x (some (o.next, d)), o.gone ++ v.toList, o.next + 1⟩
  | .clear x => do
    let v ← o.slots[x]?
    some { o with slots := o.slots.set x none, gone := o.gone ++ v.toList }
  | .take y => do
    let v ← o.slots[y]?
    some { o with slots := o.slots.set y none ++ [v] }
  | .move x y => do
    let v ← o.slots[x]?
    let w ← o.slots[y]?
    if x = y then some o else some { o with slots := (o.slots.set x w).set y none, gone := o.gone ++ v.toList }
  | .leave => do
    let v ← o.slots.getLast?
    some { o with slots := o.slots.dropLast, gone := o.gone ++ v.toList }

/-- All statements. -/
def Owners.run : List Op → Owners → Option Owners
  | [], o => some o
  | op :: ops, o => (o.step op).bind (Owners.run ops)

/-- The objects that were let go of can be deleted through a pointer to the class. -/
def Deletable (b : Cls) (o : Owners) : Prop := ∀ x ∈ o.gone, x.2 = b ∨ hasVirtualDestructor b = true

instance (b : Cls) (o : Owners) : Decidable (Deletable b o) := inferInstanceAs (Decidable (∀ x ∈ o.gone, _))

end Caitlyn.Spec.Hier
