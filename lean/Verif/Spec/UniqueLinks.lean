import Verif.Model.UniqueLinks
import Mathlib.Logic.Relation

/-!
# What owning pointers inside owned objects should do

The vocabulary of the statements about `Model/UniqueLinks`: who owns whom, and what `std::unique_ptr` does when one is
assigned to another.
-/

namespace Caitlyn.Links

/-- Object `a` has a member that points to `b`. -/
def Child (c : Cells) (a b : Nat) : Prop := ∃ fs, c a = some fs ∧ some b ∈ fs

/-- Object `b` is `a` or is owned by `a` through any number of others. -/
def Reach (c : Cells) (a b : Nat) : Prop := Relation.ReflTransGen (Child c) a b

/-- Object `b` is owned by `a` through one or more pointers. -/
def Owns (c : Cells) (a b : Nat) : Prop := Relation.TransGen (Child c) a b

/-- A chain of `n` pointers leads from object `a` to `b`. -/
inductive Path (c : Cells) : Nat → Nat → Nat → Prop
  | nil : Path c a 0 a
  | cons : Child c a b → Path c b n d → Path c a (n + 1) d

/-- The `UniquePtr` stored at `l` is a member of the object that `d` points to, or of one owned by that object. -/
def Inside (c : Cells) (l : Loc) (d : Option Nat) : Prop :=
  ∃ r a i, d = some r ∧ l = .field a i ∧ Reach c r a

/-- The state in which everything owned by `d` has been destroyed. -/
noncomputable def World.without (w : World) (d : Option Nat) : World :=
  open Classical in { w with cells := fun a => if ∃ r, d = some r ∧ Reach w.cells r a then none else w.cells a }

/-- The state after `std::unique_ptr`'s `p = std::move(q)`, if `p` points to `old` and `q` to `new`: first the pointers
change hands, then what `p` pointed to is destroyed. -/
noncomputable def World.handOver (w : World) (p q : Loc) (old new : Option Nat) : World :=
  ((w.set p new).set q none).without old

/-- The object is owned by a variable. -/
def Held (w : World) (a : Nat) : Prop := ∃ x r, w.vars x = some (some r) ∧ Reach w.cells r a

/-- Every pointer points to a living object, every living object has exactly one owner, and new identities are new. -/
structure Owned (w : World) : Prop where
  live : ∀ l a, w.get l = some (some a) → (w.cells a).isSome
  uniq : ∀ l l' a, w.get l = some (some a) → w.get l' = some (some a) → l = l'
  owner : ∀ a, (w.cells a).isSome → ∃ l, w.get l = some (some a)
  bound : ∀ a, (w.cells a).isSome → a < w.next

/-- A statement that moves a pointer out of the object that the target is about to destroy. -/
def Danger (w : World) (op : Op) : Prop :=
  ∃ p q l l' old, op = .moveAssign p q ∧ w.locate p = .ok (some l) ∧ w.locate q = .ok (some l') ∧
    w.get l = some old ∧ Inside w.cells l' old

/-- A statement that moves the pointer to an object into a member of that object or of one it owns. -/
def Loop (w : World) (op : Op) : Prop :=
  ∃ p q l l' new, op = .moveAssign p q ∧ w.locate p = .ok (some l) ∧ w.locate q = .ok (some l') ∧
    w.get l' = some new ∧ Inside w.cells l new

end Caitlyn.Links
