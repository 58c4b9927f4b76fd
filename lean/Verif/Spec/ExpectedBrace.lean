import Verif.Model.ExpectedBrace

/-! # What C168 wants of an `Expected`: it holds what it is given -/

namespace Caitlyn.Spec.Braces
open Caitlyn ExpectedBrace

/-- The variables of a sum type. -/
def step (w : Vars) : Op → Vars
  | .make x v => w.set x (some (.inl v))
  | .fail x e => w.set x (some (.inr e))
  | .copy x y => w.set x (w y)
  | .move x y => (w.set y none).set x (w y)
  | .assign x y => w.set x (w y)
  | .moveAssign x y => if x = y then w else (w.set y none).set x (w y)
  | .map x y f => w.set x ((w y).map fun c => match c with | .inl v => .inl (f v) | .inr e => .inr e)

def run (w : Vars) (ps : List Op) : Vars := ps.foldl step w

/-- How often the contents of each variable were constructed since they were given to the first. -/
def times (n : Nat → Nat) : Op → Nat → Nat
  | .make x _ | .fail x _ => fun z => if z = x then 1 else n z
  | .copy x y | .move x y => fun z => if z = x then n y + 1 else n z
  | .assign x y | .moveAssign x y => fun z => if z = x ∧ x ≠ y then n y + 1 else n z
  | .map x y _ => fun z => if z = x then n y + 2 else n z

/-- `f` applied so many times. -/
def iter {α : Type} (f : α → α) : Nat → α → α
  | 0, a => a
  | n + 1, a => f (iter f n a)

/-- A value in a vector in a value in a vector …, so many times. -/
def nested : Nat → Val → Val
  | 0, v => v
  | n + 1, v => .vec [.any (nested n v)]

end Caitlyn.Spec.Braces
