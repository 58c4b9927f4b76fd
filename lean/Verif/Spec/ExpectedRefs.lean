import Verif.Model.ExpectedRefs

/-! # Reference: variables that hold a value or an error -/

namespace Caitlyn.Spec.ExpectedRefs
open Caitlyn.ExpectedRefs
open ExpectedProg (Moved)

variable {T E : Type}

/-- What each variable holds; `none`: it does not exist. -/
abbrev Holds (T E : Type) := Nat → Option (T ⊕ E)

/-- What the variables hold after a statement. -/
def after (moved : Moved T E) (h : Holds T E) : Stmt T E → Holds T E
  | .make x c => fun z => if z = x then (h x).or (some c) else h z
  | .leave x => fun z => if z = x then none else h z
  | .assign x y => fun z => if z = x ∧ (h x).isSome ∧ (h y).isSome then h y else h z
  | .move x y => fun z =>
    if x = y then h z
    else if z = x ∧ (h x).isSome ∧ (h y).isSome then h y
    else if z = y ∧ (h x).isSome ∧ (h y).isSome then (h y).map moved.sum
    else h z
  | .set x c => fun z => if z = x then (h x).map fun _ => c else h z
  | .bind .. | .get _ => h

/-- ... after the first `k` statements of a program. -/
def afterAll (moved : Moved T E) (h : Holds T E) (p : List (Stmt T E)) : Holds T E := p.foldl (after moved) h

/-- `r` is not declared in the program. -/
def Keeps (r : Nat) (p : List (Stmt T E)) : Prop := ∀ s ∈ p, ∀ k e, s ≠ .bind r k e

/-- `x` exists and holds a value (`k`), or an error, all the time of a program. -/
def Steady (moved : Moved T E) (h : Holds T E) (x : Nat) (k : Bool) (p : List (Stmt T E)) : Prop :=
  ∀ n ≤ p.length, ∃ c, afterAll moved h (p.take n) x = some c ∧ c.isLeft = k

end Caitlyn.Spec.ExpectedRefs
