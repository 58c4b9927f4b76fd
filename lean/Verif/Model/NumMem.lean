import Verif.Model.BigIntProg
import Verif.Model.BigFloatProg

/-!
# Programs with large numbers that run out of memory

The programs of Model/BigIntProg and Model/BigFloatProg, in which allocations may fail. A statement that computes a number does so in
temporaries, from operands that it does not change, and moves the result into the variable, which cannot fail (BigInteger.h:101-110,
BigFloat.h:92-102): if some allocation fails on the way, `std::bad_alloc` comes before the move. Only the assignment of another variable
(BigInteger.h:91-99, BigFloat.h:81-90) allocates while it changes its target: `std::vector<int>` is assigned, which takes new storage if
the old one is too small.

The standard says of that assignment only that the vector is some vector afterwards. Two ways are modelled: the vector that gets new
storage first and gives up the old one then (libstdc++), and the vector that gives up its storage first (libc++), which is empty if there
is no new one. Texts that are printed are the matter of C150.
-/

namespace Caitlyn.NumMem
open Caitlyn

/-- What happens to the allocations of a statement, and how much larger than needed the storage of its result is. -/
structure Fate where
  /-- an allocation of the computation fails, or that of the first vector assigned -/
  first : Bool
  /-- the allocation of the second vector assigned fails -/
  second : Bool
  /-- storage of the result beyond its digits: of the first and of the second vector -/
  spare : Nat × Nat
  deriving DecidableEq, Repr

/-- `digits_ = other.digits_` for storage of `cap` digits: whether it succeeded, the digits, and the storage. -/
def assignDigits (releases fails : Bool) (cap : Nat) (old new : List Int) : Bool × List Int × Nat :=
  if new.length ≤ cap then (true, new, cap)
  else if fails then (false, if releases then ([], 0) else (old, cap))
  else (true, new, new.length)

/-- `operator=(const BigInteger&)` (BigInteger.h:91-99): the sign is assigned after the digits. -/
def assign (releases fails : Bool) (cap : Nat) (a b : BigInt) : Bool × BigInt × Nat :=
  match assignDigits releases fails cap a.digits b.digits with
  | (ok, digits, cap) => (ok, ⟨digits, if ok then b.neg else a.neg⟩, cap)

/-! ## `BigInteger` -/

/-- The variables and their storage. -/
structure Ints where
  vars : BigIntProg.Vars
  caps : Nat → Nat

/-- Put a number into a variable. -/
def Ints.put (w : Ints) (x : Nat) (b : BigInt) (cap : Nat) : Ints := ⟨w.vars.set x b, fun z => if z = x then cap else w.caps z⟩

/-- The variable that a statement gives a computed number. -/
def intTarget : BigIntProg.Stmt → Option Nat
  | .numeral x _ => some x
  | .bin _ x _ _ => some x
  | .un _ x _ => some x
  | _ => none

/-- Whether a statement allocates. -/
def intAllocates : BigIntProg.Stmt → Bool
  | .numeral .. | .bin .. | .un .. | .print _ => true
  | _ => false

/-- Execute a statement. `none`: `std::bad_alloc` was caught. -/
def intStep (releases : Bool) (fuel : Nat) (w : Ints) (s : BigIntProg.Stmt) (f : Fate) : Res (Option BigIntProg.Out × Ints) :=
  match s with
  | .copy x y =>
    if x = y then .ok (some .done, w)
    else match assign releases f.first (w.caps x) (w.vars x) (w.vars y) with
      | (ok, b, cap) => .ok (if ok then some .done else none, w.put x b cap)
  | .move x y =>
    if x = y then .ok (some .done, w)
    else .ok (some .done, (w.put x (w.vars y).move.1 (w.caps y)).put y (w.vars y).move.2 0)
  | s =>
    if intAllocates s && f.first then .ok (none, w)
    else do
      let (o, v) ← BigIntProg.step fuel w.vars s
      return (some o, ⟨v, fun z => if intTarget s = some z ∧ o = .done then (v z).digits.length + f.spare.1 else w.caps z⟩)

/-- A program. -/
def intRun (releases : Bool) (fuel : Nat) : Ints → List (BigIntProg.Stmt × Fate) → Res (List (Option BigIntProg.Out) × Ints)
  | w, [] => .ok ([], w)
  | w, (s, f) :: p => do
    let (o, w) ← intStep releases fuel w s f
    let (os, w) ← intRun releases fuel w p
    return (o :: os, w)

/-! ## `BigFloat` -/

/-- The variables and the storage of the integer and of the fractional part. -/
structure Floats where
  vars : BigFloatProg.Vars
  caps : Nat → Nat × Nat

/-- Put a number into a variable. -/
def Floats.put (w : Floats) (x : Nat) (b : BigFloat) (cap : Nat × Nat) : Floats :=
  ⟨w.vars.set x b, fun z => if z = x then cap else w.caps z⟩

/-- `operator=(const BigFloat&)` (BigFloat.h:81-90): integer part, fractional part, sign. -/
def assignFloat (releases : Bool) (f : Fate) (cap : Nat × Nat) (a b : BigFloat) : Bool × BigFloat × (Nat × Nat) :=
  match assign releases f.first cap.1 a.int b.int with
  | (false, i, c) => (false, ⟨i, a.frac, a.neg⟩, (c, cap.2))
  | (true, i, c) =>
    match assign releases f.second cap.2 a.frac b.frac with
    | (false, r, d) => (false, ⟨i, r, a.neg⟩, (c, d))
    | (true, r, d) => (true, ⟨i, r, b.neg⟩, (c, d))

/-- The variable that a statement gives a computed number. -/
def floatTarget : BigFloatProg.Stmt → Option Nat
  | .whole x _ => some x
  | .point x .. => some x
  | .bin _ x _ _ => some x
  | .un _ x _ => some x
  | _ => none

/-- Whether a statement allocates. -/
def floatAllocates : BigFloatProg.Stmt → Bool
  | .whole .. | .point .. | .bin .. | .un .. | .print _ => true
  | _ => false

/-- Execute a statement. `none`: `std::bad_alloc` was caught. -/
def floatStep (releases : Bool) (fuel : Nat) (w : Floats) (s : BigFloatProg.Stmt) (f : Fate) : Res (Option BigFloatProg.Out × Floats) :=
  match s with
  | .copy x y =>
    if x = y then .ok (some .done, w)
    else match assignFloat releases f (w.caps x) (w.vars x) (w.vars y) with
      | (ok, b, cap) => .ok (if ok then some .done else none, w.put x b cap)
  | .move x y =>
    if x = y then .ok (some .done, w)
    else .ok (some .done, (w.put x (w.vars y).move.1 (w.caps y)).put y (w.vars y).move.2 (0, 0))
  | s =>
    if floatAllocates s && f.first then .ok (none, w)
    else do
      let (o, v) ← BigFloatProg.step fuel w.vars s
      return (some o, ⟨v, fun z =>
        if floatTarget s = some z ∧ o = .done then ((v z).int.digits.length + f.spare.1, (v z).frac.digits.length + f.spare.2)
        else w.caps z⟩)

/-- A program. -/
def floatRun (releases : Bool) (fuel : Nat) : Floats → List (BigFloatProg.Stmt × Fate) → Res (List (Option BigFloatProg.Out) × Floats)
  | w, [] => .ok ([], w)
  | w, (s, f) :: p => do
    let (o, w) ← floatStep releases fuel w s f
    let (os, w) ← floatRun releases fuel w p
    return (o :: os, w)

end Caitlyn.NumMem
