import Verif.Model.BigFloat
import Verif.Spec.Decimal

/-!
# Programs with variables of type `BigFloat` (__Numeric/Types/BigFloat.h)

All variables exist and are default-constructed (`BigFloat x;`, BigFloat.h:31) at the beginning. Every statement stands in
a `try` block of its own, so that an exception ends the statement and not the program.
-/

namespace Caitlyn.BigFloatProg

/-- The arithmetic operators (BigFloat.h:393-411) and the functions they call. -/
inductive Bin where
  | add | subtract | multiply | divide
  deriving DecidableEq

/-- The functions of one number (BigFloat.h:236-301). -/
inductive Un where
  | abs | sqr | sqrt
  /-- `Pow(exponent)` -/
  | pow (exponent : Int)
  deriving DecidableEq

/-- The comparison operators (BigFloat.h:363-391). -/
inductive Cmp where
  | lt | gt | le | ge | eq | ne
  deriving DecidableEq

/-- Statements. -/
inductive Stmt where
  /-- `x = BigFloat{"z"};` with the decimal notation of the integer `z` -/
  | whole (x : Nat) (z : Int)
  /-- `x = BigFloat{"i.00f"};` with a minus sign if `neg`, and `zeros` zeros between the point and `f` -/
  | point (x : Nat) (neg : Bool) (i zeros f : Nat)
  /-- `x = y op z;` -/
  | bin (op : Bin) (x y z : Nat)
  /-- `x = y.op();` -/
  | un (op : Un) (x y : Nat)
  /-- `x = y;` (BigFloat.h:81-90) -/
  | copy (x y : Nat)
  /-- `x = std::move(y);` (BigFloat.h:92-102) -/
  | move (x y : Nat)
  /-- `x.ToString()` or `os << x` -/
  | print (x : Nat)
  /-- `x op y` -/
  | compare (op : Cmp) (x y : Nat)
  /-- `x.Size()` -/
  | size (x : Nat)
  deriving DecidableEq

/-- What a statement gives. -/
inductive Out where
  | done
  /-- `std::invalid_argument` was caught. -/
  | threw
  /-- `std::length_error` or `std::bad_alloc` was caught. -/
  | noMemory
  | text (s : Str)
  | flag (b : Bool)
  | number (n : Nat)
  deriving DecidableEq

/-- The variables. -/
abbrev Vars := Nat → BigFloat

def Vars.set (v : Vars) (x : Nat) (b : BigFloat) : Vars := fun y => if y = x then b else v y

/-- Evaluate `y op z`; `fuel` bounds the rounds of the loops in `Add` and `Subtract`. -/
def Bin.eval (fuel : Nat) : Bin → BigFloat → BigFloat → Res BigFloat
  | .add => BigFloat.add fuel
  | .subtract => BigFloat.subtract fuel
  | .multiply => BigFloat.multiply
  | .divide => BigFloat.divide

/-- Evaluate `y.op()`; `fuel` bounds the rounds of the loops. -/
def Un.eval (fuel : Nat) : Un → BigFloat → Res BigFloat
  | .abs, a => .ok (BigFloat.abs a)
  | .sqr, a => BigFloat.sqr a
  | .sqrt, a => BigFloat.sqrt fuel a
  | .pow e, a => BigFloat.pow fuel a e

/-- Evaluate `x op y`. -/
def Cmp.eval : Cmp → BigFloat → BigFloat → Bool
  | .lt => BigFloat.opLt
  | .gt => BigFloat.opGt
  | .le => BigFloat.opLe
  | .ge => BigFloat.opGe
  | .eq => BigFloat.opEq
  | .ne => BigFloat.opNe

/-- The text of a numeral with a point. -/
def pointText (neg : Bool) (i zeros f : Nat) : Str :=
  (if neg then c!"-" else []) ++ Spec.decimal i ++ c!"." ++ List.replicate zeros ⟨b!"0"⟩ ++ Spec.decimal f

/-- The assignment of a result, with the exceptions caught: the temporary is moved into `x` (BigFloat.h:92-102), and a
statement that throws does not get to the assignment. -/
def store (v : Vars) (x : Nat) : Res BigFloat → Res (Out × Vars)
  | .ok b => .ok (.done, v.set x (BigFloat.move b).1)
  | .error .invalidArgument => .ok (.threw, v)
  | .error .memory => .ok (.noMemory, v)
  | .error e => .error e

/-- Execute a statement. -/
def step (fuel : Nat) (v : Vars) : Stmt → Res (Out × Vars)
  | .whole x z => store v x (BigFloat.parse (Spec.decimal z))
  | .point x neg i zeros f => store v x (BigFloat.parse (pointText neg i zeros f))
  | .bin op x y z => store v x (op.eval fuel (v y) (v z))
  | .un op x y => store v x (op.eval fuel (v y))
  | .copy x y => .ok (.done, if x = y then v else v.set x (BigFloat.copy (v y)))
  | .move x y =>
    .ok (.done, if x = y then v else (v.set x (BigFloat.move (v y)).1).set y (BigFloat.move (v y)).2)
  | .print x => .ok (.text (BigFloat.toString (v x)), v)
  | .compare op x y => .ok (.flag (op.eval (v x) (v y)), v)
  | .size x => .ok (.number (v x).size, v)

/-- A program: what its statements give, and the variables after it. -/
def run (fuel : Nat) : Vars → List Stmt → Res (List Out × Vars)
  | v, [] => .ok ([], v)
  | v, s :: p => do
    let (o, v) ← step fuel v s
    let (os, v) ← run fuel v p
    return (o :: os, v)

end Caitlyn.BigFloatProg
