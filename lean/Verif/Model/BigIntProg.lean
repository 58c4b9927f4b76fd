import Verif.Model.BigInt
import Verif.Spec.Decimal

/-!
# Programs with variables of type `BigInteger` (__Numeric/Types/BigInteger.h)

All variables exist and are default-constructed (`BigInteger x;`, BigInteger.h:37) at the beginning. Every statement
stands in a `try` block of its own, so that an exception ends the statement and not the program.
-/

namespace Caitlyn.BigIntProg

/-- The arithmetic operators (BigInteger.h:441-464) and the functions they call. -/
inductive Bin where
  | add | subtract | multiply | divide | modulo
  deriving DecidableEq

/-- The functions of one number (BigInteger.h:270-335). -/
inductive Un where
  | abs | sqr | sqrt
  /-- `Pow(exponent)` -/
  | pow (exponent : Int)
  deriving DecidableEq

/-- The comparison operators (BigInteger.h:411-439). -/
inductive Cmp where
  | lt | gt | le | ge | eq | ne
  deriving DecidableEq

/-- Statements. -/
inductive Stmt where
  /-- `x = BigInteger{"z"};` with the decimal notation of `z` -/
  | numeral (x : Nat) (z : Int)
  /-- `x = y op z;` -/
  | bin (op : Bin) (x y z : Nat)
  /-- `x = y.op();` -/
  | un (op : Un) (x y : Nat)
  /-- `x = y;` (BigInteger.h:91-99) -/
  | copy (x y : Nat)
  /-- `x = std::move(y);` (BigInteger.h:101-110) -/
  | move (x y : Nat)
  /-- `x.ToString()` or `os << x` -/
  | print (x : Nat)
  /-- `x op y` -/
  | compare (op : Cmp) (x y : Nat)
  /-- `x.Size()` -/
  | size (x : Nat)

/-- What a statement gives. -/
inductive Out where
  | done
  /-- `std::invalid_argument` was caught. -/
  | threw
  | text (s : Str)
  | flag (b : Bool)
  | number (n : Nat)
  deriving DecidableEq

/-- The variables. -/
abbrev Vars := Nat → BigInt

def Vars.set (v : Vars) (x : Nat) (b : BigInt) : Vars := fun y => if y = x then b else v y

/-- Evaluate `y op z`. -/
def Bin.eval : Bin → BigInt → BigInt → Res BigInt
  | .add => BigInt.add
  | .subtract => BigInt.subtract
  | .multiply => BigInt.multiply
  | .divide => BigInt.divide
  | .modulo => BigInt.modulo

/-- Evaluate `y.op()`; `fuel` bounds the rounds of the loops in `Pow` and `Sqrt`. -/
def Un.eval (fuel : Nat) : Un → BigInt → Res BigInt
  | .abs, a => .ok (BigInt.abs a)
  | .sqr, a => BigInt.sqr a
  | .sqrt, a => BigInt.sqrt fuel a
  | .pow e, a => BigInt.pow fuel a e

/-- Evaluate `x op y`. -/
def Cmp.eval : Cmp → BigInt → BigInt → Bool
  | .lt => BigInt.opLt
  | .gt => BigInt.opGt
  | .le => BigInt.opLe
  | .ge => BigInt.opGe
  | .eq => BigInt.opEq
  | .ne => BigInt.opNe

/-- The assignment of a result, with the exception caught: the temporary is moved into `x` (BigInteger.h:101-110), and a
statement that throws does not get to the assignment. -/
def store (v : Vars) (x : Nat) : Res BigInt → Res (Out × Vars)
  | .ok b => .ok (.done, v.set x (BigInt.move b).1)
  | .error .invalidArgument => .ok (.threw, v)
  | .error e => .error e

/-- Execute a statement. -/
def step (fuel : Nat) (v : Vars) : Stmt → Res (Out × Vars)
  | .numeral x z => store v x (BigInt.parse (Spec.decimal z))
  | .bin op x y z => store v x (op.eval (v y) (v z))
  | .un op x y => store v x (op.eval fuel (v y))
  | .copy x y => .ok (.done, if x = y then v else v.set x (BigInt.copy (v y)))
  | .move x y =>
    .ok (.done, if x = y then v else (v.set x (BigInt.move (v y)).1).set y (BigInt.move (v y)).2)
  | .print x => .ok (.text (BigInt.toString (v x)), v)
  | .compare op x y => .ok (.flag (op.eval (v x) (v y)), v)
  | .size x => .ok (.number (v x).size, v)

/-- A program: what its statements give, and the variables after it. -/
def run (fuel : Nat) : Vars → List Stmt → Res (List Out × Vars)
  | v, [] => .ok ([], v)
  | v, s :: p => do
    let (o, v) ← step fuel v s
    let (os, v) ← run fuel v p
    return (o :: os, v)

end Caitlyn.BigIntProg
