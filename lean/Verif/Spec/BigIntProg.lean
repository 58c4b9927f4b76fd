import Verif.Model.BigIntProg

/-!
# Specification of programs with `BigInteger`

Two meanings of a program, both without digits. In the exact one a variable holds a magnitude and a sign flag, where a
zero may have the flag. In the intended one it holds an integer.
-/

namespace Caitlyn.Spec
open BigIntProg

/-- A number with a sign flag of its own. -/
structure Signed where
  mag : Nat
  neg : Bool
  deriving DecidableEq

namespace Signed

/-- The integer it stands for. -/
def int (a : Signed) : Int := if a.neg then -a.mag else a.mag

/-- The number with the flag that belongs to the integer. -/
def ofInt (z : Int) : Signed := ⟨z.natAbs, decide (z < 0)⟩

/-- The integer part of the root. -/
def isqrt : Nat → Nat
  | 0 => 0
  | n + 1 => if (isqrt n + 1) * (isqrt n + 1) ≤ n + 1 then isqrt n + 1 else isqrt n

/-- What the operators give; `none` if the result has digits that are none. Division by the zero without flag is left
out here. -/
def bin : Bin → Signed → Signed → Option Signed
  | .add, a, b =>
    some (if a.neg = b.neg then ⟨a.mag + b.mag, a.neg && decide (a.mag + b.mag ≠ 0)⟩
      else if b.mag < a.mag then ⟨a.mag - b.mag, false⟩
      else ⟨b.mag - a.mag, b.neg⟩)
  | .subtract, a, b =>
    some (if a.neg = b.neg then ⟨((a.mag : Int) - b.mag).natAbs, decide (a.mag < b.mag)⟩
      else ⟨((a.mag : Int) - b.mag).natAbs, a.neg⟩)
  | .multiply, a, b => some ⟨a.mag * b.mag, (a.neg != b.neg) && decide (a.mag * b.mag ≠ 0)⟩
  | .divide, a, b =>
    if a.mag ≠ 0 ∧ b.mag = 0 then none
    else some ⟨a.mag / b.mag, (a.neg != b.neg) && decide (a.mag / b.mag ≠ 0)⟩
  | .modulo, a, b => some ⟨a.mag % b.mag, a.neg⟩

/-- Whether an operator throws. -/
def binThrows : Bin → Signed → Bool
  | .divide, b | .modulo, b => decide (b = ⟨0, false⟩)
  | _, _ => false

/-- What the functions of one number give. -/
def un : Un → Signed → Signed
  | .abs, a => ⟨a.mag, false⟩
  | .sqr, a => ⟨a.mag * a.mag, false⟩
  | .sqrt, a => ⟨isqrt a.mag, false⟩
  | .pow e, a => ⟨a.mag ^ e.toNat, a.neg && decide (e.toNat % 2 = 1 ∧ a.mag ≠ 0)⟩

/-- Whether they throw. -/
def unThrows : Un → Signed → Bool
  | .sqrt, a => a.neg
  | .pow e, _ => decide (e < 0)
  | _, _ => false

/-- The order of the comparison operators: everything with the flag is below everything without, and among numbers with
the same flag the one of the smaller magnitude is the smaller. -/
def less (a b : Signed) : Prop := a.neg = true ∧ b.neg = false ∨ a.neg = b.neg ∧ a.mag < b.mag

instance (a b : Signed) : Decidable (a.less b) := by unfold less; infer_instance

def cmp : Cmp → Signed → Signed → Bool
  | .lt, a, b => decide (a.less b)
  | .gt, a, b => decide (b.less a)
  | .le, a, b => !decide (b.less a)
  | .ge, a, b => !decide (a.less b)
  | .eq, a, b => decide (a = b)
  | .ne, a, b => decide (a ≠ b)

/-- The number of decimal digits; 0 has none. -/
def digits (n : Nat) : Nat := if n = 0 then 0 else (Nat.toDigits 10 n).length

end Signed

/-- The variables of the exact meaning. -/
abbrev SignedVars := Nat → Signed

def SignedVars.set (v : SignedVars) (x : Nat) (a : Signed) : SignedVars := fun y => if y = x then a else v y

/-- What a statement gives and the variables after it; `none` if a number other than zero is divided by a zero with
the flag. -/
def SignedVars.step (v : SignedVars) : Stmt → Option (Out × SignedVars)
  | .numeral x z => some (.done, v.set x (.ofInt z))
  | .bin op x y z =>
    if Signed.binThrows op (v z) then some (.threw, v)
    else (Signed.bin op (v y) (v z)).map fun r => (.done, v.set x r)
  | .un op x y => some (if Signed.unThrows op (v y) then (.threw, v) else (.done, v.set x (Signed.un op (v y))))
  | .copy x y => some (.done, v.set x (v y))
  | .move x y => some (.done, if x = y then v else (v.set x (v y)).set y ⟨0, false⟩)
  | .print x => some (.text (decimal (v x).int), v)
  | .compare op x y => some (.flag (Signed.cmp op (v x) (v y)), v)
  | .size x => some (.number (Signed.digits (v x).mag), v)

def SignedVars.run : SignedVars → List Stmt → Option (List Out × SignedVars)
  | v, [] => some ([], v)
  | v, s :: p => (v.step s).bind fun r => (SignedVars.run r.2 p).map fun q => (r.1 :: q.1, q.2)

/-- The variables of the intended meaning. -/
abbrev IntVars := Nat → Int

def IntVars.set (v : IntVars) (x : Nat) (z : Int) : IntVars := fun y => if y = x then z else v y

/-- The intended meaning of the operators. -/
def intBin : Bin → Int → Int → Int
  | .add, a, b => a + b
  | .subtract, a, b => a - b
  | .multiply, a, b => a * b
  | .divide, a, b => a.tdiv b
  | .modulo, a, b => a.tmod b

/-- The intended meaning of the functions of one number. -/
def intUn : Un → Int → Int
  | .abs, a => a.natAbs
  | .sqr, a => a * a
  | .sqrt, a => Signed.isqrt a.toNat
  | .pow e, a => a ^ e.toNat

def intCmp : Cmp → Int → Int → Bool
  | .lt, a, b => decide (a < b)
  | .gt, a, b => decide (b < a)
  | .le, a, b => decide (a ≤ b)
  | .ge, a, b => decide (b ≤ a)
  | .eq, a, b => decide (a = b)
  | .ne, a, b => decide (a ≠ b)

/-- What a statement should give, and the variables after it. -/
def IntVars.step (v : IntVars) : Stmt → Out × IntVars
  | .numeral x z => (.done, v.set x z)
  | .bin op x y z =>
    if (op = .divide ∨ op = .modulo) ∧ v z = 0 then (.threw, v) else (.done, v.set x (intBin op (v y) (v z)))
  | .un op x y =>
    match op with
    | .sqrt => if v y < 0 then (.threw, v) else (.done, v.set x (intUn op (v y)))
    | .pow e => if e < 0 then (.threw, v) else (.done, v.set x (intUn op (v y)))
    | _ => (.done, v.set x (intUn op (v y)))
  | .copy x y => (.done, v.set x (v y))
  | .move x y => (.done, if x = y then v else (v.set x (v y)).set y 0)
  | .print x => (.text (decimal (v x)), v)
  | .compare op x y => (.flag (intCmp op (v x) (v y)), v)
  | .size x => (.number (Signed.digits (v x).natAbs), v)

def IntVars.run : IntVars → List Stmt → List Out × IntVars
  | v, [] => ([], v)
  | v, s :: p => ((v.step s).1 :: (IntVars.run (v.step s).2 p).1, (IntVars.run (v.step s).2 p).2)

/-- The statements that go wrong, by the integers in the variables: a sum of a negative and a larger part of a
nonnegative number, a sum of a number and its negative that gives zero, a difference of numbers of which exactly one is
negative and none is zero, a difference and an order of two different negative numbers, a remainder zero of a
negative number. -/
def Wrong (v : IntVars) : Stmt → Prop
  | .bin .add _ y z => v y < 0 ∧ 0 ≤ v z ∧ v y + v z < 0 ∨ 0 ≤ v y ∧ v z < 0 ∧ v y + v z = 0
  | .bin .subtract _ y z =>
    v y < 0 ∧ 0 < v z ∨ 0 < v y ∧ v z < 0 ∨ v y < 0 ∧ v z < 0 ∧ v y ≠ v z
  | .bin .modulo _ y z => v y < 0 ∧ v z ≠ 0 ∧ (v y).tmod (v z) = 0
  | .compare op x y => (op ≠ .eq ∧ op ≠ .ne) ∧ v x < 0 ∧ v y < 0 ∧ v x ≠ v y
  | _ => False

/-- No statement of the program goes wrong. -/
def NoneWrong (v : IntVars) : List Stmt → Prop
  | [] => True
  | s :: p => ¬ Wrong v s ∧ NoneWrong (v.step s).2 p

/-- In the intended meaning no variable is ever below zero. -/
def NeverNegative (v : IntVars) : List Stmt → Prop
  | [] => ∀ x, 0 ≤ v x
  | s :: p => (∀ x, 0 ≤ v x) ∧ NeverNegative (v.step s).2 p

end Caitlyn.Spec
