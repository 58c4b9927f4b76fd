import Verif.Model.BigFloatProg
import Verif.Spec.BigIntProg

/-!
# Specification of programs with `BigFloat`

The exact meaning, without digits: a variable holds two integers, what stands before and what stands after the point. The
second may be negative. `Signed` (Spec/BigIntProg.lean) is what a `BigInteger` computes with.
-/

namespace Caitlyn.Spec
open BigFloatProg

/-- What stands before and after the point. -/
structure Dec where
  int : Int
  frac : Int
  deriving DecidableEq

/-- What an operation comes to. -/
inductive Got where
  | value (d : Dec)
  /-- `std::invalid_argument` -/
  | threw
  /-- `std::length_error` -/
  | noMemory
  /-- never ends -/
  | hangs
  deriving DecidableEq

/-- Sum and difference of `BigInteger`s (there always is one). -/
def Signed.plus (a b : Signed) : Signed := (Signed.bin .add a b).getD a
def Signed.minus (a b : Signed) : Signed := (Signed.bin .subtract a b).getD a

namespace Dec

/-- The number of digits of an integer, without its sign; 0 has none. -/
def digits (z : Int) : Nat := Signed.digits z.natAbs

/-- A fraction with as many digits as the longer one of two, as an integer. -/
def stretched (n : Nat) (g : Int) : Int := g * 10 ^ (n - digits g)

def add (a b : Dec) : Got :=
  if ¬ (a.frac = 0 ↔ b.frac = 0) then .hangs
  else
    let n := max (digits a.frac) (digits b.frac)
    let sum := Signed.plus (.ofInt (stretched n a.frac)) (.ofInt (stretched n b.frac))
    let int := Signed.plus (.ofInt a.int) (.ofInt b.int)
    if n < Signed.digits sum.mag then .value ⟨(int.plus ⟨1, false⟩).int, (sum.minus ⟨10 * n, false⟩).int⟩
    else .value ⟨int.int, sum.int⟩

def subtract (a b : Dec) : Got :=
  if ¬ (a.frac = 0 ↔ b.frac = 0) then .hangs
  else
    let n := max (digits a.frac) (digits b.frac)
    let f := Signed.ofInt (stretched n a.frac)
    let g := Signed.ofInt (stretched n b.frac)
    let int := Signed.minus (.ofInt a.int) (.ofInt b.int)
    if f.less g then .value ⟨(int.minus ⟨1, false⟩).int, ((f.plus ⟨10 * n, false⟩).minus g).int⟩
    else .value ⟨int.int, (f.minus g).int⟩

/-- Both parts written one after the other, as an integer. -/
def joined (a : Dec) : Int :=
  let m : Nat := a.int.natAbs * 10 ^ max 1 (digits a.frac) + a.frac.natAbs
  if a.int < 0 then -m else m

/-- A point is put before the last `t` digits. -/
def point (z : Int) (t : Nat) : Got :=
  if 0 ≤ z ∨ t ≤ digits z then .value ⟨z.tdiv (10 ^ t), (z.natAbs % 10 ^ t : Nat)⟩
  else if t = digits z + 1 then .value ⟨0, z⟩
  else .threw

def multiply (a b : Dec) : Got :=
  if a.frac < 0 ∨ b.frac < 0 then .threw
  else point (a.joined * b.joined) (digits a.frac + digits b.frac)

def divide (a b : Dec) : Got :=
  if b = ⟨0, 0⟩ then .threw
  else if a.frac < 0 ∨ b.frac < 0 then .threw
  else if digits a.frac < digits b.frac then .noMemory
  else point (a.joined.tdiv b.joined) (digits a.frac - digits b.frac)

def bin : Bin → Dec → Dec → Got
  | .add => add
  | .subtract => subtract
  | .multiply => multiply
  | .divide => divide

/-- Square and multiply: `r` times `b` to the power `e`, at most `steps` squarings. -/
def powGo : Nat → Dec → Dec → Nat → Got
  | 0, r, _, _ => .value r
  | steps + 1, r, b, e =>
    if e = 0 then .value r
    else
      match (if e % 2 = 1 then r.multiply b else .value r), b.multiply b with
      | .value r, .value b => powGo steps r b (e / 2)
      | .value _, g => g
      | g, _ => g

def un : Un → Dec → Got
  | .abs, a => .value a
  | .sqr, a => a.multiply a
  | .sqrt, a =>
    if a.int ≤ 0 ∨ a.int = 1 ∧ a.frac ≤ 0 then .value a
    else if a.frac ≠ 0 then .hangs
    else .value ⟨Signed.isqrt a.int.natAbs / 10, 0⟩
  | .pow e, a => if e < 0 then .threw else powGo e.toNat ⟨1, 0⟩ a e.toNat

/-- The order of the comparison operators. -/
def less (a b : Dec) : Prop :=
  (Signed.ofInt a.int).less (.ofInt b.int) ∨ a.int = b.int ∧ (Signed.ofInt a.frac).less (.ofInt b.frac)

instance (a b : Dec) : Decidable (a.less b) := by unfold less; infer_instance

def cmp : Cmp → Dec → Dec → Bool
  | .lt, a, b => decide (a.less b)
  | .gt, a, b => decide (b.less a)
  | .le, a, b => !decide (b.less a)
  | .ge, a, b => !decide (a.less b)
  | .eq, a, b => decide (a = b)
  | .ne, a, b => decide (a ≠ b)

/-- What is printed. -/
def text (a : Dec) : Str := if a.frac = 0 then decimal a.int else decimal a.int ++ c!"." ++ decimal a.frac

/-- The digits fit into memory: less than 2^56 of them. -/
def fits (a : Dec) : Prop := digits a.int + digits a.frac < 2 ^ 56

instance (a : Dec) : Decidable a.fits := by unfold fits; infer_instance

end Dec

/-- The variables of the exact meaning. -/
abbrev DecVars := Nat → Dec

def DecVars.set (v : DecVars) (x : Nat) (a : Dec) : DecVars := fun y => if y = x then a else v y

/-- The assignment of a result. -/
def DecVars.store (v : DecVars) (x : Nat) : Got → Option (Out × DecVars)
  | .value d => some (.done, v.set x d)
  | .threw => some (.threw, v)
  | .noMemory => some (.noMemory, v)
  | .hangs => none

/-- What a statement gives and the variables after it; `none` if it never ends. -/
def DecVars.step (v : DecVars) : Stmt → Option (Out × DecVars)
  | .whole x z => some (.done, v.set x ⟨z, 0⟩)
  | .point x neg i _ f => some (.done, v.set x ⟨if neg then -i else i, f⟩)
  | .bin op x y z => v.store x (Dec.bin op (v y) (v z))
  | .un op x y => v.store x (Dec.un op (v y))
  | .copy x y => some (.done, v.set x (v y))
  | .move x y => some (.done, if x = y then v else (v.set x (v y)).set y ⟨0, 0⟩)
  | .print x => some (.text (v x).text, v)
  | .compare op x y => some (.flag (Dec.cmp op (v x) (v y)), v)
  | .size x => some (.number (Dec.digits (v x).int + Dec.digits (v x).frac), v)

def DecVars.run : DecVars → List Stmt → Option (List Out × DecVars)
  | v, [] => some ([], v)
  | v, s :: p => (v.step s).bind fun r => (DecVars.run r.2 p).map fun q => (r.1 :: q.1, q.2)

/-- The numbers a statement computes with fit into memory. -/
def DecVars.Room (v : DecVars) : Stmt → Prop
  | .whole _ _ => True
  | .point _ _ i zeros f => Dec.digits i + zeros + Dec.digits f < 2 ^ 56
  | .bin _ _ y z => (v y).fits ∧ (v z).fits
  | .un (.pow e) _ y => (2 * e.toNat + 1) * (Dec.digits (v y).int + Dec.digits (v y).frac + 3) < 2 ^ 56
  | .un _ _ y => (v y).fits
  | _ => True

/-- So do those of all statements of a program. -/
def DecVars.AllRoom : DecVars → List Stmt → Prop
  | _, [] => True
  | v, s :: p => v.Room s ∧ ∀ r, v.step s = some r → DecVars.AllRoom r.2 p

/-- The intended meaning, where there is one: variables hold rational numbers. Roots are left out, and so are
statements that throw. -/
abbrev RatVars := Nat → Rat

def RatVars.set (v : RatVars) (x : Nat) (q : Rat) : RatVars := fun y => if y = x then q else v y

def ratBin : Bin → Rat → Rat → Rat
  | .add, a, b => a + b
  | .subtract, a, b => a - b
  | .multiply, a, b => a * b
  | .divide, a, b => a / b

def RatVars.step (v : RatVars) : Stmt → RatVars
  | .whole x z => v.set x z
  | .point x neg i zeros f =>
    let q : Rat := i + f / 10 ^ (zeros + (Nat.toDigits 10 f).length)
    v.set x (if neg then -q else q)
  | .bin op x y z => v.set x (ratBin op (v y) (v z))
  | .un .abs x y => v.set x (if v y < 0 then -v y else v y)
  | .un .sqr x y => v.set x (v y * v y)
  | .un (.pow e) x y => v.set x (v y ^ e.toNat)
  | .copy x y => v.set x (v y)
  | .move x y => if x = y then v else (v.set x (v y)).set y 0
  | _ => v

def RatVars.run (v : RatVars) (p : List Stmt) : RatVars := p.foldl RatVars.step v

/-- Variables that hold natural numbers. -/
abbrev NatVars := Nat → Nat

def NatVars.set (v : NatVars) (x n : Nat) : NatVars := fun y => if y = x then n else v y

def natCmp : Cmp → Nat → Nat → Bool
  | .lt, a, b => decide (a < b)
  | .gt, a, b => decide (b < a)
  | .le, a, b => decide (a ≤ b)
  | .ge, a, b => decide (b ≤ a)
  | .eq, a, b => decide (a = b)
  | .ne, a, b => decide (a ≠ b)

/-- What a statement on natural numbers should give: sums, differences that are none below zero, quotients rounded down,
comparisons. The other statements are left out. -/
def NatVars.step (v : NatVars) : Stmt → Option (Out × NatVars)
  | .whole x z => if 0 ≤ z then some (.done, v.set x z.toNat) else none
  | .bin .add x y z => some (.done, v.set x (v y + v z))
  | .bin .subtract x y z => if v z ≤ v y then some (.done, v.set x (v y - v z)) else none
  | .bin .divide x y z => some (if v z = 0 then (.threw, v) else (.done, v.set x (v y / v z)))
  | .un .abs x y => some (.done, v.set x (v y))
  | .copy x y => some (.done, v.set x (v y))
  | .move x y => some (.done, if x = y then v else (v.set x (v y)).set y 0)
  | .print x => some (.text (decimal (v x)), v)
  | .compare op x y => some (.flag (natCmp op (v x) (v y)), v)
  | .size x => some (.number (Signed.digits (v x)), v)
  | _ => none

def NatVars.run : NatVars → List Stmt → Option (List Out × NatVars)
  | v, [] => some ([], v)
  | v, s :: p => (v.step s).bind fun r => (NatVars.run r.2 p).map fun q => (r.1 :: q.1, q.2)

end Caitlyn.Spec
