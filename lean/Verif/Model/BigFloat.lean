import Verif.Model.BigInt

/-!
# Model of `include/Caitlyn/__Numeric/Types/BigFloat.h`

A `BigFloat` is two `BigInteger`s, what stands before and what stands after the point, and a sign flag. The fraction is
kept as an *integer*. The member functions are modelled as they are written; the loops carry fuel. The constructor from
`double` (BigFloat.h:33-35) is the constructor from the text that `std::to_string` makes, and that text is its argument
here. The private `RemoveLeadingZeros` (349-353) is never called.
-/

namespace Caitlyn

/-- `class BigFloat` (BigFloat.h:25-359): `integerPart_`, `fractionalPart_`, `isNegative_`. -/
structure BigFloat where
  int : BigInt
  frac : BigInt
  neg : Bool
  deriving DecidableEq, Repr

namespace BigFloat

/-- `BigFloat()` (BigFloat.h:31). -/
def default : BigFloat := ⟨.default, .default, false⟩

/-- `BigFloat(const String&)` (BigFloat.h:41-68). -/
def parse (number : Str) : Res BigFloat :=
  if number = [] then .error .invalidArgument
  else do
    let point ← Str.find number c!"." 0
    if point = npos then do
      return ⟨← BigInt.parse number, .default, false⟩
    else do
      let integer ← Str.substring number 0 point
      let fractional ← Str.substring number (point + 1) npos
      let integer := if integer = [] then c!"0" else integer
      let fractional := if fractional = [] then c!"0" else fractional
      let int ← BigInt.parse integer
      return ⟨int, ← BigInt.parse fractional, false⟩

/-- `BigFloat(const char*)` (BigFloat.h:37-39) and the literal operator (419-422). -/
def ofCStr (mem : List UInt8) : Res BigFloat := do parse (← Str.ofCStr mem)

/-- `BigFloat(double)` (BigFloat.h:33-35) for a value that `std::to_string` turns into `text`. -/
def ofDouble (text : List UInt8) : Res BigFloat := do parse (← Str.ofStdString text)

/-- Copy construction and assignment (BigFloat.h:70, 81-90). -/
def copy (a : BigFloat) : BigFloat := ⟨a.int.copy, a.frac.copy, a.neg⟩

/-- Move construction and assignment (BigFloat.h:72-78, 92-102): the new value and the object moved from. -/
def move (a : BigFloat) : BigFloat × BigFloat :=
  (⟨a.int.move.1, a.frac.move.1, a.neg⟩, ⟨a.int.move.2, a.frac.move.2, false⟩)

/-- The loops `while (x.Size() < y.Size()) x = x.Multiply(BigInteger{"10"});` (BigFloat.h:111-118, 143-150). -/
def stretch : Nat → BigInt → BigInt → Res BigInt
  | 0, _, _ => .error .fuel
  | n + 1, x, y =>
    if x.size < y.size then do stretch n (← x.multiply (← BigInt.parse c!"10")) y
    else .ok x

/-- `Add` (BigFloat.h:105-135), `operator+` (BigFloat.h:393-396). `fuel` bounds the rounds of each loop. -/
def add (fuel : Nat) (a b : BigFloat) : Res BigFloat := do
  let this ← stretch fuel a.frac b.frac
  let other ← stretch fuel b.frac this
  let sum ← this.add other
  let carry := decide (sum.size > this.size)
  let sum ← if carry then do sum.subtract (← (← BigInt.parse c!"10").multiply (← BigInt.ofInt this.size)) else .ok sum
  let int ← a.int.add b.int
  let int ← if carry then do int.add (← BigInt.parse c!"1") else .ok int
  parse (Str.plus (Str.plus int.toString c!".") sum.toString)

/-- `Subtract` (BigFloat.h:137-166), `operator-` (BigFloat.h:398-401). -/
def subtract (fuel : Nat) (a b : BigFloat) : Res BigFloat := do
  let this ← stretch fuel a.frac b.frac
  let other ← stretch fuel b.frac this
  let borrow := this.lessThan other
  let this ← if borrow then do this.add (← (← BigInt.parse c!"10").multiply (← BigInt.ofInt this.size)) else .ok this
  let diff ← this.subtract other
  let int ← a.int.subtract b.int
  let int ← if borrow then do int.subtract (← BigInt.parse c!"1") else .ok int
  parse (Str.plus (Str.plus int.toString c!".") diff.toString)

/-- Both parts as one integer (BigFloat.h:172-173, 207-209). -/
def full (a : BigFloat) : Res BigInt := BigInt.parse (Str.plus a.int.toString a.frac.toString)

/-- `String(count, '0')` (BigFloat.h:191, 227). A `vector<Char>` holds less than 2^60 elements: a `Char` takes at least
16 bytes, and no object more than 2^63. -/
def zeros (count : Nat) : Res Str := if count ≥ 2 ^ 60 then .error .memory else Str.ofCountByte count 0x30

/-- The end of `Multiply` and `Divide` (BigFloat.h:189-196, 225-232): the point is put before the last `total` digits.
The arithmetic on sizes wraps. -/
def putPoint (result : BigInt) (total : Nat) : Res BigFloat := do
  let text := result.toString
  let text ← if total ≥ text.length then do
      Str.insert text 0 (.other (← zeros (wadd (wsub total text.length) 1)))
    else .ok text
  let text ← Str.insertCount text (wsub text.length total) 1 ⟨b!"."⟩
  parse text

/-- `Multiply` (BigFloat.h:168-197), `operator*` (BigFloat.h:403-406). -/
def multiply (a b : BigFloat) : Res BigFloat := do
  let product ← (← full a).multiply (← full b)
  putPoint product (wadd a.frac.size b.frac.size)

/-- `Equal` (BigFloat.h:309-313). -/
def equal (a b : BigFloat) : Bool := a.int.equal b.int && a.frac.equal b.frac && a.neg == b.neg

/-- `LessThan` (BigFloat.h:315-330). -/
def lessThan (a b : BigFloat) : Bool :=
  if a.neg ≠ b.neg then a.neg
  else if a.int.lessThan b.int then true
  else if a.int.greaterThan b.int then false
  else a.frac.lessThan b.frac

/-- `GreaterThan` (BigFloat.h:332-335). -/
def greaterThan (a b : BigFloat) : Bool := !lessThan a b && !equal a b

/-- `Divide` (BigFloat.h:199-233), `operator/` (BigFloat.h:408-411). -/
def divide (a b : BigFloat) : Res BigFloat := do
  if equal b (← parse c!"0") then .error .invalidArgument
  else do
    let quotient ← (← full a).divide (← full b)
    putPoint quotient (wsub a.frac.size b.frac.size)

/-- `Abs` (BigFloat.h:236-241): only `isNegative_` is changed. -/
def abs (a : BigFloat) : BigFloat := { a with neg := false }

/-- The loop of `Pow` (BigFloat.h:252-260). -/
def powLoop : Nat → BigFloat → BigFloat → Int → Res BigFloat
  | 0, _, _, _ => .error .fuel
  | n + 1, result, base, exponent =>
    if 0 < exponent then do
      let result ← if exponent.tmod 2 = 1 then multiply result base else .ok result
      powLoop n result (← multiply base base) (exponent.tdiv 2)
    else .ok result

/-- `Pow` (BigFloat.h:243-262). -/
def pow (fuel : Nat) (a : BigFloat) (exponent : Int) : Res BigFloat :=
  if exponent < 0 then .error .invalidArgument
  else do powLoop fuel (← parse c!"1") a exponent

/-- `Sqr` (BigFloat.h:264-267). -/
def sqr (a : BigFloat) : Res BigFloat := multiply a a

/-- The loop of `Sqrt` (BigFloat.h:283-300); `fuel` is the fuel of the calls of `Add` and `Subtract`. -/
def sqrtLoop (fuel : Nat) (this : BigFloat) : Nat → BigFloat → BigFloat → Res BigFloat
  | 0, _, _ => .error .fuel
  | n + 1, low, high =>
    if lessThan low high || equal low high then do
      let mid ← divide (← add fuel low high) (← parse c!"2")
      let squared ← sqr mid
      if equal squared this then .ok mid
      else if lessThan squared this then do sqrtLoop fuel this n (← add fuel mid (← parse c!"1")) high
      else do sqrtLoop fuel this n low (← subtract fuel mid (← parse c!"1"))
    else .ok high

/-- `Sqrt` (BigFloat.h:269-301). -/
def sqrt (fuel : Nat) (a : BigFloat) : Res BigFloat :=
  if a.neg then .error .invalidArgument
  else do
    if equal a (← parse c!"0") || equal a (← parse c!"1") then .ok a
    else sqrtLoop fuel a fuel (← parse c!"1") a

/-- `Size` (BigFloat.h:304-307). -/
def size (a : BigFloat) : Nat := a.int.size + a.frac.size

/-- `ToString` (BigFloat.h:337-346), and what `operator<<` prints (413-417). -/
def toString (a : BigFloat) : Str :=
  let result := a.int.toString
  if a.frac.toString ≠ [] ∧ ¬ Str.eqCStr a.frac.toString b!"0" then
    Str.pushBack result ⟨b!"."⟩ ++ a.frac.toString
  else result

/-- `operator<` (BigFloat.h:363-366). -/
def opLt (a b : BigFloat) : Bool := lessThan a b
/-- `operator>` (BigFloat.h:368-371). -/
def opGt (a b : BigFloat) : Bool := greaterThan a b
/-- `operator<=` (BigFloat.h:373-376). -/
def opLe (a b : BigFloat) : Bool := lessThan a b || equal a b
/-- `operator>=` (BigFloat.h:378-381). -/
def opGe (a b : BigFloat) : Bool := greaterThan a b || equal a b
/-- `operator==` (BigFloat.h:383-386). -/
def opEq (a b : BigFloat) : Bool := equal a b
/-- `operator!=` (BigFloat.h:388-391). -/
def opNe (a b : BigFloat) : Bool := !equal a b

end BigFloat
end Caitlyn
