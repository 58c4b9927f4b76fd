import Verif.Model.Str
import Verif.Lit

/-!
# Model of `include/Caitlyn/__Numeric/Types/BigInteger.h`

Digits are C++ `int`s, modelled as integers; every computation that could overflow an `int` goes
through `chkInt`. Loops over vector indices are recursions over the lists of digits (least
significant first, as in `digits_`). Loops without a syntactic bound carry fuel; running out of
it is the outcome `fuel`, which the properties show not to happen.

`std::vector` sizes are assumed to stay far below 2^64 (size computations such as
`max(...) + 1` do not wrap).
-/

namespace Caitlyn

/-- An `int` computation: overflow is undefined behaviour. -/
def chkInt (x : Int) : Res Int := if -2147483648 ≤ x ∧ x ≤ 2147483647 then .ok x else .error .ub

/-- `std::to_string` of an integer: the ASCII characters of its decimal representation. -/
def stdToString (z : Int) : List UInt8 := (toString z).toList.map fun c => UInt8.ofNat c.toNat

/-- `class BigInteger` (BigInteger.h:30-407): members `digits_`, `is_negative_`. -/
structure BigInt where
  digits : List Int
  neg : Bool
  deriving DecidableEq, Repr

namespace BigInt

/-- `BigInteger()` (BigInteger.h:37). -/
def default : BigInt := ⟨[], false⟩

/-- The loop of `RemoveLeadingZeros` (BigInteger.h:394-397): pops zeros from the back. -/
def trim (ds : List Int) : List Int := (ds.reverse.dropWhile (· == 0)).reverse

/-- `RemoveLeadingZeros` (BigInteger.h:392-402). -/
def removeLeadingZeros (b : BigInt) : BigInt :=
  let ds := trim b.digits
  ⟨ds, if ds.isEmpty then false else b.neg⟩

/-- The digit loop of the constructor (BigInteger.h:71-78); `push_back` in reading order. -/
def parseDigits : Str → Res (List Int)
  | [] => .ok []
  | c :: cs => do
    let cp ← c.getCodePoint
    if CharUtil.isDigit cp then do
      let rest ← parseDigits cs
      return ((cp : Int) - 0x30) :: rest
    else .error .invalidArgument

/-- `BigInteger(const String&)` (BigInteger.h:51-81). -/
def parse (number : Str) : Res BigInt :=
  match number with
  | [] => .error .invalidArgument
  | c :: cs =>
    if c = Chr.ofByte 0x2D then do
      let ds ← parseDigits cs
      return removeLeadingZeros ⟨ds.reverse, true⟩
    else if c = Chr.ofByte 0x2B then do
      let ds ← parseDigits cs
      return removeLeadingZeros ⟨ds.reverse, false⟩
    else do
      let ds ← parseDigits (c :: cs)
      return removeLeadingZeros ⟨ds.reverse, false⟩

/-- `BigInteger(const char*)` (BigInteger.h:47-49), the literal `_bigint` (BigInteger.h:472-475). -/
def ofCStr (mem : List UInt8) : Res BigInt := do parse (← Str.ofCStr mem)

/-- `BigInteger{std::to_string(value)}`: the constructors from `int64_t` and `uint64_t`
(BigInteger.h:39-45) and the small numbers made in `Divide`. -/
def ofInt (z : Int) : Res BigInt := do parse (← Str.ofStdString (stdToString z))

/-- Move constructor and move assignment (BigInteger.h:85-88, 101-110): the new value and the
moved-from object (a moved-from `std::vector` is empty). -/
def move (b : BigInt) : BigInt × BigInt := (b, ⟨[], false⟩)

/-- Copy constructor and copy assignment (BigInteger.h:83, 91-99). -/
def copy (b : BigInt) : BigInt := ⟨b.digits, b.neg⟩

/-- `Equal` (BigInteger.h:343-346). -/
def equal (a b : BigInt) : Bool := a.digits == b.digits && a.neg == b.neg

/-- The loop of `LessThan` (BigInteger.h:358-364) for vectors of equal size, on the digits from
the most significant one. -/
def ltRev : List Int → List Int → Bool
  | x :: xs, y :: ys => if x ≠ y then decide (x < y) else ltRev xs ys
  | _, _ => false

/-- `LessThan` (BigInteger.h:348-366). -/
def lessThan (a b : BigInt) : Bool :=
  if a.neg ≠ b.neg then a.neg
  else if a.digits.length ≠ b.digits.length then decide (a.digits.length < b.digits.length)
  else ltRev a.digits.reverse b.digits.reverse

/-- `GreaterThan` (BigInteger.h:368-371). -/
def greaterThan (a b : BigInt) : Bool := !lessThan a b && !equal a b

/-- `if (i < v.size()) sum += v[i];` (BigInteger.h:124-131), on the digits from position `i` on. -/
def plusHead (sum : Int) : List Int → Res Int
  | [] => .ok sum
  | d :: _ => chkInt (sum + d)

/-- `if (i < v.size()) diff -= v[i];` (BigInteger.h:175-178). -/
def minusHead (diff : Int) : List Int → Res Int
  | [] => .ok diff
  | d :: _ => chkInt (diff - d)

/-- The digit loop of `Add` (BigInteger.h:121-134): `n` more positions, the digits of both
operands from the current position on, the carry. -/
def addLoop : Nat → List Int → List Int → Int → Res (List Int)
  | 0, _, _, _ => .ok []
  | n + 1, xs, ys, carry => do
    let sum ← plusHead carry xs
    let sum ← plusHead sum ys
    let rest ← addLoop n xs.tail ys.tail (sum.tdiv 10)
    return sum.tmod 10 :: rest

/-- The digit loop of `Subtract` (BigInteger.h:172-190): remaining digits of the larger and of the
smaller operand, the borrow. -/
def subLoop : List Int → List Int → Int → Res (List Int)
  | [], _, _ => .ok []
  | x :: xs, ys, borrow => do
    let diff ← chkInt (x - borrow)
    let diff ← minusHead diff ys
    if diff < 0 then do
      let rest ← subLoop xs ys.tail 1
      return (diff + 10) :: rest
    else do
      let rest ← subLoop xs ys.tail 0
      return diff :: rest

/-- `Subtract` when both signs are equal (BigInteger.h:160-192). -/
def subSame (a b : BigInt) : Res BigInt :=
  if equal a b then parse c!"0"
  else do
    let neg := lessThan a b
    let larger := if neg then b else a
    let smaller := if neg then a else b
    let ds ← subLoop larger.digits smaller.digits 0
    return removeLeadingZeros ⟨ds, neg⟩

/-- `Add` (BigInteger.h:113-150), `operator+` (BigInteger.h:441-444). The two calls of `Subtract` have operands of equal sign, so
they are calls of `subSame`. -/
def add (a b : BigInt) : Res BigInt :=
  if a.neg = b.neg then do
    let ds ← addLoop (max a.digits.length b.digits.length + 1) a.digits b.digits 0
    return removeLeadingZeros ⟨ds, a.neg⟩
  else do
    let absThis : BigInt := ⟨a.digits, false⟩
    let absOther : BigInt := ⟨b.digits, false⟩
    if greaterThan absThis absOther then subSame absThis absOther
    else do
      let r ← subSame absOther absThis
      return ⟨r.digits, b.neg⟩

/-- `Subtract` (BigInteger.h:152-193), `operator-` (BigInteger.h:446-449). -/
def subtract (a b : BigInt) : Res BigInt :=
  if a.neg ≠ b.neg then do
    let r ← add a b
    return ⟨r.digits, a.neg⟩
  else subSame a b

/-- The inner loop of `Multiply` (BigInteger.h:203-209) for one digit `x` of the left operand:
remaining digits of the right operand, `result.digits_` from position `i + j` on, the
carry. Running past the end of `result.digits_` is undefined. -/
def mulInner (x : Int) : List Int → List Int → Int → Res (List Int)
  | ys, rs, carry =>
    match rs with
    | [] => if ys.isEmpty ∧ carry = 0 then .ok [] else .error .ub
    | r :: rs' =>
      if ys.isEmpty ∧ carry = 0 then .ok (r :: rs')
      else do
        let prod ← chkInt (x * ys.headD 0)
        let sum ← chkInt (r + prod)
        let sum ← chkInt (sum + carry)
        let rest ← mulInner x ys.tail rs' (sum.tdiv 10)
        return sum.tmod 10 :: rest

/-- The outer loop of `Multiply` (BigInteger.h:200-210): remaining digits of the left operand, all
digits of the right operand, `result.digits_` from position `i` on. -/
def mulOuter : List Int → List Int → List Int → Res (List Int)
  | [], _, rs => .ok rs
  | x :: xs, ys, rs => do
    let rs' ← mulInner x ys rs 0
    let rest ← mulOuter xs ys rs'.tail
    return rs'.take 1 ++ rest

/-- `Multiply` (BigInteger.h:195-214), `operator*` (BigInteger.h:451-454). -/
def multiply (a b : BigInt) : Res BigInt := do
  let ds ← mulOuter a.digits b.digits (List.replicate (a.digits.length + b.digits.length) 0)
  return removeLeadingZeros ⟨ds, a.neg != b.neg⟩

/-- The binary search for the next quotient digit (BigInteger.h:235-248). -/
def divSearch (divisor current : BigInt) : Nat → Int → Int → Int → Res Int
  | 0, _, _, _ => .error .fuel
  | n + 1, x, left, right =>
    if left ≤ right then do
      let mid := (left + right).tdiv 2
      let tmp ← multiply divisor (← ofInt mid)
      if lessThan tmp current || equal tmp current then divSearch divisor current n mid (mid + 1) right
      else divSearch divisor current n x left (mid - 1)
    else .ok x

/-- The main loop of `Divide` (BigInteger.h:228-251) over the digits of the dividend, most
significant first. The search interval 0..10 shrinks in every round, so 12 rounds of fuel are
enough (see the proofs). -/
def divLoop (divisor : BigInt) : List Int → BigInt → BigInt → Res BigInt
  | [], quotient, _ => .ok quotient
  | d :: ds, quotient, current => do
    let current := removeLeadingZeros ⟨d :: current.digits, current.neg⟩
    let x ← divSearch divisor current 12 0 0 10
    let current ← subtract current (← multiply divisor (← ofInt x))
    divLoop divisor ds ⟨x :: quotient.digits, quotient.neg⟩ current

/-- `Divide` (BigInteger.h:216-257), `operator/` (BigInteger.h:456-459). -/
def divide (a b : BigInt) : Res BigInt := do
  if equal b (← parse c!"0") then .error .invalidArgument
  else do
    let q ← divLoop ⟨b.digits, false⟩ a.digits.reverse (← parse c!"0") (← parse c!"0")
    return removeLeadingZeros ⟨q.digits, a.neg != b.neg⟩

/-- `Modulo` (BigInteger.h:259-267), `operator%` (BigInteger.h:461-464). -/
def modulo (a b : BigInt) : Res BigInt := do
  let r ← subtract a (← multiply (← divide a b) b)
  return ⟨r.digits, if r.neg ≠ a.neg then a.neg else r.neg⟩

/-- `Abs` (BigInteger.h:270-275). -/
def abs (a : BigInt) : BigInt := ⟨a.digits, false⟩

/-- The loop of `Pow` (BigInteger.h:286-294). -/
def powLoop : Nat → BigInt → BigInt → Int → Res BigInt
  | 0, _, _, _ => .error .fuel
  | n + 1, result, base, exponent =>
    if 0 < exponent then do
      let result ← if exponent.tmod 2 = 1 then multiply result base else .ok result
      powLoop n result (← multiply base base) (exponent.tdiv 2)
    else .ok result

/-- `Pow` (BigInteger.h:277-296). `fuel` bounds the number of loop rounds. -/
def pow (fuel : Nat) (a : BigInt) (exponent : Int) : Res BigInt :=
  if exponent < 0 then .error .invalidArgument
  else do powLoop fuel (← parse c!"1") a exponent

/-- `Sqr` (BigInteger.h:298-301). -/
def sqr (a : BigInt) : Res BigInt := multiply a a

/-- The loop of `Sqrt` (BigInteger.h:317-333). -/
def sqrtLoop (this : BigInt) : Nat → BigInt → BigInt → Res BigInt
  | 0, _, _ => .error .fuel
  | n + 1, low, high =>
    if lessThan low high || equal low high then do
      let mid ← divide (← add low high) (← parse c!"2")
      let squared ← sqr mid
      if equal squared this then .ok mid
      else if lessThan squared this then sqrtLoop this n (← add mid (← parse c!"1")) high
      else sqrtLoop this n low (← subtract mid (← parse c!"1"))
    else .ok high

/-- `Sqrt` (BigInteger.h:303-335). `fuel` bounds the number of loop rounds. -/
def sqrt (fuel : Nat) (a : BigInt) : Res BigInt :=
  if a.neg then .error .invalidArgument
  else do
    if equal a (← parse c!"0") || equal a (← parse c!"1") then .ok a
    else sqrtLoop a fuel (← parse c!"1") a

/-- `Size` (BigInteger.h:338-341). -/
def size (a : BigInt) : Nat := a.digits.length

/-- `ToString` (BigInteger.h:373-389), which `operator<<` (BigInteger.h:466-470) writes. `static_cast<char>` keeps the low byte. -/
def toString (a : BigInt) : Str :=
  if a.digits.isEmpty then c!"0"
  else
    (if a.neg then [Chr.ofByte 0x2D] else []) ++
      a.digits.reverse.map fun d => Chr.ofByte (UInt8.ofNat ((d + 0x30) % 256).toNat)

/-- `operator<` (BigInteger.h:411-414). -/
def opLt (a b : BigInt) : Bool := lessThan a b
/-- `operator>` (BigInteger.h:416-419). -/
def opGt (a b : BigInt) : Bool := greaterThan a b
/-- `operator<=` (BigInteger.h:421-424). -/
def opLe (a b : BigInt) : Bool := lessThan a b || equal a b
/-- `operator>=` (BigInteger.h:426-429). -/
def opGe (a b : BigInt) : Bool := greaterThan a b || equal a b
/-- `operator==` (BigInteger.h:431-434). -/
def opEq (a b : BigInt) : Bool := equal a b
/-- `operator!=` (BigInteger.h:436-439). -/
def opNe (a b : BigInt) : Bool := !equal a b

end BigInt
end Caitlyn
