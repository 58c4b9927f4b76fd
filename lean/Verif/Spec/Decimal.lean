import Verif.Model.BigInt

/-!
# Reference: integers and their decimal notation

Independent of the arithmetic of the model: only Lean's integers and Lean core's decimal
printing (`toString`, `Nat.toDigits`).
-/

namespace Caitlyn
namespace Spec

/-- The usual decimal notation of an integer ("0", "42", "-7"), as elements of a `String`. -/
def decimal (z : Int) : Str := (toString z).toList.map fun c => Chr.ofByte (UInt8.ofNat c.toNat)

/-- Decimal digits of `n`, least significant first; none for 0. -/
def digs (n : Nat) : List Int :=
  if n = 0 then [] else (Nat.toDigits 10 n).reverse.map fun c => ((c.toNat - 48 : Nat) : Int)

/-- The canonical `BigInteger` of an integer: its digits without leading zeros, the sign flag set
iff it is negative (so zero has no digits and no sign). -/
def big (z : Int) : BigInt := ⟨digs z.natAbs, decide (z < 0)⟩

/-- "Negative zero": no digits, but the sign flag set. -/
def negZero : BigInt := ⟨[], true⟩

end Spec
end Caitlyn
