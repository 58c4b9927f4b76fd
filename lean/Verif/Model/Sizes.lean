import Verif.Basic

/-! # Model of `SizeOf` (__Core/Memory/Utility/SizeCalculation.h) and of the comparison of `Unexpected` -/

namespace Caitlyn.Sizes
open Caitlyn

/-- `MemoryFormat` (MemoryFormat.h:24-28). -/
inductive MemoryFormat where
  | bit
  | byte
  deriving DecidableEq, Repr

/-- `SizeOf<T>(mf)` and `SizeOf(value, mf)` (SizeCalculation.h:25-35) for a type of this `sizeof`; `SizeType` has 64 bits. -/
def bytesOrBits (sizeof : UInt64) (mf : MemoryFormat := .byte) : UInt64 := if mf = .byte then sizeof else sizeof * 8

/-- `operator==` of `Unexpected` (Unexpected.h:59-63) for errors with this `operator==`. -/
def unexpectedEq {E : Type} (eq : E → E → Bool) (lhs rhs : E) : Bool := eq lhs rhs
/-- `operator!=` of `Unexpected` (Unexpected.h:65-69). -/
def unexpectedNe {E : Type} (eq : E → E → Bool) (lhs rhs : E) : Bool := !unexpectedEq eq lhs rhs

end Caitlyn.Sizes
