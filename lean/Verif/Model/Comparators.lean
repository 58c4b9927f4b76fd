import Verif.Basic

/-!
# Model of `cmp_eq` and `cmp_less` (__Core/Utility/Comparators.h:26-40, 49-63)

Integer types are given by signedness and width (Linux LP64: 8, 16, 32, 64 bits), values by mathematical
integers in the range of the type. `cmp_ne`, `cmp_greater`, `cmp_le` and `cmp_ge`
(Comparators.h:42-81) call functions that do not exist, so they cannot be instantiated and are not
modelled. `bool` and enumerations are not integer types here (`make_unsigned<bool>` is ill-formed).
-/

namespace Caitlyn.Cmp

/-- A C++ integer type. -/
structure IntTy where
  signed : Bool
  bits : Nat
  deriving DecidableEq, Repr

/-- The conversion of a value to type `ty` (C++11 4.7): modulo `2^bits`, into the range of the type
(implementation-defined for signed targets, modulo on every common platform). -/
def conv (ty : IntTy) (v : Int) : Int :=
  if ty.signed then Int.bmod v (2 ^ ty.bits) else v % (2 ^ ty.bits : Nat)

/-- Integer promotion (C++11 4.5): narrow types become `int`. -/
def promote (ty : IntTy) : IntTy := if ty.bits < 32 then ⟨true, 32⟩ else ty

/-- The common type of the usual arithmetic conversions (C++11 5p9) for promoted types. -/
def common (a b : IntTy) : IntTy :=
  if a.signed = b.signed then (if a.bits ≥ b.bits then a else b)
  else if a.signed then (if b.bits ≥ a.bits then b else a)
  else (if a.bits ≥ b.bits then a else b)

/-- `t == u` for operands of types `a` and `b`. -/
def builtinEq (a b : IntTy) (t u : Int) : Bool :=
  let c := common (promote a) (promote b)
  conv c t == conv c u

/-- `t < u` for operands of types `a` and `b`. -/
def builtinLt (a b : IntTy) (t u : Int) : Bool :=
  let c := common (promote a) (promote b)
  decide (conv c t < conv c u)

/-- `std::make_unsigned<T>::type`. -/
def mkUnsigned (ty : IntTy) : IntTy := ⟨false, ty.bits⟩

/-- `cmp_eq` (Comparators.h:26-40). The literal `0` is an `int`. -/
def cmpEq (a b : IntTy) (t u : Int) : Bool :=
  if a.signed = b.signed then builtinEq a b t u
  else if a.signed then !builtinLt a ⟨true, 32⟩ t 0 && builtinEq (mkUnsigned a) b (conv (mkUnsigned a) t) u
  else !builtinLt b ⟨true, 32⟩ u 0 && builtinEq a (mkUnsigned b) t (conv (mkUnsigned b) u)

/-- `cmp_less` (Comparators.h:49-63). -/
def cmpLess (a b : IntTy) (t u : Int) : Bool :=
  if a.signed = b.signed then builtinLt a b t u
  else if a.signed then builtinLt a ⟨true, 32⟩ t 0 || builtinLt (mkUnsigned a) b (conv (mkUnsigned a) t) u
  else !builtinLt b ⟨true, 32⟩ u 0 && builtinLt a (mkUnsigned b) t (conv (mkUnsigned b) u)

end Caitlyn.Cmp
